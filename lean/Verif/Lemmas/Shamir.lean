import Verif.Lemmas.Dkg

/-! Helper lemmas for the secrecy of the sharing. -/

namespace Verif

theorem toPoly_ofFn {t : ℕ} {p : Polynomial Fr} (h : p.degree < (t : ℕ)) :
    toPoly (List.ofFn fun i : Fin t => p.coeff i) = p := by
  ext i
  rw [coeff_toPoly]
  by_cases hi : i < t
  · simp [hi]
  · rw [Polynomial.coeff_eq_zero_of_degree_lt (lt_of_lt_of_le h (by exact_mod_cast not_lt.1 hi))]
    simp [hi]

theorem list_eq_of_toPoly {c d : List Fr} (hl : c.length = d.length) (h : toPoly c = toPoly d) :
    c = d := by
  apply List.ext_getElem hl
  intro i h1 h2
  have := congrArg (fun p => Polynomial.coeff p i) h
  simpa [coeff_toPoly, h1, h2] using this

/-- Interpolation: prescribed values at distinct points, as a coefficient list. -/
theorem exists_coeffs {t : ℕ} (S : Finset Fr) (hS : S.card ≤ t) (v : Fr → Fr) :
    ∃ c : List Fr, c.length = t ∧ ∀ x ∈ S, Spec.poly c x = v x := by
  have hinj : Set.InjOn (id : Fr → Fr) (S : Set Fr) := fun a _ b _ h => h
  refine ⟨List.ofFn fun i : Fin t => (Lagrange.interpolate S id v).coeff i, by simp, ?_⟩
  intro x hx
  have hd : (Lagrange.interpolate S id v).degree < (t : ℕ) :=
    lt_of_lt_of_le (Lagrange.degree_interpolate_lt v hinj) (by exact_mod_cast hS)
  rw [← eval_toPoly, toPoly_ofFn hd]
  exact Lagrange.eval_interpolate_at_node v hinj hx

/-- A coefficient list of length `t` is determined by its values at `t` distinct points. -/
theorem coeffs_unique {t : ℕ} (S : Finset Fr) (hS : t ≤ S.card) {c d : List Fr}
    (hc : c.length = t) (hd : d.length = t) (h : ∀ x ∈ S, Spec.poly c x = Spec.poly d x) : c = d := by
  apply list_eq_of_toPoly (by omega)
  apply Polynomial.eq_of_degrees_lt_of_eval_finset_eq S
  · exact lt_of_lt_of_le (degree_toPoly c) (by exact_mod_cast (by omega))
  · exact lt_of_lt_of_le (degree_toPoly d) (by exact_mod_cast (by omega))
  · intro x hx; rw [eval_toPoly, eval_toPoly, h x hx]

theorem poly_zipWith_add : ∀ (c d : List Fr), c.length = d.length → ∀ x,
    Spec.poly (List.zipWith (· + ·) c d) x = Spec.poly c x + Spec.poly d x
  | [], [], _, x => by simp [poly_nil]
  | a :: c, b :: d, h, x => by
      rw [List.zipWith_cons_cons, poly_cons, poly_cons, poly_cons,
        poly_zipWith_add c d (by simpa using h)]
      ring

theorem zipWith_sub_add : ∀ (c d : List Fr), c.length = d.length →
    List.zipWith (· - ·) (List.zipWith (· + ·) c d) d = c
  | [], [], _ => rfl
  | a :: c, b :: d, h => by simp [zipWith_sub_add c d (by simpa using h)]

theorem zipWith_add_sub : ∀ (c d : List Fr), c.length = d.length →
    List.zipWith (· + ·) (List.zipWith (· - ·) c d) d = c
  | [], [], _ => rfl
  | a :: c, b :: d, h => by simp [zipWith_add_sub c d (by simpa using h)]

theorem poly_zipWith_sub (c d : List Fr) (h : c.length = d.length) (x : Fr) :
    Spec.poly (List.zipWith (· - ·) c d) x = Spec.poly c x - Spec.poly d x := by
  have h1 := poly_zipWith_add (List.zipWith (· - ·) c d) d (by simp [h]) x
  rw [zipWith_add_sub c d h] at h1
  rw [h1]; ring

/-- The share list at a position is the polynomial value. -/
theorem shares_getElem {coeffs : List Fr} {n : ℕ} {i : ℕ}
    (h1 : 1 ≤ i) (h2 : i ≤ n) :
    ((List.range' 1 n).map (fun i : ℕ => Spec.poly coeffs (i : Fr)))[i - 1]? =
      some (Spec.poly coeffs (i : Fr)) := by
  rw [List.getElem?_map, List.getElem?_range' (by omega)]
  have : 1 + (i - 1) = i := by omega
  simp [this]

theorem consistent_iff {n t : ℕ} (ht : 0 < t) (hn : 1 ≤ n) {S : Finset ℕ}
    (hS : ∀ i ∈ S, 1 ≤ i ∧ i ≤ n) (obs : ℕ → Fr) (s : Fr) (c : List Fr) :
    Spec.ConsistentWith n t S obs s c ↔
      c.length = t ∧ Spec.poly c 0 = s ∧ ∀ i ∈ S, Spec.poly c (i : Fr) = obs i := by
  constructor
  · rintro ⟨h1, h2, sh, h3, h4⟩
    have hne : c ≠ [] := by rintro rfl; simp at h1; omega
    refine ⟨h1, ?_, ?_⟩
    · cases c with
      | nil => exact absurd rfl hne
      | cons a l => rw [poly_zero_eval]; simpa using h2
    · intro i hi
      have h5 := h4 i hi
      rw [shares_eq hne hn] at h3
      rw [← Except.ok.inj h3, shares_getElem (hS i hi).1 (hS i hi).2] at h5
      exact Option.some.inj h5
  · rintro ⟨h1, h2, h3⟩
    have hne : c ≠ [] := by rintro rfl; simp at h1; omega
    refine ⟨h1, ?_, _, shares_eq hne hn, ?_⟩
    · cases c with
      | nil => exact absurd rfl hne
      | cons a l => rw [poly_zero_eval] at h2; simp [h2]
    · intro i hi
      rw [shares_getElem (hS i hi).1 (hS i hi).2, h3 i hi]

/-- Member indices together with `0`, as field elements. -/
def nodes (S : Finset ℕ) : Finset Fr := insert 0 (S.image (fun i : ℕ => (i : Fr)))

theorem nodes_facts {n : ℕ} (hn : n < r) {S : Finset ℕ} (hS : ∀ i ∈ S, 1 ≤ i ∧ i ≤ n) :
    (nodes S).card = S.card + 1 ∧ (0 : Fr) ∉ S.image (fun i : ℕ => (i : Fr)) ∧
      Set.InjOn (fun i : ℕ => (i : Fr)) (S : Set ℕ) := by
  have hinj : Set.InjOn (fun i : ℕ => (i : Fr)) (S : Set ℕ) := by
    intro a ha b hb hab
    have := hS a ha
    have := hS b hb
    exact natCast_inj_of_lt (by omega) (by omega) hab
  have h0 : (0 : Fr) ∉ S.image (fun i : ℕ => (i : Fr)) := by
    intro h
    obtain ⟨i, hi, h⟩ := Finset.mem_image.1 h
    have := hS i hi
    have h2 : i = 0 := natCast_inj_of_lt (by omega) (by omega) (by simpa using h)
    omega
  refine ⟨?_, h0, hinj⟩
  rw [nodes, Finset.card_insert_of_notMem h0, Finset.card_image_of_injOn hinj]

/-- Prescribed value at zero and at the members' indices. -/
theorem exists_through {n t : ℕ} (hn : n < r) {S : Finset ℕ} (hS : ∀ i ∈ S, 1 ≤ i ∧ i ≤ n)
    (hc : S.card < t) (obs : ℕ → Fr) (s : Fr) :
    ∃ c : List Fr, c.length = t ∧ Spec.poly c 0 = s ∧ ∀ i ∈ S, Spec.poly c (i : Fr) = obs i := by
  obtain ⟨hcard, h0, hinj⟩ := nodes_facts hn hS
  obtain ⟨c, hl, hv⟩ := exists_coeffs (t := t) (nodes S) (by omega)
    (fun x => if x = 0 then s else obs x.val)
  refine ⟨c, hl, ?_, ?_⟩
  · have := hv 0 (by simp [nodes])
    simpa using this
  · intro i hi
    have hmem : (i : Fr) ∈ nodes S := by
      simp only [nodes, Finset.mem_insert, Finset.mem_image]
      exact Or.inr ⟨i, hi, rfl⟩
    have h1 := hv _ hmem
    have hne : (i : Fr) ≠ 0 := fun h => h0 (Finset.mem_image.2 ⟨i, hi, h⟩)
    rw [if_neg hne] at h1
    have := hS i hi
    rw [h1, ZMod.val_natCast, Nat.mod_eq_of_lt (by omega)]

end Verif
