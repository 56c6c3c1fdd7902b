import Verif.Lemmas.Halo2Rows

/-! The quotient argument: if a constraint fails in some row, few challenges let a proof pass. -/

namespace Verif.Spec.Halo2
open Polynomial

/-! ### Lagrange polynomials outside the rows -/

theorem inv_pow_row {w : Fr} {n : ℕ} (hw : IsPrimitiveRoot w n) (hn : n ≠ 0) {i : ℕ} (hi : i ≤ n) :
    w⁻¹ ^ i = w ^ (n - i) := by
  have h0 : w ≠ 0 := hw.ne_zero hn
  rw [inv_pow]
  refine inv_eq_of_mul_eq_one_left ?_
  rw [← pow_add, Nat.sub_add_cancel hi, hw.pow_eq_one]

theorem rowPoly_eval (V : Key) (hV : V.Valid) {i : ℕ} (hi : i < V.n) {x : Fr} (hx : x ^ V.n ≠ 1) :
    (rowPoly V i).eval x = lagrangeAt V.n x (V.omega ^ i) := by
  have hn : V.n ≠ 0 := pow_ne_zero _ two_ne_zero
  refine eval_basis_rows hV.root hn hi ?_
  rintro rfl
  exact hx (row_pow hV.root i)

/-- Outside the rows, the constraints of the verifier are those of the polynomials. -/
theorem rowAt_eq (V : Key) (hV : V.Valid) (K : KeyPolys) (inst : List Fr) (hi : inst.length ≤ V.n) (P : Polys)
    {x : Fr} (hx : x ^ V.n ≠ 1) : rowAt V K inst P x =
      ⟨evalsAt V K P x, instanceAt V inst x, l0 V x, lLast V x, lBlind V x⟩ := by
  have hn : V.n ≠ 0 := pow_ne_zero _ two_ne_zero
  have h8 := eight_le V hV
  unfold rowAt
  congr 1
  · unfold instPoly instanceAt
    rw [eval_finsetSum]
    refine Finset.sum_congr rfl fun i h => ?_
    have := Finset.mem_range.1 h
    rw [eval_mul, eval_C, rowPoly_eval V hV (by omega) hx, mul_comm]
  · rw [rowPoly_eval V hV (by omega) hx, pow_zero, l0]
  · rw [rowPoly_eval V hV (by omega) hx, lLast, inv_pow_row hV.root hn (by omega)]
  · unfold lBlind
    refine Finset.sum_congr rfl fun i h => ?_
    have := Finset.mem_range.1 h
    rw [rowPoly_eval V hV (by omega) hx, inv_pow_row hV.root hn (by omega), Nat.sub_sub, Nat.add_comm 1]

/-! ### Combination with powers of `y` -/

theorem combine_append (y t : Fr) (l : List Fr) : combine y (l ++ [t]) = combine y l * y + t := by
  unfold combine
  rw [List.foldl_append]
  rfl

theorem combine_sum (y : Fr) (l : List Fr) :
    combine y l = ∑ i ∈ Finset.range l.length, y ^ i * l.reverse.getD i 0 := by
  induction l using List.reverseRecOn with
  | nil => rfl
  | append_singleton l t ih =>
    rw [combine_append, ih, List.length_append, List.length_singleton, Finset.sum_range_succ',
      List.reverse_append, List.reverse_singleton, Finset.sum_mul]
    simp only [List.singleton_append, List.getD_cons_succ, List.getD_cons_zero, pow_zero, one_mul, pow_succ]
    congr 1
    exact Finset.sum_congr rfl fun i _ => by ring

theorem combine_bad {l : List Fr} {c : Fr} (hc : c ∈ l) (h0 : c ≠ 0) :
    ∃ B : Finset Fr, B.card ≤ l.length - 1 ∧ ∀ y ∉ B, combine y l ≠ 0 := by
  obtain ⟨j, hj, rfl⟩ := List.mem_iff_getElem.1 (List.mem_reverse.2 hc)
  rw [List.length_reverse] at hj
  obtain ⟨B, hB, h⟩ := few_roots l.length (fun i => l.reverse.getD i 0) hj (by
    rw [List.getD_eq_getElem _ _ (by rw [List.length_reverse]; exact hj)]
    exact h0)
  refine ⟨B, hB, fun y hy => ?_⟩
  rw [combine_sum]
  exact h y hy

theorem combine_poly {d : ℕ} {F : Fr → List Fr} (h : IsPolyList d F) (y : Fr) :
    IsPoly d fun x => combine y (F x) := by
  obtain ⟨l, h1, h2⟩ := h
  simp only [h2]
  clear h2
  induction l using List.reverseRecOn with
  | nil => exact (IsPoly.const 0).mono (Nat.zero_le _)
  | append_singleton l t ih =>
    simp only [List.map_append, List.map_cons, List.map_nil, combine_append]
    have h3 := ih fun p hp => h1 p (List.mem_append_left _ hp)
    have h4 := IsPoly.poly t (h1 t (List.mem_append_right _ (List.mem_singleton_self t)))
    exact ((h3.mul (.const y)).add h4).mono (by omega)

/-! ### The opened values -/

theorem points_ne (V : Key) (hV : V.Valid) {x : Fr} (hx : x ≠ 0) :
    x * V.omega⁻¹ ≠ x ∧ x * V.omega⁻¹ ≠ x * V.omega ∧ x ≠ x * V.omega ∧ x * V.omega⁻¹ ^ 6 ≠ x ∧
      x * V.omega⁻¹ ^ 6 ≠ x * V.omega := by
  have hn : V.n ≠ 0 := pow_ne_zero _ two_ne_zero
  have h8 := eight_le V hV
  have key : ∀ i j, i < V.n → j < V.n → i ≠ j → x * V.omega ^ i ≠ x * V.omega ^ j := by
    intro i j hi hj hij h
    exact hij (hV.root.pow_inj hi hj (mul_left_cancel₀ hx h))
  have e1 : x = x * V.omega ^ 0 := by rw [pow_zero, mul_one]
  have e2 : x * V.omega = x * V.omega ^ 1 := by rw [pow_one]
  have e3 : x * V.omega⁻¹ = x * V.omega ^ (V.n - 1) := by
    rw [← inv_pow_row hV.root hn (by omega), pow_one]
  have e4 : x * V.omega⁻¹ ^ 6 = x * V.omega ^ (V.n - 6) := by rw [← inv_pow_row hV.root hn (by omega)]
  have e0 : x * V.omega ^ 0 = x := e1.symm
  refine ⟨?_, ?_, ?_, ?_, ?_⟩
  · intro h
    exact key (V.n - 1) 0 (by omega) (by omega) (by omega) (by rw [← e3, e0]; exact h)
  · intro h
    exact key (V.n - 1) 1 (by omega) (by omega) (by omega) (by rw [← e3, ← e2]; exact h)
  · intro h
    exact key 0 1 (by omega) (by omega) (by omega) (by rw [e0, ← e2]; exact h)
  · intro h
    exact key (V.n - 6) 0 (by omega) (by omega) (by omega) (by rw [← e4, e0]; exact h)
  · intro h
    exact key (V.n - 6) 1 (by omega) (by omega) (by omega) (by rw [← e4, ← e2]; exact h)

theorem inj1 (a : Fr) : Function.Injective (![a] : Fin 1 → Fr) := fun i j _ => Subsingleton.elim i j

theorem inj2 {a b : Fr} (h : a ≠ b) : Function.Injective (![a, b] : Fin 2 → Fr) := by
  intro i j hij
  fin_cases i <;> fin_cases j
  · rfl
  · exact absurd hij h
  · exact absurd hij h.symm
  · rfl

theorem inj3 {a b c : Fr} (h : a ≠ b) (h' : a ≠ c) (h'' : b ≠ c) :
    Function.Injective (![a, b, c] : Fin 3 → Fr) := by
  intro i j hij
  fin_cases i <;> fin_cases j
  · rfl
  · exact absurd hij h
  · exact absurd hij h'
  · exact absurd hij h.symm
  · rfl
  · exact absurd hij h''
  · exact absurd hij h'.symm
  · exact absurd hij h''.symm
  · rfl

section opened
variable (V : Key) (K : KeyPolys) (Ch : Challenges) (inst : List Fr) (P : Polys) (e : Evals)

/-- Quantification over the sets. -/
theorem polySets_forall (p : PolySet → Prop) : (∀ S ∈ polySets V K Ch inst P e, p S) ↔
    p ((polySets V K Ch inst P e).getD 0 ⟨0, 0, []⟩) ∧ p ((polySets V K Ch inst P e).getD 1 ⟨0, 0, []⟩) ∧
    p ((polySets V K Ch inst P e).getD 2 ⟨0, 0, []⟩) ∧ p ((polySets V K Ch inst P e).getD 3 ⟨0, 0, []⟩) ∧
    p ((polySets V K Ch inst P e).getD 4 ⟨0, 0, []⟩) := by
  unfold polySets
  simp only [List.forall_mem_cons, List.not_mem_nil, false_implies, implies_true, and_true, List.getD_cons_zero,
    List.getD_cons_succ]

theorem opened_evals (h : ∀ S ∈ polySets V K Ch inst P e, S.Opened) : e = evalsAt V K P Ch.x ∧
    quotientEval V Ch inst e = (∑ i : Fin 5, (Ch.x ^ V.n) ^ (i : ℕ) • P.quotient i).eval Ch.x := by
  rw [polySets_forall] at h
  obtain ⟨h0, h1, h2, h3, h4⟩ := h
  have s0 (j : ℕ) (hj : j < 3) := h0 _ (List.getElem_mem (l := ((polySets V K Ch inst P e).getD 0 ⟨0, 0, []⟩).queries) (n := j) hj)
  have s1 (j : ℕ) (hj : j < 40) := h1 _ (List.getElem_mem (l := ((polySets V K Ch inst P e).getD 1 ⟨0, 0, []⟩).queries) (n := j) hj) (0 : Fin 1)
  have s2 (j : ℕ) (hj : j < 7) := h2 _ (List.getElem_mem (l := ((polySets V K Ch inst P e).getD 2 ⟨0, 0, []⟩).queries) (n := j) hj)
  have s3 (j : ℕ) (hj : j < 2) := h3 _ (List.getElem_mem (l := ((polySets V K Ch inst P e).getD 3 ⟨0, 0, []⟩).queries) (n := j) hj)
  have s4 (j : ℕ) (hj : j < 5) := h4 _ (List.getElem_mem (l := ((polySets V K Ch inst P e).getD 4 ⟨0, 0, []⟩).queries) (n := j) hj)
  refine ⟨?_, (s1 38 (by decide)).symm⟩
  obtain ⟨a, a4Next, aNext, aPrev, f, random, s, z, zNext, zLast, lz, lzNext, li, liPrev, lt⟩ := e
  unfold evalsAt
  rw [Evals.mk.injEq]
  refine ⟨?_, ?_, ?_, ?_, ?_, ?_, ?_, ?_, ?_, ?_, ?_, ?_, ?_, ?_, ?_⟩
  · funext i
    fin_cases i
    · exact (s0 0 (by decide) (1 : Fin 3)).symm
    · exact (s0 1 (by decide) (1 : Fin 3)).symm
    · exact (s0 2 (by decide) (1 : Fin 3)).symm
    · exact (s1 0 (by decide)).symm
    · exact (s2 0 (by decide) (0 : Fin 2)).symm
  · exact (s2 0 (by decide) (1 : Fin 2)).symm
  · funext i
    fin_cases i
    · exact (s0 0 (by decide) (2 : Fin 3)).symm
    · exact (s0 1 (by decide) (2 : Fin 3)).symm
    · exact (s0 2 (by decide) (2 : Fin 3)).symm
  · funext i
    fin_cases i
    · exact (s0 0 (by decide) (0 : Fin 3)).symm
    · exact (s0 1 (by decide) (0 : Fin 3)).symm
    · exact (s0 2 (by decide) (0 : Fin 3)).symm
  · funext i
    fin_cases i
    · exact (s1 6 (by decide)).symm
    · exact (s1 7 (by decide)).symm
    · exact (s1 8 (by decide)).symm
    · exact (s1 9 (by decide)).symm
    · exact (s1 10 (by decide)).symm
    · exact (s1 12 (by decide)).symm
    · exact (s1 13 (by decide)).symm
    · exact (s1 11 (by decide)).symm
    · exact (s1 14 (by decide)).symm
    · exact (s1 15 (by decide)).symm
    · exact (s1 16 (by decide)).symm
    · exact (s1 17 (by decide)).symm
    · exact (s1 21 (by decide)).symm
    · exact (s1 22 (by decide)).symm
    · exact (s1 23 (by decide)).symm
    · exact (s1 18 (by decide)).symm
    · exact (s1 19 (by decide)).symm
    · exact (s1 20 (by decide)).symm
    · exact (s1 24 (by decide)).symm
    · exact (s1 25 (by decide)).symm
    · exact (s1 26 (by decide)).symm
    · exact (s1 27 (by decide)).symm
    · exact (s1 28 (by decide)).symm
  · exact (s1 39 (by decide)).symm
  · funext i
    fin_cases i
    · exact (s1 29 (by decide)).symm
    · exact (s1 30 (by decide)).symm
    · exact (s1 31 (by decide)).symm
    · exact (s1 32 (by decide)).symm
    · exact (s1 33 (by decide)).symm
    · exact (s1 34 (by decide)).symm
    · exact (s1 35 (by decide)).symm
    · exact (s1 36 (by decide)).symm
    · exact (s1 37 (by decide)).symm
  · funext i
    fin_cases i
    · exact (s3 0 (by decide) (1 : Fin 3)).symm
    · exact (s3 1 (by decide) (1 : Fin 3)).symm
    · exact (s2 1 (by decide) (0 : Fin 2)).symm
  · funext i
    fin_cases i
    · exact (s3 0 (by decide) (2 : Fin 3)).symm
    · exact (s3 1 (by decide) (2 : Fin 3)).symm
    · exact (s2 1 (by decide) (1 : Fin 2)).symm
  · funext i
    fin_cases i
    · exact (s3 0 (by decide) (0 : Fin 3)).symm
    · exact (s3 1 (by decide) (0 : Fin 3)).symm
  · funext i
    fin_cases i
    · exact (s2 2 (by decide) (0 : Fin 2)).symm
    · exact (s2 3 (by decide) (0 : Fin 2)).symm
    · exact (s2 4 (by decide) (0 : Fin 2)).symm
    · exact (s2 5 (by decide) (0 : Fin 2)).symm
    · exact (s2 6 (by decide) (0 : Fin 2)).symm
  · funext i
    fin_cases i
    · exact (s2 2 (by decide) (1 : Fin 2)).symm
    · exact (s2 3 (by decide) (1 : Fin 2)).symm
    · exact (s2 4 (by decide) (1 : Fin 2)).symm
    · exact (s2 5 (by decide) (1 : Fin 2)).symm
    · exact (s2 6 (by decide) (1 : Fin 2)).symm
  · funext i
    fin_cases i
    · exact (s4 0 (by decide) (1 : Fin 2)).symm
    · exact (s4 1 (by decide) (1 : Fin 2)).symm
    · exact (s4 2 (by decide) (1 : Fin 2)).symm
    · exact (s4 3 (by decide) (1 : Fin 2)).symm
    · exact (s4 4 (by decide) (1 : Fin 2)).symm
  · funext i
    fin_cases i
    · exact (s4 0 (by decide) (0 : Fin 2)).symm
    · exact (s4 1 (by decide) (0 : Fin 2)).symm
    · exact (s4 2 (by decide) (0 : Fin 2)).symm
    · exact (s4 3 (by decide) (0 : Fin 2)).symm
    · exact (s4 4 (by decide) (0 : Fin 2)).symm
  · funext i
    fin_cases i
    · exact (s1 1 (by decide)).symm
    · exact (s1 2 (by decide)).symm
    · exact (s1 3 (by decide)).symm
    · exact (s1 4 (by decide)).symm
    · exact (s1 5 (by decide)).symm

theorem polySets_inj (hV : V.Valid) (hx : Ch.x ≠ 0) :
    ∀ S ∈ polySets V K Ch inst P e, Function.Injective S.points := by
  obtain ⟨h1, h2, h3, h4, h5⟩ := points_ne V hV hx
  rw [polySets_forall]
  exact ⟨inj3 h1 h2 h3, inj1 _, inj2 h3, inj3 h4 h5 h3, inj2 h1⟩

open Classical in
/-- All points opened. -/
noncomputable def allPoints (V : Key) (x : Fr) : Finset Fr :=
  {x, x * V.omega, x * V.omega⁻¹, x * V.omega⁻¹ ^ 6}

theorem allPoints_card (x : Fr) : (allPoints V x).card ≤ 4 := Finset.card_le_four

theorem mem_allPoints (x t : Fr) : t ∈ allPoints V x ↔
    t = x ∨ t = x * V.omega ∨ t = x * V.omega⁻¹ ∨ t = x * V.omega⁻¹ ^ 6 := by
  unfold allPoints
  simp only [Finset.mem_insert, Finset.mem_singleton]

theorem polySets_points : ∀ S ∈ polySets V K Ch inst P e, ∀ k, S.points k ∈ allPoints V Ch.x := by
  have m1 : Ch.x ∈ allPoints V Ch.x := (mem_allPoints _ _ _).2 (Or.inl rfl)
  have m2 : Ch.x * V.omega ∈ allPoints V Ch.x := (mem_allPoints _ _ _).2 (Or.inr (Or.inl rfl))
  have m3 : Ch.x * V.omega⁻¹ ∈ allPoints V Ch.x := (mem_allPoints _ _ _).2 (Or.inr (Or.inr (Or.inl rfl)))
  have m4 : Ch.x * V.omega⁻¹ ^ 6 ∈ allPoints V Ch.x := (mem_allPoints _ _ _).2 (Or.inr (Or.inr (Or.inr rfl)))
  rw [polySets_forall]
  refine ⟨?_, ?_, ?_, ?_, ?_⟩
  · rintro ⟨k, hk⟩
    change k < 3 at hk
    interval_cases k
    exacts [m3, m1, m2]
  · rintro ⟨k, hk⟩
    change k < 1 at hk
    interval_cases k
    exact m1
  · rintro ⟨k, hk⟩
    change k < 2 at hk
    interval_cases k
    exacts [m1, m2]
  · rintro ⟨k, hk⟩
    change k < 3 at hk
    interval_cases k
    exacts [m4, m1, m2]
  · rintro ⟨k, hk⟩
    change k < 2 at hk
    interval_cases k
    exacts [m3, m1]

theorem polySets_vanish {mu : Fr} (h : mu ∉ allPoints V Ch.x) :
    ∀ S ∈ polySets V K Ch inst P e, S.vanish mu ≠ 0 := by
  intro S hS
  refine Finset.prod_ne_zero_iff.2 fun k _ h0 => h ?_
  rw [sub_eq_zero.1 h0]
  exact polySets_points V K Ch inst P e S hS k

theorem polySets_size : ∀ S ∈ polySets V K Ch inst P e, S.size ≤ 3 ∧ S.queries.length ≤ 40 := by
  rw [polySets_forall]
  exact ⟨⟨(by decide : 3 ≤ 3), (by decide : 3 ≤ 40)⟩, ⟨(by decide : 1 ≤ 3), (by decide : 40 ≤ 40)⟩,
    ⟨(by decide : 2 ≤ 3), (by decide : 7 ≤ 40)⟩, ⟨(by decide : 3 ≤ 3), (by decide : 2 ≤ 40)⟩,
    ⟨(by decide : 2 ≤ 3), (by decide : 5 ≤ 40)⟩⟩

theorem quotient_natDegree {D : ℕ} (hP : P.Bound D) (t : Fr) :
    (∑ i : Fin 5, t ^ (i : ℕ) • P.quotient i).natDegree ≤ D :=
  natDegree_sum_le_of_forall_le _ _ fun i _ => (natDegree_smul_le _ _).trans (hP.quotient i)

theorem polySets_degree {D : ℕ} (hK : K.Bound D) (hP : P.Bound D) :
    ∀ S ∈ polySets V K Ch inst P e, ∀ q ∈ S.queries, q.1.natDegree ≤ D := by
  have a := hP.advice
  have f := hK.fixed
  have s := hK.perm
  have lt := hP.lookupTable
  have li := hP.lookupInput
  have z := hP.permProduct
  have lz := hP.lookupProduct
  have q := quotient_natDegree P hP (Ch.x ^ V.n)
  unfold polySets
  simp only [List.forall_mem_cons, List.not_mem_nil, false_implies, implies_true, and_true, a, f, s, lt, li, z, lz, q,
    hP.random]

end opened

/-! ### The quotient -/

theorem constraints_length (C : Challenges) (R : Row) : (constraints C R).length = 43 := rfl

/-- The constraints with these challenges in the row of `x`. -/
noncomputable def rowConstraints (V : Key) (K : KeyPolys) (inst : List Fr) (P : Polys) (theta beta gamma x : Fr) :
    List Fr :=
  constraints ⟨theta, beta, gamma, 0, x, 0, 0, 0⟩ (rowAt V K inst P x)

/-- A proof that passes the opening with true values satisfies an equation of polynomials. -/
theorem quotient_equation (V : Key) (hV : V.Valid) (K : KeyPolys) (Ch : Challenges) (inst : List Fr)
    (hi : inst.length ≤ V.n) (P : Polys) (e : Evals) (hx : Ch.x ^ V.n ≠ 1)
    (h : ∀ S ∈ polySets V K Ch inst P e, S.Opened) :
    combine Ch.y (rowConstraints V K inst P Ch.theta Ch.beta Ch.gamma Ch.x) =
      (Ch.x ^ V.n - 1) * ∑ i : Fin 5, (Ch.x ^ V.n) ^ (i : ℕ) * (P.quotient i).eval Ch.x := by
  obtain ⟨h1, h2⟩ := opened_evals V K Ch inst P e h
  have hx' : Ch.x ^ V.n - 1 ≠ 0 := sub_ne_zero.2 hx
  unfold quotientEval at h2
  rw [h1, ← rowAt_eq V hV K inst hi P hx, eval_finsetSum, div_eq_iff hx', mul_comm] at h2
  simp only [eval_smul, smul_eq_mul] at h2
  exact h2

/-- The challenges after the products. -/
theorem quotient_sound (V : Key) (hV : V.Valid) (K : KeyPolys) (D : ℕ) (hD : V.n ≤ D + 1) (hK : K.Bound D)
    (inst : List Fr) (hi : inst.length ≤ V.n) (theta beta gamma : Fr) (P : Polys) (hP : P.Bound D)
    {i : ℕ} {c : Fr} (hc : c ∈ rowConstraints V K inst P theta beta gamma (V.omega ^ i)) (h0 : c ≠ 0) :
    ∃ By : Finset Fr, By.card ≤ 42 ∧ ∀ y ∉ By, ∀ quot : Fin 5 → Fr[X], (∀ i, (quot i).natDegree ≤ D) →
    ∃ Bx : Finset Fr, Bx.card ≤ 6 * D + V.n + 6 ∧ ∀ x ∉ Bx, ∀ e : Evals,
    ∃ Bz : Finset Fr, Bz.card ≤ 39 ∧ ∀ zeta ∉ Bz,
    ∃ Bn : Finset Fr, Bn.card ≤ 4 ∧ ∀ nu ∉ Bn, ∀ w : Fr[X], w.natDegree ≤ D →
    ∃ Bm : Finset Fr, Bm.card ≤ D + 8 ∧ ∀ mu ∉ Bm,
      (⟨theta, beta, gamma, y, x, zeta, nu, mu⟩ : Challenges).Good V ∧ ∀ w' : Fr[X], openPoly V K ⟨theta, beta, gamma, y, x, zeta, nu, mu⟩ inst { P with quotient := quot } e w w' ≠ 0 := by
  classical
  have hn : V.n ≠ 0 := pow_ne_zero _ two_ne_zero
  have h8 := eight_le V hV
  obtain ⟨By, hBy, hy⟩ := combine_bad hc h0
  refine ⟨By, hBy, fun y hy' quot hq => ?_⟩
  have hP' : ({ P with quotient := quot } : Polys).Bound D :=
    ⟨hP.advice, hP.lookupInput, hP.lookupTable, hP.permProduct, hP.lookupProduct, hP.random, hq⟩
  obtain ⟨A, hA, hAe⟩ := combine_poly (poly_constraints hV hD hi hK hP ⟨theta, beta, gamma, 0, 0, 0, 0, 0⟩) y
  let M : Fr[X] := A - (X ^ V.n - 1) * ∑ i : Fin 5, (X ^ V.n) ^ (i : ℕ) * quot i
  have hMe : ∀ x, M.eval x = combine y (rowConstraints V K inst P theta beta gamma x) -
      (x ^ V.n - 1) * ∑ i : Fin 5, (x ^ V.n) ^ (i : ℕ) * (quot i).eval x := by
    intro x
    simp only [M, eval_sub, hAe, eval_mul, eval_finsetSum, eval_pow, eval_X, eval_one]
    rfl
  have hM0 : M ≠ 0 := by
    intro h
    have h1 := hMe (V.omega ^ i)
    rw [h, eval_zero, row_pow hV.root, sub_self, zero_mul, sub_zero] at h1
    exact hy y hy' h1.symm
  have hMd : M.natDegree ≤ 6 * D + 5 := by
    refine (natDegree_sub_le _ _).trans (max_le (hA.trans (by omega)) ?_)
    refine natDegree_mul_le.trans ?_
    have h1 : (X ^ V.n - 1 : Fr[X]).natDegree ≤ V.n :=
      (natDegree_sub_le _ _).trans (max_le (natDegree_X_pow_le _) (by rw [natDegree_one]; exact Nat.zero_le _))
    have h2 : (∑ i : Fin 5, (X ^ V.n) ^ (i : ℕ) * quot i : Fr[X]).natDegree ≤ 4 * V.n + D := by
      refine natDegree_sum_le_of_forall_le _ _ fun i _ => natDegree_mul_le.trans (add_le_add ?_ (hq i))
      rw [← pow_mul, mul_comm]
      exact (natDegree_X_pow_le _).trans (Nat.mul_le_mul_right _ (by have := i.2; omega))
    omega
  obtain ⟨B, hB, hb⟩ := few_roots_poly hM0 hMd
  have hR : (X ^ V.n - 1 : Fr[X]) ≠ 0 := X_pow_sub_C_ne_zero (Nat.pos_of_ne_zero hn) 1
  obtain ⟨B', hB', hb'⟩ := few_roots_poly hR (natDegree_X_pow_sub_C (n := V.n) (r := (1 : Fr))).le
  refine ⟨B ∪ B' ∪ {0}, ?_, fun x hx e => ?_⟩
  · refine (Finset.card_union_le _ _).trans ?_
    have := Finset.card_union_le B B'
    rw [Finset.card_singleton]
    omega
  rw [Finset.mem_union, Finset.mem_union, not_or, not_or, Finset.mem_singleton] at hx
  obtain ⟨⟨hx1, hx2⟩, hx3⟩ := hx
  have hxn : x ^ V.n ≠ 1 := by
    intro h
    have := hb' x hx2
    rw [eval_sub, eval_pow, eval_X, eval_one, h, sub_self] at this
    exact this rfl
  let Ch (zeta nu mu : Fr) : Challenges := ⟨theta, beta, gamma, y, x, zeta, nu, mu⟩
  let P' : Polys := { P with quotient := quot }
  have hsets : ∀ zeta nu mu, polySets V K (Ch zeta nu mu) inst P' e = polySets V K (Ch 0 0 0) inst P' e :=
    fun _ _ _ => rfl
  obtain ⟨Bz, hBz, hz⟩ := opening_sound (polySets V K (Ch 0 0 0) inst P' e) (allPoints V x) D 39
    (polySets_inj V K _ inst P' e hV hx3) (polySets_points V K (Ch 0 0 0) inst P' e)
    (polySets_degree V K _ inst P' e hK hP')
    (fun S hS => (polySets_size V K _ inst P' e S hS).1.trans (by omega))
    (fun S hS => (polySets_size V K _ inst P' e S hS).2)
  refine ⟨Bz, hBz, fun zeta hzeta => ?_⟩
  obtain ⟨Bn, hBn, hn'⟩ := hz zeta hzeta
  refine ⟨Bn, hBn, fun nu hnu w hw => ?_⟩
  obtain ⟨Bm, hBm, hm⟩ := hn' nu hnu w hw
  refine ⟨Bm ∪ allPoints V x, ?_, fun mu hmu => ?_⟩
  · refine (Finset.card_union_le _ _).trans ?_
    have := allPoints_card V x
    omega
  rw [Finset.mem_union, not_or] at hmu
  refine ⟨⟨hx3, hxn, ?_⟩, fun w' hopen => ?_⟩
  · have hm4 := hmu.2
    rw [mem_allPoints] at hm4
    simp only [not_or] at hm4
    exact hm4
  have hv := polySets_vanish V K (Ch 0 0 0) inst P' e hmu.2
  have hop : ∀ S ∈ polySets V K (Ch 0 0 0) inst P' e, S.Opened := by
    refine hm mu hmu.1 hv ?_
    have h1 := congrArg (eval mu) hopen
    unfold openPoly at h1
    simp only [eval_add, eval_smul, eval_sub, eval_mul, eval_C, eval_X, smul_eq_mul, sub_self, zero_mul, add_zero,
      eval_zero] at h1
    have h2 := (mul_eq_zero.1 h1).resolve_left (((polySets_forall V K (Ch 0 0 0) inst P' e
      (fun S => S.vanish mu ≠ 0)).1 hv).1)
    exact sub_eq_zero.1 h2
  have heq := quotient_equation V hV K (Ch 0 0 0) inst hi P' e hxn hop
  have h3 := hMe x
  have h4 : combine y (rowConstraints V K inst P theta beta gamma x) =
      (x ^ V.n - 1) * ∑ i : Fin 5, (x ^ V.n) ^ (i : ℕ) * (quot i).eval x := heq
  rw [h4, sub_self] at h3
  exact hb x hx1 h3

end Verif.Spec.Halo2
