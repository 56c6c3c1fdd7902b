import Mathlib.Algebra.Polynomial.Roots
import Mathlib.Algebra.Polynomial.Eval.Degree
import Mathlib.Algebra.Polynomial.Bivariate
import Verif.Lemmas.Halo2Opening

/-! The permutation and lookup arguments, without polynomials for the columns. -/

namespace Verif.Spec.Halo2
open Polynomial

/-! ### Running products -/

/-- Telescoping. -/
theorem running (z A B : ℕ → Fr) (u : ℕ) (h : ∀ i < u, z (i + 1) * A i = z i * B i) :
    z u * ∏ i ∈ Finset.range u, A i = z 0 * ∏ i ∈ Finset.range u, B i := by
  induction u with
  | zero => simp
  | succ u ih =>
    have h1 := ih fun i hi => h i (by omega)
    have h2 := h u (by omega)
    rw [Finset.prod_range_succ, Finset.prod_range_succ]
    calc z (u + 1) * ((∏ i ∈ Finset.range u, A i) * A u)
        = (z (u + 1) * A u) * ∏ i ∈ Finset.range u, A i := by ring
      _ = B u * (z u * ∏ i ∈ Finset.range u, A i) := by rw [h2]; ring
      _ = _ := by rw [h1]; ring

/-! ### Products of linear factors -/

section linear
variable {ι : Type*} [Fintype ι]

/-- `∏ (X + a)`. -/
noncomputable def linProd {R : Type*} [CommRing R] (a : ι → R) : R[X] := ∏ k, (X + C (a k))

theorem linProd_eval {R : Type*} [CommRing R] (a : ι → R) (t : R) : (linProd a).eval t = ∏ k, (t + a k) := by
  unfold linProd
  rw [eval_prod]
  simp

theorem linProd_monic {R : Type*} [CommRing R] (a : ι → R) : (linProd a).Monic :=
  monic_prod_of_monic _ _ fun _ _ => monic_X_add_C _

theorem linProd_natDegree {R : Type*} [CommRing R] [Nontrivial R] (a : ι → R) :
    (linProd a).natDegree = Fintype.card ι := by
  unfold linProd
  rw [natDegree_prod_of_monic _ _ fun _ _ => monic_X_add_C _]
  simp

/-- The product determines the factors. -/
theorem linProd_inj {R : Type*} [CommRing R] [IsDomain R] {a b : ι → R} (h : linProd a = linProd b) :
    (Finset.univ.val.map a) = Finset.univ.val.map b := by
  have key : ∀ a : ι → R, (linProd a).roots = Finset.univ.val.map fun k => - a k := by
    intro a
    have e : linProd a = ((Finset.univ.val.map fun k => - a k).map fun t => X - C t).prod := by
      unfold linProd
      rw [Multiset.map_map, Finset.prod_eq_multiset_prod]
      refine congrArg Multiset.prod (Multiset.map_congr rfl fun k _ => ?_)
      simp
    rw [e, roots_multiset_prod_X_sub_C]
  have h2 : (Finset.univ.val.map fun k => - a k) = Finset.univ.val.map fun k => - b k := by
    rw [← key a, ← key b, h]
  have h3 := congrArg (Multiset.map fun t => - t) h2
  rw [Multiset.map_map, Multiset.map_map] at h3
  simpa [Function.comp_def] using h3

/-- Degree of the coefficients of a product of factors linear in another variable. -/
theorem linProd_coeff_natDegree (a : ι → Fr[X]) (ha : ∀ k, (a k).natDegree ≤ 1) (m : ℕ) :
    ((linProd a).coeff m).natDegree ≤ Fintype.card ι := by
  classical
  have key : ∀ (s : Finset ι) (m : ℕ), ((∏ k ∈ s, (X + C (a k))).coeff m).natDegree ≤ s.card := by
    intro s
    induction s using Finset.induction_on with
    | empty =>
      intro m
      rw [Finset.prod_empty, coeff_one]
      split <;> simp
    | insert k s hk ih =>
      intro m
      rw [Finset.prod_insert hk, add_mul, coeff_add, coeff_C_mul, Finset.card_insert_of_notMem hk]
      refine (natDegree_add_le _ _).trans (max_le ?_ ?_)
      · cases m with
        | zero => rw [coeff_X_mul_zero, natDegree_zero]; exact Nat.zero_le _
        | succ m => rw [coeff_X_mul]; exact (ih m).trans (Nat.le_succ _)
      · refine natDegree_mul_le.trans ?_
        have := ha k
        have := ih m
        omega
  exact key Finset.univ m

theorem zero_factor {a : ι → Fr} {t : Fr} (h : ∏ k, (t + a k) = 0) : ∃ k, t = - a k := by
  obtain ⟨k, _, hk⟩ := Finset.prod_eq_zero_iff.1 h
  exact ⟨k, eq_neg_of_add_eq_zero_left hk⟩

theorem card_image_univ_le (f : ι → Fr) [DecidableEq Fr] : (Finset.univ.image f).card ≤ Fintype.card ι :=
  Finset.card_image_le

/-- The permutation argument on cells `ι` with values `c`, labels `d` and permuted labels `e`. -/
theorem permutation_sound (c d e : ι → Fr)
    (hne : (Finset.univ.val.map fun k => (c k, e k)) ≠ Finset.univ.val.map fun k => (c k, d k)) :
    ∃ Bb : Finset Fr, Bb.card ≤ Fintype.card ι ∧ ∀ beta ∉ Bb,
    ∃ Bg : Finset Fr, Bg.card ≤ 2 * Fintype.card ι ∧ ∀ gamma ∉ Bg, ∀ z : Fr, z ^ 2 = z →
      z * ∏ k, (c k + beta * e k + gamma) ≠ ∏ k, (c k + beta * d k + gamma) := by
  classical
  let lin (p : Fr × Fr) : Fr[X] := C p.1 + C p.2 * X
  have hlin : Function.Injective lin := by
    intro p p' h
    have h0 := congrArg (fun f => coeff f 0) h
    have h1 := congrArg (fun f => coeff f 1) h
    simp [lin] at h0 h1
    exact Prod.ext h0 h1
  let F := linProd fun k => lin (c k, e k)
  let G := linProd fun k => lin (c k, d k)
  have hFG : F - G ≠ 0 := by
    intro h
    have := linProd_inj (sub_eq_zero.1 h)
    refine hne (Multiset.map_injective hlin ?_)
    rw [Multiset.map_map, Multiset.map_map]
    exact this
  obtain ⟨m, hm⟩ : ∃ m, (F - G).coeff m ≠ 0 := by
    by_contra hc
    push Not at hc
    exact hFG (Polynomial.ext fun m => by rw [hc, coeff_zero])
  have hld : ∀ p, (lin p).natDegree ≤ 1 := by
    intro p
    refine (natDegree_add_le _ _).trans (max_le ?_ ?_)
    · rw [natDegree_C]; exact Nat.zero_le _
    · exact (natDegree_C_mul_le _ _).trans natDegree_X_le
  have hmd : ((F - G).coeff m).natDegree ≤ Fintype.card ι := by
    rw [coeff_sub]
    exact (natDegree_sub_le _ _).trans (max_le (linProd_coeff_natDegree _ (fun k => hld _) m)
      (linProd_coeff_natDegree _ (fun k => hld _) m))
  obtain ⟨Bb, hBb, hb⟩ := few_roots_poly hm hmd
  refine ⟨Bb, hBb, fun beta hbeta => ?_⟩
  have hmap : ∀ f : ι → Fr, (linProd fun k => lin (c k, f k)).map (evalRingHom beta) =
      linProd fun k => c k + beta * f k := by
    intro f
    unfold linProd
    rw [Polynomial.map_prod]
    refine Finset.prod_congr rfl fun k _ => ?_
    simp only [lin, Polynomial.map_add, Polynomial.map_X, Polynomial.map_C, coe_evalRingHom, eval_add, eval_mul, eval_C, eval_X]
    rw [mul_comm beta]
  have hne2 : (linProd fun k => c k + beta * e k) - (linProd fun k => c k + beta * d k) ≠ 0 := by
    rw [← hmap, ← hmap, ← Polynomial.map_sub]
    intro h
    have := congrArg (fun f => coeff f m) h
    simp only [coeff_map, coeff_zero, coe_evalRingHom] at this
    exact hb beta hbeta this
  obtain ⟨Bg, hBg, hg⟩ := few_roots_poly hne2 (d := Fintype.card ι)
    ((natDegree_sub_le _ _).trans (by rw [linProd_natDegree, linProd_natDegree, max_self]))
  refine ⟨Bg ∪ Finset.univ.image (fun k => -(c k + beta * d k)), ?_, ?_⟩
  · refine (Finset.card_union_le _ _).trans ?_
    have := card_image_univ_le (fun k => -(c k + beta * d k))
    omega
  · intro gamma hgamma z hz h
    rw [Finset.mem_union, not_or] at hgamma
    have e1 : ∀ f : ι → Fr, ∏ k, (c k + beta * f k + gamma) = (linProd fun k => c k + beta * f k).eval gamma := by
      intro f
      rw [linProd_eval]
      exact Finset.prod_congr rfl fun k _ => by ring
    rw [e1, e1] at h
    have hz' : z = 0 ∨ z = 1 := by
      have : z * (z - 1) = 0 := by linear_combination hz
      rcases mul_eq_zero.1 this with h | h
      · exact Or.inl h
      · exact Or.inr (sub_eq_zero.1 h)
    rcases hz' with rfl | rfl
    · rw [zero_mul, linProd_eval] at h
      obtain ⟨k, hk⟩ := zero_factor h.symm
      exact hgamma.2 (Finset.mem_image.2 ⟨k, Finset.mem_univ k, hk.symm⟩)
    · rw [one_mul] at h
      exact hg gamma hgamma.1 (by rw [eval_sub, h, sub_self])

/-- The product of the lookup argument. -/
theorem lookup_product_sound (A S A' S' : ι → Fr)
    (hne : (Finset.univ.val.map A') ≠ Finset.univ.val.map A ∨ (Finset.univ.val.map S') ≠ Finset.univ.val.map S) :
    ∃ Bb : Finset Fr, Bb.card ≤ 2 * Fintype.card ι ∧ ∀ beta ∉ Bb,
    ∃ Bg : Finset Fr, Bg.card ≤ 2 * Fintype.card ι ∧ ∀ gamma ∉ Bg, ∀ z : Fr, z ^ 2 = z →
      z * ∏ k, ((A' k + beta) * (S' k + gamma)) ≠ ∏ k, ((A k + beta) * (S k + gamma)) := by
  classical
  have hdiff : ∀ a b : ι → Fr, ∃ B : Finset Fr, B.card ≤ Fintype.card ι ∧
      ∀ t ∉ B, linProd a ≠ linProd b → (linProd a).eval t ≠ (linProd b).eval t := by
    intro a b
    by_cases h : linProd a = linProd b
    · exact ⟨∅, Nat.zero_le _, fun _ _ h' => absurd h h'⟩
    · obtain ⟨B, hB, hb⟩ := few_roots_poly (sub_ne_zero.2 h) (d := Fintype.card ι)
        ((natDegree_sub_le _ _).trans (by rw [linProd_natDegree, linProd_natDegree, max_self]))
      refine ⟨B, hB, fun t ht _ he => hb t ht ?_⟩
      rw [eval_sub, he, sub_self]
  obtain ⟨B1, hB1, hb1⟩ := hdiff A' A
  refine ⟨B1 ∪ Finset.univ.image (fun k => - A k), ?_, fun beta hbeta => ?_⟩
  · refine (Finset.card_union_le _ _).trans ?_
    have := card_image_univ_le (fun k => - A k)
    omega
  rw [Finset.mem_union, not_or] at hbeta
  have hA0 : (linProd A).eval beta ≠ 0 := by
    intro h
    rw [linProd_eval] at h
    obtain ⟨k, hk⟩ := zero_factor h
    exact hbeta.2 (Finset.mem_image.2 ⟨k, Finset.mem_univ k, hk.symm⟩)
  have hH : C ((linProd A').eval beta) * linProd S' - C ((linProd A).eval beta) * linProd S ≠ 0 := by
    intro h
    have hc := congrArg (fun f => coeff f (Fintype.card ι)) h
    simp only [coeff_sub, coeff_C_mul, coeff_zero] at hc
    have hl : ∀ a : ι → Fr, (linProd a).coeff (Fintype.card ι) = 1 := by
      intro a
      rw [← linProd_natDegree a]
      exact linProd_monic a
    rw [hl, hl, mul_one, mul_one, sub_eq_zero] at hc
    have hA : linProd A' = linProd A := by
      by_contra hno
      exact hb1 beta hbeta.1 hno hc
    rw [hc, ← mul_sub, mul_eq_zero] at h
    rcases h with h | h
    · exact hA0 (C_eq_zero.1 h)
    · rcases hne with h' | h'
      · exact h' (linProd_inj hA)
      · exact h' (linProd_inj (sub_eq_zero.1 h))
  obtain ⟨Bg, hBg, hg⟩ := few_roots_poly hH (d := Fintype.card ι) ((natDegree_sub_le _ _).trans (max_le
    ((natDegree_C_mul_le _ _).trans (by rw [linProd_natDegree]))
    ((natDegree_C_mul_le _ _).trans (by rw [linProd_natDegree]))))
  refine ⟨Bg ∪ Finset.univ.image (fun k => - S k), ?_, ?_⟩
  · refine (Finset.card_union_le _ _).trans ?_
    have := card_image_univ_le (fun k => - S k)
    omega
  · intro gamma hgamma z hz h
    rw [Finset.mem_union, not_or] at hgamma
    have e1 : ∀ a s : ι → Fr, ∏ k, ((a k + beta) * (s k + gamma)) =
        (linProd a).eval beta * (linProd s).eval gamma := by
      intro a s
      rw [linProd_eval, linProd_eval, ← Finset.prod_mul_distrib]
      exact Finset.prod_congr rfl fun k _ => by ring
    rw [e1, e1] at h
    have hz' : z = 0 ∨ z = 1 := by
      have : z * (z - 1) = 0 := by linear_combination hz
      rcases mul_eq_zero.1 this with h | h
      · exact Or.inl h
      · exact Or.inr (sub_eq_zero.1 h)
    rcases hz' with rfl | rfl
    · rw [zero_mul] at h
      have h0 := (mul_eq_zero.1 h.symm).resolve_left hA0
      rw [linProd_eval] at h0
      obtain ⟨k, hk⟩ := zero_factor h0
      exact hgamma.2 (Finset.mem_image.2 ⟨k, Finset.mem_univ k, hk.symm⟩)
    · rw [one_mul] at h
      refine hg gamma hgamma.1 ?_
      rw [eval_sub, eval_mul, eval_mul, eval_C, eval_C, h, sub_self]

end linear

/-- Every permuted input of a lookup is one of the permuted table values. -/
theorem lookup_chain (A' S' : ℕ → Fr) (u : ℕ) (h0 : A' 0 = S' 0)
    (h : ∀ i, i + 1 < u → A' (i + 1) = S' (i + 1) ∨ A' (i + 1) = A' i) :
    ∀ i < u, ∃ i' < u, A' i = S' i' := by
  intro i
  induction i with
  | zero => exact fun hu => ⟨0, hu, h0⟩
  | succ i ih =>
    intro hu
    rcases h i hu with h1 | h1
    · exact ⟨i + 1, hu, h1⟩
    · obtain ⟨i', hi', h2⟩ := ih (by omega)
      exact ⟨i', hi', h1.trans h2⟩

end Verif.Spec.Halo2
