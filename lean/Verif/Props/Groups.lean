import Verif.Lemmas.Pairing

/-! Property C49: the groups have the claimed prime orders. -/

namespace Verif.Props
open Verif WeierstrassCurve.Affine

/-- C49. The two moduli are prime, of the documented size. -/
theorem C49_moduli_prime : q.Prime ∧ r.Prime ∧ r < q ∧ q < 2 ^ 254 ∧ 2 ^ 253 < r :=
  ⟨prime_q, prime_r, by decide +kernel, by decide +kernel, by decide +kernel⟩

/-- C49. The curve `y² = x³ + 3` over `Fq` has exactly `r` points (infinity included) and
`y² = x³ - 17` over `Fr` exactly `q`; each is generated by the base point the code uses, and no
finite point has `y = 0`. -/
theorem C49_curve_orders :
    Nat.card G1 = r ∧ Nat.card Gk = q ∧
    (∀ P : G1, ∃! k : Fr, P = k • g1) ∧ (∀ P : Gk, ∃! k : Fq, P = k • gk) ∧
    (∀ x y : Fq, y ^ 2 = x ^ 3 + 3 → y ≠ 0) ∧ (∀ x y : Fr, y ^ 2 = x ^ 3 - 17 → y ≠ 0) := by
  refine ⟨card_G1, card_Gk, ?_, ?_, fun x y h => bn_y_ne_zero h,
    fun x y h => gk_y_ne_zero (by rw [h]; ring)⟩
  · intro P
    obtain ⟨k, hk⟩ := g1_generates P
    exact ⟨k, hk, fun k' hk' => smul_g1_inj (hk'.symm.trans hk)⟩
  · intro P
    obtain ⟨k, hk⟩ := gk_generates P
    refine ⟨k, hk, fun k' hk' => ?_⟩
    have h2 : (k' - k) • gk = 0 := by rw [sub_smul, ← hk, ← hk', sub_self]
    rcases smul_Gk_eq_zero h2 with h3 | h3
    · linear_combination h3
    · exact absurd h3 gk_ne_zero

/-- C49. Points are counted by the equation: finite points are the pairs satisfying it. -/
theorem C49_points_are_solutions :
    (∀ x y : Fq, (∃ P : G1, P ≠ 0 ∧ coords P = (x, y)) ↔ y ^ 2 = x ^ 3 + 3) ∧
    (∀ x y : Fr, (∃ P : Gk, P ≠ 0 ∧ coords P = (x, y)) ↔ y ^ 2 = x ^ 3 - 17) := by
  constructor
  · intro x y
    constructor
    · rintro ⟨P, h0, hP⟩
      cases P with
      | zero => exact absurd rfl h0
      | some a b h =>
        cases hP
        exact (bn_nonsingular_iff x y).1 h
    · intro h
      exact ⟨.some x y ((bn_nonsingular_iff x y).2 h), Point.some_ne_zero _, rfl⟩
  · intro x y
    constructor
    · rintro ⟨P, h0, hP⟩
      cases P with
      | zero => exact absurd rfl h0
      | some a b h =>
        cases hP
        have := (gk_nonsingular_iff x y).1 h
        rw [this]; ring
    · intro h
      exact ⟨.some x y ((gk_nonsingular_iff x y).2 (by rw [h]; ring)), Point.some_ne_zero _, rfl⟩

/-- C49. The G2 generator has order exactly `r`, and the points of the twist killed by `r` are
exactly its multiples. -/
theorem C49_g2_subgroup :
    addOrderOf g2 = r ∧ ∀ Q : G2, r • Q = 0 ↔ ∃ k : Fr, Q = smul2 k g2 :=
  ⟨addOrderOf_g2, fun _ => ⟨torsion_eq_smul2, by rintro ⟨k, rfl⟩; exact smul2_torsion k⟩⟩

end Verif.Props
