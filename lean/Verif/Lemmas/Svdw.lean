import Verif.Model.Svdw
import Verif.Spec.Svdw
import Mathlib.Tactic.FieldSimp
import Mathlib.Tactic.LinearCombination

namespace Verif.Svdw
open Verif WeierstrassCurve.Affine

theorem isSquare_mul_of_not {a b : Fr} (ha : ¬ IsSquare a) (hb : ¬ IsSquare b) :
    IsSquare (a * b) := by
  have ha0 : a ≠ 0 := by rintro rfl; exact ha ⟨0, by ring⟩
  have hb0 : b ≠ 0 := by rintro rfl; exact hb ⟨0, by ring⟩
  rw [ZMod.euler_criterion r ha0] at ha
  rw [ZMod.euler_criterion r hb0] at hb
  rw [ZMod.euler_criterion r (mul_ne_zero ha0 hb0), mul_pow]
  rcases ZMod.pow_div_two_eq_neg_one_or_one r ha0 with h | h
  · exact absurd h ha
  rcases ZMod.pow_div_two_eq_neg_one_or_one r hb0 with h' | h'
  · exact absurd h' hb
  rw [h, h']; ring

/-- A square root of -1 and one of 3. -/
def im : Fr := 21888242871839275217838484774961031246007050428528088939761107053157389710902

theorem im_sq : im ^ 2 = -1 := by decide +kernel

/-- Algebraic core of the map, in any field. -/
theorem core {F : Type*} [Field F] (h2 : (2 : F) ≠ 0) (h3 : (3 : F) ≠ 0) (i c u k : F)
    (hi : i ^ 2 = -1) (hc : c ^ 2 = 48)
    (hm : 1 - 16 * u ^ 2 ≠ 0) (hp : 1 + 16 * u ^ 2 ≠ 0)
    (hk : ((-1 / 2 - c * u / (1 - 16 * u ^ 2)) ^ 3 - 17) *
      ((-1 / 2 + c * u / (1 - 16 * u ^ 2)) ^ 3 - 17) = k * k) :
    IsSquare ((1 + 64 / 3 * ((1 - 16 * u ^ 2) / (1 + 16 * u ^ 2)) ^ 2) ^ 3 - 17) := by
  have hc0 : c ≠ 0 := by
    rintro rfl
    have : (48 : F) = 2 ^ 4 * 3 := by norm_num
    rw [this] at hc
    exact mul_ne_zero (pow_ne_zero 4 h2) h3 (by rw [← hc]; ring)
  have hi0 : i ≠ 0 := by
    rintro rfl
    have : (1 : F) = 0 := by linear_combination hi
    exact one_ne_zero this
  obtain ⟨w, hw⟩ : ∃ w, w = c * u / (1 - 16 * u ^ 2) := ⟨_, rfl⟩
  obtain ⟨D, hD⟩ : ∃ D, D = (-1 / 2 - w) * (-1 / 2 + w) - 1 := ⟨_, rfl⟩
  -- d = i c (1 + 16u²) / (8 (1 - 16u²))
  obtain ⟨d, hd⟩ : ∃ d, d = i * c * (1 + 16 * u ^ 2) / (8 * (1 - 16 * u ^ 2)) := ⟨_, rfl⟩
  have h8 : (8 : F) ≠ 0 := by
    have : (8 : F) = 2 ^ 3 := by norm_num
    rw [this]; exact pow_ne_zero 3 h2
  have hd0 : d ≠ 0 := by
    rw [hd]
    exact div_ne_zero (mul_ne_zero (mul_ne_zero hi0 hc0) hp) (mul_ne_zero h8 hm)
  have hw2 : w ^ 2 * (1 - 16 * u ^ 2) ^ 2 = 48 * u ^ 2 := by
    have : w * (1 - 16 * u ^ 2) = c * u := by rw [hw]; exact div_mul_cancel₀ _ hm
    rw [← mul_pow, this, mul_pow, hc]
  have hd2' : d ^ 2 * (64 * (1 - 16 * u ^ 2) ^ 2) = -48 * (1 + 16 * u ^ 2) ^ 2 := by
    rw [hd]; field_simp
    linear_combination (c ^ 2 * 64) * hi - 64 * hc
  have hm2 : (64 * (1 - 16 * u ^ 2) ^ 2) ≠ 0 := by
    have : (64 : F) = 2 ^ 6 := by norm_num
    rw [this]; exact mul_ne_zero (pow_ne_zero 6 h2) (pow_ne_zero 2 hm)
  have hq : (4 : F) * (1 / 2) ^ 2 = 1 := by field_simp; norm_num
  have hd2 : d ^ 2 = D := by
    apply mul_right_cancel₀ hm2
    rw [hd2', hD]
    have : (-1 / 2 - w) * (-1 / 2 + w) = (1 / 2) ^ 2 - w ^ 2 := by ring
    rw [this]
    linear_combination (64 : F) * hw2 - 16 * (1 - 16 * u ^ 2) ^ 2 * hq
  have hx3 : (1 + 64 / 3 * ((1 - 16 * u ^ 2) / (1 + 16 * u ^ 2)) ^ 2) * d ^ 2 = D - 16 := by
    have : (64 / 3 * ((1 - 16 * u ^ 2) / (1 + 16 * u ^ 2)) ^ 2) * d ^ 2 = -16 := by
      have e : (64 / 3 * ((1 - 16 * u ^ 2) / (1 + 16 * u ^ 2)) ^ 2) * d ^ 2 =
          (d ^ 2 * (64 * (1 - 16 * u ^ 2) ^ 2)) / (3 * (1 + 16 * u ^ 2) ^ 2) := by
        field_simp
      rw [e, hd2']
      field_simp
      norm_num
    linear_combination this + hd2
  have hprod : ((-1 / 2 - w) ^ 3 - 17) * ((-1 / 2 + w) ^ 3 - 17) =
      D ^ 3 + 3 * D ^ 2 - 48 * D + 256 := by
    have hs : ∀ a b : F, a + b = -1 → (a ^ 3 - 17) * (b ^ 3 - 17) =
        (a * b - 1) ^ 3 + 3 * (a * b - 1) ^ 2 - 48 * (a * b - 1) + 256 := by
      intro a b h
      have : b = -1 - a := by linear_combination h
      subst this
      ring
    rw [hD]
    apply hs
    field_simp
    ring
  rw [← hw] at hk
  rw [hk] at hprod
  generalize (1 + 64 / 3 * ((1 - 16 * u ^ 2) / (1 + 16 * u ^ 2)) ^ 2) = x at *
  have h6 : (x ^ 3 - 17) * d ^ 6 = -16 * (k * k) := by
    have : (x ^ 3 - 17) * d ^ 6 = (x * d ^ 2) ^ 3 - 17 * (d ^ 2) ^ 3 := by ring
    rw [this, hx3, hd2, hprod]
    ring
  refine ⟨4 * i * k * (d⁻¹) ^ 3, ?_⟩
  have : x ^ 3 - 17 = (x ^ 3 - 17) * d ^ 6 * d⁻¹ ^ 6 := by
    rw [mul_assoc, ← mul_pow, mul_inv_cancel₀ hd0, one_pow, mul_one]
  rw [this, h6]
  linear_combination (-16 * k ^ 2 * d⁻¹ ^ 6) * hi

open Spec.Svdw

theorem one_of_three (c u : Fr) (hc : c ^ 2 = 48) (n1 : ¬ IsSquare (g (x1 c u)))
    (n2 : ¬ IsSquare (g (x2 c u))) : IsSquare (g (x3 u)) := by
  have hk := isSquare_mul_of_not n1 n2
  unfold x1 x2 x3 g at *
  by_cases he : Exceptional u
  · simp only [if_pos he]
    refine ⟨4 * im, ?_⟩
    linear_combination (-16 : Fr) * im_sq
  · simp only [if_neg he] at *
    obtain ⟨k, hk⟩ := hk
    refine core two_ne_zero_r three_ne_zero_r im c u k im_sq hc ?_ ?_ hk
    · intro h; apply he; unfold Exceptional
      linear_combination (-(1 + 16 * u ^ 2)) * h
    · intro h; apply he; unfold Exceptional
      linear_combination (-(1 - 16 * u ^ 2)) * h

theorem gx_eq (x : Fr) : gx x = g x := by unfold gx g A B; ring

theorem sqrt_isSome {sqrt : Fr → Option Fr} (h : IsSqrt sqrt) (x : Fr) :
    (sqrt x).isSome = true ↔ IsSquare x := by
  constructor
  · intro hs
    obtain ⟨y, hy⟩ := Option.isSome_iff_exists.1 hs
    exact ⟨y, by rw [← h.sq x y hy]; ring⟩
  · exact h.some x

theorem r_odd : r % 2 = 1 := by decide +kernel

theorem isOdd_neg {y : Fr} (hy : y ≠ 0) : isOdd (-y) = !isOdd y := by
  have : (-y).val = r - y.val := by
    have : NeZero y := ⟨hy⟩
    exact ZMod.val_neg_of_ne_zero y
  have hlt := ZMod.val_lt y
  have h2 := r_odd
  unfold isOdd
  rw [this]
  generalize y.val = v at *
  have : (r - v) % 2 = (1 + v % 2) % 2 := by omega
  rw [this]
  rcases Nat.mod_two_eq_zero_or_one v with h | h <;> rw [h] <;> rfl

theorem finish_eq {sqrt : Fr → Option Fr} (h : IsSqrt sqrt) (u a b c : Fr)
    (hc : ¬ IsSquare (g a) → ¬ IsSquare (g b) → IsSquare (g c)) :
    ∃ x y hn, finish sqrt u a b c = .ok (Point.some x y hn) ∧
      ((IsSquare (g a) ∧ x = a) ∨ (¬ IsSquare (g a) ∧ IsSquare (g b) ∧ x = b) ∨
        (¬ IsSquare (g a) ∧ ¬ IsSquare (g b) ∧ x = c)) ∧ y ^ 2 = g x ∧ isOdd y = isOdd u := by
  have sA := sqrt_isSome h (gx a)
  have sB := sqrt_isSome h (gx b)
  rw [gx_eq] at sA sB
  obtain ⟨x, hx, hsel, hsq⟩ : ∃ x, x = (if ((sqrt (gx b)).isSome && !(sqrt (gx a)).isSome) = true
      then b else if (sqrt (gx a)).isSome = true then a else c) ∧
      ((IsSquare (g a) ∧ x = a) ∨ (¬ IsSquare (g a) ∧ IsSquare (g b) ∧ x = b) ∨
        (¬ IsSquare (g a) ∧ ¬ IsSquare (g b) ∧ x = c)) ∧ IsSquare (g x) := by
    refine ⟨_, rfl, ?_⟩
    rw [gx_eq, gx_eq]
    by_cases ha : IsSquare (g a)
    · simp [sA.2 ha, ha]
    · have hA : (sqrt (g a)).isSome = false := by
        rw [← Bool.not_eq_true, sA]; exact ha
      by_cases hb : IsSquare (g b)
      · simp [hA, sB.2 hb, ha, hb]
      · have hB : (sqrt (g b)).isSome = false := by
          rw [← Bool.not_eq_true, sB]; exact hb
        simp [hA, hB, ha, hb, hc ha hb]
  obtain ⟨y, hy⟩ := Option.isSome_iff_exists.1 ((sqrt_isSome h (g x)).2 hsq)
  have hy2 := h.sq _ _ hy
  have hy0 : y ≠ 0 := gk_y_ne_zero (x := x) (by rw [hy2]; unfold g; ring)
  obtain ⟨z, hz⟩ : ∃ z, z = if (isOdd u == isOdd y) = true then y else -y := ⟨_, rfl⟩
  have hz2 : z ^ 2 = g x := by
    rw [hz, ← hy2]; split
    · rfl
    · ring
  have hz3 : isOdd z = isOdd u := by
    rw [hz]
    split
    · rename_i h1; exact (beq_iff_eq.1 h1).symm
    · rename_i h1
      rw [isOdd_neg hy0]
      revert h1
      cases isOdd u <;> cases isOdd y <;> simp
  have hcv : z ^ 2 = x ^ 3 + -17 := by rw [hz2]; unfold g; ring
  refine ⟨x, z, (gk_nonsingular_iff x z).2 hcv, ?_, hsel, hz2, hz3⟩
  unfold finish
  simp only
  rw [← hx, gx_eq, hy]
  simp only
  rw [← hz]
  unfold newPoint
  rw [dif_pos hcv]

theorem isOdd_eq {x y : Fr} : isOdd x = isOdd y ↔ x.val % 2 = y.val % 2 := by
  unfold isOdd
  rcases Nat.mod_two_eq_zero_or_one x.val with h | h <;>
    rcases Nat.mod_two_eq_zero_or_one y.val with h' | h' <;> rw [h, h'] <;> simp

theorem constants_eq {sqrt : Fr → Option Fr} (h : IsSqrt sqrt) : ∃ c : Fr, c ^ 2 = 48 ∧
    c.val % 2 = 0 ∧ constants sqrt 1 = .ok (-16, -1 / 2, c, 64 / 3) := by
  have h48 : IsSquare (48 : Fr) := by
    refine ⟨17631683881184975371348829942606096167675058198229016842588, ?_⟩
    decide +kernel
  obtain ⟨y, hy⟩ := Option.isSome_iff_exists.1 ((sqrt_isSome h 48).2 h48)
  have hy2 := h.sq _ _ hy
  have hy0 : y ≠ 0 := by
    rintro rfl
    have : (48 : Fr) ≠ 0 := by decide +kernel
    exact this (by rw [← hy2]; ring)
  refine ⟨if isOdd y then -y else y, ?_, ?_, ?_⟩
  · split
    · rw [← hy2]; ring
    · exact hy2
  · have : isOdd (if isOdd y then -y else y) = isOdd 0 := by
      cases hyo : isOdd y
      · rw [if_neg (by simp), hyo]; decide +kernel
      · rw [if_pos rfl, isOdd_neg hy0, hyo]; decide +kernel
    exact (isOdd_eq.1 this).trans (by decide +kernel)
  · have e1 : -((1 ^ 2 + A) * 1 + B) * ((1 + 1 + 1) * 1 ^ 2 + (1 + 1 + 1 + 1) * A) = 48 := by
      unfold A B; ring
    have e2 : ((1 : Fr) + 1 + 1) * 1 ^ 2 + (1 + 1 + 1 + 1) * A = 3 := by unfold A; ring
    unfold constants
    simp only
    rw [e1, hy]
    simp only
    rw [e2, if_neg three_ne_zero_r]
    have k1 : ((1 : Fr) ^ 2 + A) * 1 + B = -16 := by unfold A B; ring
    have k2 : -(1 : Fr) * 2⁻¹ = -1 / 2 := by ring
    have k3 : -((1 : Fr) + 1 + 1 + 1) * -16 * 3⁻¹ = 64 / 3 := by ring
    rw [k1, k2, k3]

theorem map_eq (sqrt : Fr → Option Fr) (u c : Fr) :
    map sqrt u (-16) (-1 / 2) c (64 / 3) 1 = finish sqrt u (x1 c u) (x2 c u) (x3 u) := by
  unfold map
  simp only
  have e : (1 - u ^ 2 * -16) * (1 + u ^ 2 * -16) = 1 - 256 * u ^ 4 := by ring
  unfold x1 x2 x3
  by_cases he : Exceptional u
  · have : (1 : Fr) - 256 * u ^ 4 = 0 := by unfold Exceptional at he; rw [he]; ring
    rw [e, this, if_pos he, if_pos he, if_pos he]
    simp only [inv_zero, mul_zero, zero_mul]
    congr 1 <;> ring
  · have hm : (1 : Fr) - 16 * u ^ 2 ≠ 0 := by
      intro h; apply he; unfold Exceptional
      linear_combination (-(1 + 16 * u ^ 2)) * h
    have hp : (1 : Fr) + 16 * u ^ 2 ≠ 0 := by
      intro h; apply he; unfold Exceptional
      linear_combination (-(1 - 16 * u ^ 2)) * h
    have hm' : (1 : Fr) + u ^ 2 * -16 ≠ 0 := by
      intro h; apply hm; linear_combination h
    have hp' : (1 : Fr) - u ^ 2 * -16 ≠ 0 := by
      intro h; apply hp; linear_combination h
    have t4 : u * (1 - u ^ 2 * -16) * ((1 - u ^ 2 * -16) * (1 + u ^ 2 * -16))⁻¹ * c =
        c * u / (1 - 16 * u ^ 2) := by
      have e1 : (1 : Fr) + u ^ 2 * -16 = 1 - 16 * u ^ 2 := by ring
      have e2 : (1 : Fr) - u ^ 2 * -16 = 1 + 16 * u ^ 2 := by ring
      rw [e1, e2]
      generalize (1 : Fr) - 16 * u ^ 2 = a at *
      generalize (1 : Fr) + 16 * u ^ 2 = b at *
      field_simp
    have t3 : ((1 + u ^ 2 * -16) ^ 2 * ((1 - u ^ 2 * -16) * (1 + u ^ 2 * -16))⁻¹) ^ 2 * (64 / 3) + 1 =
        1 + 64 / 3 * ((1 - 16 * u ^ 2) / (1 + 16 * u ^ 2)) ^ 2 := by
      have e1 : (1 : Fr) + u ^ 2 * -16 = 1 - 16 * u ^ 2 := by ring
      have e2 : (1 : Fr) - u ^ 2 * -16 = 1 + 16 * u ^ 2 := by ring
      rw [e1, e2]
      have : ((1 - 16 * u ^ 2) ^ 2 * ((1 + 16 * u ^ 2) * (1 - 16 * u ^ 2))⁻¹) =
          (1 - 16 * u ^ 2) / (1 + 16 * u ^ 2) := by
        field_simp
      rw [this]; ring
    rw [t4, t3, if_neg he, if_neg he, if_neg he]

end Verif.Svdw
