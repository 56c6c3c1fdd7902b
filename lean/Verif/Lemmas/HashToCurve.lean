import Mathlib.NumberTheory.LegendreSymbol.QuadraticChar.Basic
import Verif.Lemmas.ModExp
import Verif.Model.HashToCurve

/-! Helper lemmas about hash-to-curve. -/

namespace Verif
open WeierstrassCurve.Affine

namespace RustHash

theorem C2_eq : C2 = 2 * C1 + 1 := by decide +kernel
theorem C2_sq : C2 * C2 = -3 := by decide +kernel
theorem C3_eq : 3 * C3 = 1 := by decide +kernel
theorem MINUS_ONE_eq : MINUS_ONE = -1 := by decide +kernel
theorem Q2_val : Q2.val = (q - 1) / 2 := by decide +kernel
theorem R_eq : R = ((2 ^ 256 : ℕ) : Fq) := by decide +kernel

theorem C1_root : C1 ^ 2 + C1 + 1 = 0 := by
  have h1 := C2_eq
  have h2 := C2_sq
  rw [h1] at h2
  have h4 : (4 : Fq) * (C1 ^ 2 + C1 + 1) = 0 := by linear_combination h2
  have : (4 : Fq) ≠ 0 := by decide +kernel
  exact (mul_eq_zero.1 h4).resolve_left this

theorem C1_cube : C1 ^ 3 = 1 := by linear_combination (C1 - 1) * C1_root

/-- Product of two non-squares is a square. -/
theorem isSquare_mul_of_not {a b : Fq} (ha : ¬ IsSquare a) (hb : ¬ IsSquare b) :
    IsSquare (a * b) := by
  have ha0 : a ≠ 0 := fun h => ha (h ▸ ⟨0, by simp⟩)
  have hb0 : b ≠ 0 := fun h => hb (h ▸ ⟨0, by simp⟩)
  have h1 := quadraticChar_neg_one_iff_not_isSquare.2 ha
  have h2 := quadraticChar_neg_one_iff_not_isSquare.2 hb
  have : quadraticChar Fq (a * b) = 1 := by rw [map_mul, h1, h2]; norm_num
  exact (quadraticChar_one_iff_isSquare (mul_ne_zero ha0 hb0)).1 this

theorem sqrt_def (u : Fq) :
    sqrt u = if (u ^ sqrtExp) ^ 2 = u then some (u ^ sqrtExp) else none := by unfold sqrt; rfl

theorem sqrtExp_ne : sqrtExp ≠ 0 := by unfold sqrtExp; decide +kernel
theorem sqrtExp_mul : sqrtExp * 2 = q / 2 + 1 := by unfold sqrtExp; decide +kernel

theorem pow_sqrtExp {u : Fq} (hs : IsSquare u) : (u ^ sqrtExp) ^ 2 = u := by
  by_cases hu : u = 0
  · rw [hu, zero_pow sqrtExp_ne, zero_pow (by norm_num)]
  · have he := (ZMod.euler_criterion q hu).1 hs
    rw [← pow_mul, sqrtExp_mul, pow_succ, he, one_mul]

theorem sqrt_some_iff (u : Fq) : (sqrt u).isSome = true ↔ IsSquare u := by
  rw [sqrt_def]
  constructor
  · intro h
    by_cases h2 : (u ^ sqrtExp) ^ 2 = u
    · exact ⟨u ^ sqrtExp, by rw [← sq]; exact h2.symm⟩
    · rw [if_neg h2] at h; cases h
  · intro h
    rw [if_pos (pow_sqrtExp h)]; rfl

theorem sqrt_sq {u s : Fq} (h : sqrt u = some s) : s ^ 2 = u := by
  rw [sqrt_def] at h
  by_cases h2 : (u ^ sqrtExp) ^ 2 = u
  · rw [if_pos h2] at h; cases h; exact h2
  · rw [if_neg h2] at h; cases h

theorem sqrt_eq_pow {u s : Fq} (h : sqrt u = some s) : s = u ^ sqrtExp := by
  rw [sqrt_def] at h
  by_cases h2 : (u ^ sqrtExp) ^ 2 = u
  · rw [if_pos h2] at h; cases h; rfl
  · rw [if_neg h2] at h; cases h

theorem t_sq_add_four_ne (t : Fq) : t ^ 2 + 4 ≠ 0 := by
  intro h
  have h2 : (2 : Fq) ≠ 0 := two_ne_zero_q
  apply neg_one_not_square (t / 2)
  field_simp
  linear_combination h

theorem inv0_eq (x : Fq) : inv0 x = x⁻¹ := by
  unfold inv0; split
  · rename_i h; rw [h, inv_zero]
  · rfl

/-- The three candidate abscissas. -/
def x1 (t : Fq) : Fq := C1 - C2 * (t ^ 2) ^ 2 * inv0 (t ^ 2 * (t ^ 2 + 4))
def x2 (t : Fq) : Fq := -(x1 t + 1)
def x3 (t : Fq) : Fq := 1 - (t ^ 2 + 4) * (t ^ 2 + 4) ^ 2 * inv0 (t ^ 2 * (t ^ 2 + 4)) * C3

theorem x1_zero : x1 0 = C1 := by simp [x1, inv0]

theorem one_of_three (t : Fq) : IsSquare ((x1 t) ^ 3 + 3) ∨ IsSquare ((x2 t) ^ 3 + 3) ∨
    IsSquare ((x3 t) ^ 3 + 3) := by
  by_cases ht : t = 0
  · left
    rw [ht, x1_zero, C1_cube]
    exact ⟨2, by norm_num⟩
  by_contra hcon
  push Not at hcon
  obtain ⟨n1, n2, n3⟩ := hcon
  have hr := t_sq_add_four_ne t
  have hK := isSquare_mul_of_not n1 n2
  apply n3
  obtain ⟨k, hk⟩ := hK
  -- y = t²/(t²+4), alpha = 1/(t²(t²+4))
  obtain ⟨v, hv⟩ : ∃ v : Fq, v * (t ^ 2 + 4) = 1 := ⟨(t ^ 2 + 4)⁻¹, inv_mul_cancel₀ hr⟩
  obtain ⟨w, hw⟩ : ∃ w : Fq, w * t = 1 := ⟨t⁻¹, inv_mul_cancel₀ ht⟩
  have halpha : inv0 (t ^ 2 * (t ^ 2 + 4)) = w ^ 2 * v := by
    rw [inv0_eq]
    apply inv_eq_of_mul_eq_one_right
    linear_combination (w * t + 1) * v * (t ^ 2 + 4) * hw + hv
  have e1 : x1 t = C1 - C2 * (t ^ 2 * v) := by
    rw [x1, halpha]
    linear_combination (-C2 * v * t ^ 2 * (w * t + 1)) * hw
  -- the product of the first two values
  have e12 : x1 t * x2 t = 1 - 3 * (t ^ 2 * v) + 3 * (t ^ 2 * v) ^ 2 := by
    rw [x2, e1]
    have h1 := C1_root
    have h2 := C2_sq
    have h3 := C2_eq
    linear_combination (-1 : Fq) * h1 + (t ^ 2 * v) * C2 * (-1) * h3 + (t ^ 2 * v) * h2 -
      (t ^ 2 * v) ^ 2 * h2
  have e3 : x3 t = 1 - (t ^ 2 + 4) ^ 2 * w ^ 2 * C3 := by
    rw [x3, halpha]
    linear_combination (-(t ^ 2 + 4) ^ 2 * w ^ 2 * C3) * hv
  set c := x1 t * x2 t with hc
  have hprod : ((x1 t) ^ 3 + 3) * ((x2 t) ^ 3 + 3) = c ^ 3 + 9 * c + 6 := by
    rw [hc, x2]; ring
  -- d = 2 C2 t v, d² = c - 1, and x3 = (c+3)/(c-1)
  obtain ⟨d, hd⟩ : ∃ d : Fq, d = 2 * C2 * t * v := ⟨_, rfl⟩
  obtain ⟨di, hdi⟩ : ∃ di : Fq, di * d = 1 := by
    have h2 : (2 : Fq) ≠ 0 := two_ne_zero_q
    have hC : C2 ≠ 0 := by decide +kernel
    have hv0 : v ≠ 0 := by rintro rfl; simp at hv
    exact ⟨d⁻¹, inv_mul_cancel₀ (by rw [hd]; exact mul_ne_zero (mul_ne_zero (mul_ne_zero h2 hC) ht) hv0)⟩
  have hd2 : d ^ 2 = c - 1 := by
    rw [hd, e12]
    linear_combination (4 * t ^ 2 * v ^ 2) * C2_sq - 3 * t ^ 2 * v * hv
  have hcm : c - 1 = -12 * t ^ 2 * v ^ 2 := by
    rw [← hd2, hd]
    linear_combination (4 * t ^ 2 * v ^ 2) * C2_sq
  have hx3 : x3 t * d ^ 2 = c + 3 := by
    rw [e3]
    linear_combination (1 - (t ^ 2 + 4) ^ 2 * w ^ 2 * C3) * hd2 -
      (t ^ 2 + 4) ^ 2 * w ^ 2 * C3 * hcm + 4 * (w * t) ^ 2 * ((t ^ 2 + 4) * v) ^ 2 * C3_eq +
      4 * ((t ^ 2 + 4) * v) ^ 2 * (w * t + 1) * hw + 4 * ((t ^ 2 + 4) * v + 1) * hv
  have hfin : (x3 t ^ 3 + 3) = (2 * k * di ^ 3) * (2 * k * di ^ 3) := by
    have h6 : (x3 t ^ 3 + 3) * d ^ 6 = 4 * (k * k) := by
      rw [← hk, hprod]
      have : (x3 t ^ 3 + 3) * d ^ 6 = (x3 t * d ^ 2) ^ 3 + 3 * (d ^ 2) ^ 3 := by ring
      rw [this, hx3, hd2]
      ring
    have : (x3 t ^ 3 + 3) = (x3 t ^ 3 + 3) * d ^ 6 * di ^ 6 := by
      have : di ^ 6 * d ^ 6 = 1 := by rw [← mul_pow, hdi, one_pow]
      linear_combination (-(x3 t ^ 3 + 3)) * this
    rw [this, h6]; ring
  exact ⟨_, hfin⟩

theorem sign_cases (t : Fq) : sign t = 1 ∨ sign t = -1 := by
  unfold sign; split
  · exact Or.inl rfl
  · exact Or.inr MINUS_ONE_eq

theorem sign_sq (t : Fq) : sign t ^ 2 = 1 := by
  rcases sign_cases t with h | h <;> rw [h] <;> ring

theorem select_eq (sg x1 x2 x3 : Fq) (y1 y2 y3 : Option Fq) (hs : sg ^ 2 = 1)
    (h1 : ∀ y, y1 = some y → y ^ 2 = x1 ^ 3 + 3) (h2 : ∀ y, y2 = some y → y ^ 2 = x2 ^ 3 + 3)
    (h3 : ∀ y, y3 = some y → y ^ 2 = x3 ^ 3 + 3)
    (hone : y1.isSome = true ∨ y2.isSome = true ∨ y3.isSome = true) :
    ∃ (x y : Fq) (h : bnCurve.Nonsingular x (y * sg)),
      select sg x1 x2 x3 y1 y2 y3 = .ok (.some x (y * sg) h) ∧
      ((y1 = some y ∧ x = x1) ∨ (y1 = none ∧ y2 = some y ∧ x = x2) ∨
        (y1 = none ∧ y2 = none ∧ y3 = some y ∧ x = x3)) := by
  have key : ∀ x y : Fq, y ^ 2 = x ^ 3 + 3 → (y * sg) ^ 2 = x ^ 3 + 3 := fun x y h => by
    rw [mul_pow, hs, mul_one, h]
  cases y1 with
  | some y =>
    have k := key _ _ (h1 y rfl)
    refine ⟨x1, y, (bn_nonsingular_iff _ _).2 k, ?_, Or.inl ⟨rfl, rfl⟩⟩
    simp only [select, Option.some_or, Option.isSome_some, if_true]
    rw [dif_pos k]
  | none =>
    cases y2 with
    | some y =>
      have k := key _ _ (h2 y rfl)
      refine ⟨x2, y, (bn_nonsingular_iff _ _).2 k, ?_, Or.inr (Or.inl ⟨rfl, rfl, rfl⟩)⟩
      simp only [select, Option.none_or, Option.some_or, Option.isSome_none, Option.isSome_some,
        if_true, Bool.false_eq_true, if_false]
      rw [dif_pos k]
    | none =>
      cases y3 with
      | some y =>
        have k := key _ _ (h3 y rfl)
        refine ⟨x3, y, (bn_nonsingular_iff _ _).2 k, ?_, Or.inr (Or.inr ⟨rfl, rfl, rfl, rfl⟩)⟩
        simp only [select, Option.none_or, Option.isSome_none, Bool.false_eq_true, if_false]
        rw [dif_pos k]
      | none => simp at hone

theorem mapToCurve_def (t : Fq) : mapToCurve t = select (sign t) (x1 t) (x2 t) (x3 t)
    (sqrt (x1 t ^ 3 + 3)) (sqrt (x2 t ^ 3 + 3)) (sqrt (x3 t ^ 3 + 3)) := by
  unfold mapToCurve
  simp only [x1, x2, x3]

/-- The map always returns a point; which candidate it uses. -/
theorem mapToCurve_eq (t : Fq) : ∃ (x y : Fq) (h : bnCurve.Nonsingular x (y * sign t)),
    mapToCurve t = .ok (.some x (y * sign t) h) ∧
      ((sqrt (x1 t ^ 3 + 3) = some y ∧ x = x1 t) ∨
        (sqrt (x1 t ^ 3 + 3) = none ∧ sqrt (x2 t ^ 3 + 3) = some y ∧ x = x2 t) ∨
        (sqrt (x1 t ^ 3 + 3) = none ∧ sqrt (x2 t ^ 3 + 3) = none ∧ sqrt (x3 t ^ 3 + 3) = some y ∧
          x = x3 t)) := by
  rw [mapToCurve_def]
  apply select_eq
  · exact sign_sq t
  · exact fun y h => sqrt_sq h
  · exact fun y h => sqrt_sq h
  · exact fun y h => sqrt_sq h
  · rw [sqrt_some_iff, sqrt_some_iff, sqrt_some_iff]
    exact one_of_three t

end RustHash
end Verif
