import Verif.Model.Curve
import Mathlib.GroupTheory.Perm.Cycle.Type
import Mathlib.Tactic.LinearCombination

/-! Generic facts about `y² = x³ + b` over a field. -/

namespace Verif
open WeierstrassCurve WeierstrassCurve.Affine

section generic
variable {F : Type*} [Field F] {b : F}

theorem shortW_equation_iff (x y : F) : (shortW b).Equation x y ↔ y ^ 2 = x ^ 3 + b := by
  rw [Affine.equation_iff]; simp

theorem shortW_nonsingular_iff (h2 : (2 : F) ≠ 0) (h3 : (3 : F) ≠ 0) (hb : b ≠ 0) (x y : F) :
    (shortW b).Nonsingular x y ↔ y ^ 2 = x ^ 3 + b := by
  rw [Affine.nonsingular_iff, shortW_equation_iff]
  simp only [zero_mul, mul_zero, add_zero, sub_zero, and_iff_left_iff_imp]
  intro h
  by_contra hc
  push Not at hc
  obtain ⟨hx, hy⟩ := hc
  have hy0 : y = 0 := by
    have : 2 * y = 0 := by linear_combination hy
    simpa [h2] using this
  have hx0 : x = 0 := by
    have : 3 * x ^ 2 = 0 := by linear_combination -hx
    simpa [h3] using this
  subst hx0 hy0
  apply hb
  linear_combination -h

variable [DecidableEq F]

/-- Chord addition with an explicit slope. -/
theorem shortW_add_chord {x₁ y₁ x₂ y₂ l : F} (h₁ : (shortW b).Nonsingular x₁ y₁)
    (h₂ : (shortW b).Nonsingular x₂ y₂) (hx : x₁ ≠ x₂) (hl : l * (x₁ - x₂) = y₁ - y₂)
    {x₃ y₃ : F} (hx3 : x₃ = l ^ 2 - x₁ - x₂) (hy3 : y₃ = l * (x₁ - x₃) - y₁) :
    ∃ h₃ : (shortW b).Nonsingular x₃ y₃,
      (Point.some x₁ y₁ h₁ + Point.some x₂ y₂ h₂ : (shortW b).Point) = Point.some x₃ y₃ h₃ := by
  have hs : (shortW b).slope x₁ x₂ y₁ y₂ = l := by
    rw [slope_of_X_ne hx, div_eq_iff (sub_ne_zero.2 hx), hl]
  have hxy : ¬(x₁ = x₂ ∧ y₁ = (shortW b).negY x₂ y₂) := fun h => hx h.1
  have e1 : (shortW b).addX x₁ x₂ ((shortW b).slope x₁ x₂ y₁ y₂) = x₃ := by
    rw [hs, hx3]; simp [addX]
  have e2 : (shortW b).addY x₁ x₂ y₁ ((shortW b).slope x₁ x₂ y₁ y₂) = y₃ := by
    rw [hs, hy3, hx3]; simp [addY, negAddY, addX, negY]; ring
  have h3 := nonsingular_add h₁ h₂ hxy
  have := Point.add_some hxy (h₁ := h₁) (h₂ := h₂)
  simp only [e1, e2] at h3 this
  exact ⟨h3, this⟩

/-- Tangent doubling with an explicit slope. -/
theorem shortW_double {x₁ y₁ l : F} (h₁ : (shortW b).Nonsingular x₁ y₁)
    (h2y : 2 * y₁ ≠ 0) (hl : l * (2 * y₁) = 3 * x₁ ^ 2)
    {x₃ y₃ : F} (hx3 : x₃ = l ^ 2 - x₁ - x₁) (hy3 : y₃ = l * (x₁ - x₃) - y₁) :
    ∃ h₃ : (shortW b).Nonsingular x₃ y₃,
      (Point.some x₁ y₁ h₁ + Point.some x₁ y₁ h₁ : (shortW b).Point) = Point.some x₃ y₃ h₃ := by
  have hne : y₁ ≠ (shortW b).negY x₁ y₁ := by
    simp only [negY, zero_mul, sub_zero]
    intro h; apply h2y; linear_combination h
  have hs : (shortW b).slope x₁ x₁ y₁ y₁ = l := by
    have hd : y₁ - (shortW b).negY x₁ y₁ ≠ 0 := sub_ne_zero.2 hne
    rw [slope_of_Y_ne rfl hne, div_eq_iff hd]
    simp only [negY]; linear_combination -hl
  have hxy : ¬(x₁ = x₁ ∧ y₁ = (shortW b).negY x₁ y₁) := fun h => hne h.2
  have e1 : (shortW b).addX x₁ x₁ ((shortW b).slope x₁ x₁ y₁ y₁) = x₃ := by
    rw [hs, hx3]; simp [addX]
  have e2 : (shortW b).addY x₁ x₁ y₁ ((shortW b).slope x₁ x₁ y₁ y₁) = y₃ := by
    rw [hs, hy3, hx3]; simp [addY, negAddY, addX, negY]; ring
  have h3 := nonsingular_add h₁ h₁ hxy
  have := Point.add_some hxy (h₁ := h₁) (h₂ := h₁)
  simp only [e1, e2] at h3 this
  exact ⟨h3, this⟩

omit [DecidableEq F] in
theorem shortW_neg_some {x y : F} (h : (shortW b).Nonsingular x y) :
    ∃ h' : (shortW b).Nonsingular x (-y), (-(Point.some x y h) : (shortW b).Point)
      = Point.some x (-y) h' := by
  have h' := (nonsingular_neg (W' := shortW b) x y).2 h
  have e : (shortW b).negY x y = -y := by simp [negY]
  have := Point.neg_some h
  simp only [e] at h' this
  exact ⟨h', this⟩

theorem shortW_two_torsion (h2 : (2 : F) ≠ 0) {x y : F} (h : (shortW b).Nonsingular x y)
    (ht : (Point.some x y h + Point.some x y h : (shortW b).Point) = 0) : y = 0 := by
  by_contra hy
  obtain ⟨h3, he⟩ := shortW_double (l := (3 * x ^ 2) / (2 * y)) h (mul_ne_zero h2 hy)
    (div_mul_cancel₀ _ (mul_ne_zero h2 hy)) rfl rfl
  rw [he] at ht
  exact Point.some_ne_zero h3 ht

end generic

section finite
variable {p : ℕ} [hp : Fact p.Prime] {b : ZMod p}

/-- Compress a point to its `x` and the "sign" of `y`. -/
def compress (P : (shortW b).Point) : Option (ZMod p × Bool) :=
  match P with
  | .zero => none
  | .some x y _ => some (x, decide (2 * y.val < p))

theorem compress_injective : Function.Injective (compress (p := p) (b := b)) := by
  intro P Q h
  cases P with
  | zero => cases Q with
    | zero => rfl
    | some => simp [compress] at h
  | some x y h1 => cases Q with
    | zero => simp [compress] at h
    | some x' y' h2 =>
      simp only [compress, Option.some.injEq, Prod.mk.injEq, decide_eq_decide] at h
      obtain ⟨rfl, hs⟩ := h
      have e1 := (shortW_equation_iff x y).1 h1.1
      have e2 := (shortW_equation_iff x y').1 h2.1
      have : y = y' ∨ y = -y' := sq_eq_sq_iff_eq_or_eq_neg.1 (e1.trans e2.symm)
      rcases this with rfl | rfl
      · rfl
      · have : (-y' : ZMod p) = y' := by
          by_cases h0 : y' = 0
          · simp [h0]
          · rcases hp.1.eq_two_or_odd with h2' | hodd
            · subst h2'
              exact ZMod.neg_eq_self_mod_two y'
            · exfalso
              have : NeZero y' := ⟨h0⟩
              rw [ZMod.val_neg_of_ne_zero] at hs
              have hlt := ZMod.val_lt y'
              omega
        simp [this]

instance : Finite (shortW b).Point := Finite.of_injective _ compress_injective

theorem card_le : Nat.card (shortW b).Point ≤ 2 * p + 1 := by
  have := Nat.card_le_card_of_injective _ (compress_injective (p := p) (b := b))
  refine this.trans (le_of_eq ?_)
  have : NeZero p := ⟨hp.1.ne_zero⟩
  rw [Nat.card_eq_fintype_card, Fintype.card_option, Fintype.card_prod, ZMod.card, Fintype.card_bool]
  ring
end finite

end Verif
