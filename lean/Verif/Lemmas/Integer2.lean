import Verif.Model.Integer2
import Verif.Lemmas.TwistOrder

namespace Verif.Integer2Chip
open Verif

/-- The element of the extension field held by a pair. -/
def fe (a : I2) : Fq2 := ⟨a.1, a.2⟩

theorem fe_inj {a b : I2} : fe a = fe b ↔ a = b := by
  constructor
  · intro h
    exact Prod.ext (congrArg QuadraticAlgebra.re h) (congrArg QuadraticAlgebra.im h)
  · rintro rfl; rfl

theorem fe_eq_iff {a : I2} {x : Fq2} : fe a = x ↔ a.1 = x.re ∧ a.2 = x.im := by
  constructor
  · rintro rfl; exact ⟨rfl, rfl⟩
  · rintro ⟨h1, h2⟩; exact QuadraticAlgebra.ext h1 h2

theorem add_iff {a b c : I2} : add a b c ↔ fe c = fe a + fe b := by
  rw [fe_eq_iff]; exact Iff.rfl
theorem sub_iff {a b c : I2} : sub a b c ↔ fe c = fe a - fe b := by
  rw [fe_eq_iff]; exact Iff.rfl
theorem subSub_iff {a b c d : I2} : subSub a b c d ↔ fe d = fe a - fe b - fe c := by
  rw [fe_eq_iff]; exact Iff.rfl
theorem neg_iff {a c : I2} : neg a c ↔ fe c = - fe a := by
  rw [fe_eq_iff]; exact Iff.rfl

theorem mul_iff {a b c : I2} : mul a b c ↔ fe c = fe a * fe b := by
  rw [fe_eq_iff]
  simp only [mul, IntegerChip.mul, IntegerChip.add, IntegerChip.sub, QuadraticAlgebra.re_mul,
    QuadraticAlgebra.im_mul, fe]
  constructor
  · rintro ⟨_, _, _, _, _, _, rfl, rfl, rfl, rfl, h1, rfl, rfl, h2⟩
    exact ⟨by rw [h1]; ring, by rw [h2]; ring⟩
  · rintro ⟨h1, h2⟩
    exact ⟨_, _, _, _, _, _, rfl, rfl, rfl, rfl, by rw [h1]; ring, rfl, rfl, by rw [h2]; ring⟩

theorem mul2_iff {a c : I2} : mul2 a c ↔ fe c = 2 * fe a := by
  rw [fe_eq_iff, two_mul]
  simp only [mul2, IntegerChip.mul2, two_mul]
  exact Iff.rfl

theorem mul3_iff {a c : I2} : mul3 a c ↔ fe c = 3 * fe a := by
  have : (3 : Fq2) * fe a = fe a + fe a + fe a := by ring
  rw [fe_eq_iff, this]
  have h3 : ∀ x : Fq, 3 * x = x + x + x := fun x => by ring
  simp only [mul3, IntegerChip.mul3, h3]
  exact Iff.rfl

theorem square_iff {a c : I2} : square a c ↔ fe c = fe a ^ 2 := by
  rw [fe_eq_iff, pow_two]
  simp only [square, IntegerChip.mul, IntegerChip.mul2, IntegerChip.square, IntegerChip.sub,
    QuadraticAlgebra.re_mul, QuadraticAlgebra.im_mul, fe]
  constructor
  · rintro ⟨_, _, _, rfl, rfl, h1, rfl, h2⟩
    exact ⟨by rw [h1]; ring, by rw [h2]; ring⟩
  · rintro ⟨h1, h2⟩
    exact ⟨_, _, _, rfl, rfl, by rw [h1]; ring, rfl, by rw [h2]; ring⟩

theorem norm_iff {a : I2} {n : Fq} : norm a n ↔ n = a.1 ^ 2 + a.2 ^ 2 := by
  simp only [norm, IntegerChip.square, IntegerChip.add]
  constructor
  · rintro ⟨_, _, rfl, rfl, rfl⟩; ring
  · rintro rfl; exact ⟨_, _, rfl, rfl, by ring⟩

theorem norm_eq_zero {x y : Fq} : x ^ 2 + y ^ 2 = 0 ↔ x = 0 ∧ y = 0 := by
  constructor
  · intro h
    by_cases hy : y = 0
    · subst hy
      exact ⟨by simpa using h, rfl⟩
    · exfalso
      apply neg_one_not_square (x / y)
      rw [div_pow, div_eq_iff (pow_ne_zero 2 hy)]
      linear_combination h
  · rintro ⟨rfl, rfl⟩; simp

theorem fe_eq_zero {a : I2} : fe a = 0 ↔ a.1 = 0 ∧ a.2 = 0 := by
  rw [fe_eq_iff]; exact Iff.rfl

theorem assertNotZero_iff {a : I2} : assertNotZero a ↔ fe a ≠ 0 := by
  simp only [assertNotZero, norm_iff, IntegerChip.assertNotZero, exists_eq_left, Ne, norm_eq_zero,
    fe_eq_zero]

theorem assertNotEqual_iff {a b : I2} : assertNotEqual a b ↔ fe a ≠ fe b := by
  simp only [assertNotEqual, assertNotZero_iff, sub_iff]
  constructor
  · rintro ⟨c, h, h0⟩ e
    rw [h, e, sub_self] at h0; exact h0 rfl
  · intro h
    refine ⟨(a.1 - b.1, a.2 - b.2), rfl, ?_⟩
    intro h0
    apply h
    have : fe (a.1 - b.1, a.2 - b.2) = fe a - fe b := rfl
    rw [this] at h0
    exact sub_eq_zero.1 h0

theorem divIncomplete_iff {a b c : I2} :
    divIncomplete a b c ↔ fe b ≠ 0 ∧ fe c = fe a / fe b := by
  simp only [divIncomplete, norm_iff, IntegerChip.invertIncomplete, IntegerChip.mul,
    IntegerChip.neg, mul_iff]
  have hb : ∀ ninv : Fq, ninv * (b.1 ^ 2 + b.2 ^ 2) = 1 →
      fe b * fe (b.1 * ninv, -(b.2 * ninv)) = 1 := by
    intro ninv h
    apply QuadraticAlgebra.ext
    · simp only [QuadraticAlgebra.re_mul, fe, QuadraticAlgebra.re_one]; linear_combination h
    · simp only [QuadraticAlgebra.im_mul, fe, QuadraticAlgebra.im_one]; ring
  constructor
  · rintro ⟨n, ninv, i0, i1, i1', rfl, h1, rfl, rfl, rfl, hc⟩
    have h := hb ninv h1
    have h0 : fe b ≠ 0 := by
      intro e; rw [e, zero_mul] at h; exact zero_ne_one h
    refine ⟨h0, ?_⟩
    rw [hc, eq_div_iff h0]
    linear_combination fe a * h
  · rintro ⟨h0, hc⟩
    have hn : b.1 ^ 2 + b.2 ^ 2 ≠ 0 := by
      rw [Ne, norm_eq_zero, ← fe_eq_zero]; exact h0
    refine ⟨_, (b.1 ^ 2 + b.2 ^ 2)⁻¹, _, _, _, rfl, inv_mul_cancel₀ hn, rfl, rfl, rfl, ?_⟩
    have h := hb _ (inv_mul_cancel₀ hn)
    rw [hc, div_eq_iff h0]
    linear_combination -fe a * h

theorem select_iff {a b c : I2} {s : Fr} (hs : s = 0 ∨ s = 1) :
    select a b s c ↔ (s = 1 ∧ c = a) ∨ (s = 0 ∧ c = b) := by
  unfold select IntegerChip.select
  rcases hs with rfl | rfl
  · simp only [zero_ne_one, false_and, true_and, false_or]
    exact ⟨fun h => Prod.ext h.1 h.2, fun h => by rw [h]; exact ⟨rfl, rfl⟩⟩
  · simp only [one_ne_zero, false_and, true_and, or_false]
    exact ⟨fun h => Prod.ext h.1 h.2, fun h => by rw [h]; exact ⟨rfl, rfl⟩⟩

end Verif.Integer2Chip
