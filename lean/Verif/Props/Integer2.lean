import Verif.Lemmas.Integer2
import Verif.Lemmas.GrumpkinChip

/-!
C27: arithmetic of pairs in the circuit is arithmetic of the quadratic extension `Fq2`, whose
multiplication is Mathlib's (`u² = -1`).  The pair `(c0, c1)` stands for `c0 + c1 u`.
-/

namespace Verif.Props
open Verif Integer2Chip

/-- Addition, subtractions, negation, doubling and tripling. -/
theorem C27_linear (a b c d : I2) :
    (Integer2Chip.add a b d ↔ (⟨d.1, d.2⟩ : Fq2) = ⟨a.1, a.2⟩ + ⟨b.1, b.2⟩) ∧
    (Integer2Chip.sub a b d ↔ (⟨d.1, d.2⟩ : Fq2) = ⟨a.1, a.2⟩ - ⟨b.1, b.2⟩) ∧
    (subSub a b c d ↔ (⟨d.1, d.2⟩ : Fq2) = ⟨a.1, a.2⟩ - ⟨b.1, b.2⟩ - ⟨c.1, c.2⟩) ∧
    (Integer2Chip.neg a d ↔ (⟨d.1, d.2⟩ : Fq2) = -⟨a.1, a.2⟩) ∧
    (mul2 a d ↔ (⟨d.1, d.2⟩ : Fq2) = 2 * ⟨a.1, a.2⟩) ∧
    (mul3 a d ↔ (⟨d.1, d.2⟩ : Fq2) = 3 * ⟨a.1, a.2⟩) :=
  ⟨add_iff, sub_iff, subSub_iff, neg_iff, mul2_iff, mul3_iff⟩

/-- Multiplication. -/
theorem C27_mul (a b c : I2) :
    Integer2Chip.mul a b c ↔ (⟨c.1, c.2⟩ : Fq2) = ⟨a.1, a.2⟩ * ⟨b.1, b.2⟩ := mul_iff

/-- Squaring. -/
theorem C27_square (a c : I2) : square a c ↔ (⟨c.1, c.2⟩ : Fq2) = ⟨a.1, a.2⟩ ^ 2 := square_iff

/-- Division accepts exactly the quotient, and nothing at all for a zero denominator. -/
theorem C27_div (a b c : I2) : divIncomplete a b c ↔
    b ≠ (0, 0) ∧ (⟨c.1, c.2⟩ : Fq2) = (⟨a.1, a.2⟩ : Fq2) / ⟨b.1, b.2⟩ := by
  rw [divIncomplete_iff, Ne, fe_eq_zero, Ne, Prod.ext_iff]
  exact Iff.rfl

/-- Division has a witness exactly when the denominator is nonzero. -/
theorem C27_div_satisfiable (a b : I2) : (∃ c, divIncomplete a b c) ↔ b ≠ (0, 0) := by
  simp only [C27_div]
  constructor
  · rintro ⟨_, h, _⟩; exact h
  · intro h
    generalize ((⟨a.1, a.2⟩ : Fq2) / ⟨b.1, b.2⟩) = z
    exact ⟨(z.re, z.im), h, rfl⟩

/-- The zero tests are exact: no nonzero pair has norm zero. -/
theorem C27_zero_tests (a b : I2) :
    (assertNotZero a ↔ a ≠ (0, 0)) ∧ (assertZero a ↔ a = (0, 0)) ∧
    (assertNotEqual a b ↔ a ≠ b) ∧ (Integer2Chip.assertEqual a b ↔ a = b) := by
  refine ⟨?_, ?_, ?_, ?_⟩
  · rw [assertNotZero_iff, Ne, fe_eq_zero, Ne, Prod.ext_iff]
  · unfold assertZero Integer2Chip.reduce IntegerChip.reduce IntegerChip.assertZero
    rw [Prod.ext_iff]
    constructor
    · rintro ⟨a', ⟨h1, h2⟩, h3, h4⟩; exact ⟨h1.symm.trans h3, h2.symm.trans h4⟩
    · rintro ⟨h1, h2⟩; exact ⟨a, ⟨rfl, rfl⟩, h1, h2⟩
  · rw [assertNotEqual_iff, Ne, fe_inj]
  · rw [Prod.ext_iff]; exact Iff.rfl

/-- Selection by a boolean cell. -/
theorem C27_select (a b c : I2) (s : Fr) (hs : MainGate.assignBit s) :
    Integer2Chip.select a b s c ↔ (s = 1 ∧ c = a) ∨ (s = 0 ∧ c = b) :=
  Integer2Chip.select_iff (GrumpkinChip.assignBit_iff.1 hs)

/-- `(1 + 2u)(3 + 4u) = -5 + 10u`, and `(-5 + 10u) / (3 + 4u) = 1 + 2u`. -/
example : Integer2Chip.mul (1, 2) (3, 4) (-5, 10) ∧ divIncomplete (-5, 10) (3, 4) (1, 2) := by
  have h : (⟨-5, 10⟩ : Fq2) = ⟨1, 2⟩ * ⟨3, 4⟩ := by
    apply QuadraticAlgebra.ext
    · simp only [QuadraticAlgebra.re_mul]; norm_num
    · simp only [QuadraticAlgebra.im_mul]; norm_num
  have h0 : ((3, 4) : I2) ≠ (0, 0) := fun e => three_ne_zero_q (congrArg Prod.fst e)
  refine ⟨(C27_mul _ _ _).2 h, (C27_div _ _ _).2 ⟨h0, ?_⟩⟩
  have h1 : (⟨3, 4⟩ : Fq2) ≠ 0 := fun e => three_ne_zero_q (congrArg QuadraticAlgebra.re e)
  show (⟨1, 2⟩ : Fq2) = ⟨-5, 10⟩ / ⟨3, 4⟩
  rw [eq_div_iff h1, h]

end Verif.Props
