import Mathlib.Algebra.Field.ZMod
import Verif.Lemmas.Primes

/-!
Mathematical description of the Shallue-van de Woestijne map to `y² = x³ + 3` over `Fq`
(Fouque-Tibouchi form), given a square root `s` of `-3`.
-/

namespace Verif.Spec

/-- First candidate: `(-1 + s)/2 - s t²/(t² + 4)`. -/
noncomputable def swX1 (s t : Fq) : Fq := (-1 + s) / 2 - s * t ^ 2 / (t ^ 2 + 4)

/-- Second candidate: `-1 - x1`. -/
noncomputable def swX2 (s t : Fq) : Fq := -1 - swX1 s t

/-- Third candidate: `1 - (t² + 4)² / (3 t²)`. -/
noncomputable def swX3 (t : Fq) : Fq := 1 - (t ^ 2 + 4) ^ 2 / (3 * t ^ 2)

/-- `x` is the first of the three candidates at which `x³ + 3` is a square. -/
def FirstSquare (s t x : Fq) : Prop :=
  (IsSquare (swX1 s t ^ 3 + 3) ∧ x = swX1 s t) ∨
  (¬ IsSquare (swX1 s t ^ 3 + 3) ∧ IsSquare (swX2 s t ^ 3 + 3) ∧ x = swX2 s t) ∨
  (¬ IsSquare (swX1 s t ^ 3 + 3) ∧ ¬ IsSquare (swX2 s t ^ 3 + 3) ∧ IsSquare (swX3 t ^ 3 + 3) ∧
    x = swX3 t)

end Verif.Spec
