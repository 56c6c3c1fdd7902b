import Mathlib.Algebra.Field.ZMod
import Verif.Lemmas.Primes

/-!
The Shallue-van de Woestijne map of RFC 9380, section 6.6.1, for `y² = x³ - 17` over `Fr` with
`Z = 1`, written as mathematics.
-/

namespace Verif.Spec.Svdw

/-- Right-hand side of the curve equation. -/
def g (x : Fr) : Fr := x ^ 3 - 17

/-- The arguments at which a denominator of the map vanishes. -/
def Exceptional (u : Fr) : Prop := 256 * u ^ 4 = 1

open Classical in
/-- First candidate, with `c` a square root of 48. -/
noncomputable def x1 (c u : Fr) : Fr :=
  if Exceptional u then -1 / 2 else -1 / 2 - c * u / (1 - 16 * u ^ 2)

open Classical in
/-- Second candidate. -/
noncomputable def x2 (c u : Fr) : Fr :=
  if Exceptional u then -1 / 2 else -1 / 2 + c * u / (1 - 16 * u ^ 2)

open Classical in
/-- Third candidate. -/
noncomputable def x3 (u : Fr) : Fr :=
  if Exceptional u then 1 else 1 + 64 / 3 * ((1 - 16 * u ^ 2) / (1 + 16 * u ^ 2)) ^ 2

/-- `(x, y)` is the image of `u`: the first candidate at which `g` is a square, and the root with the
parity of `u`; `c` is the even root of 48. -/
def Image (u x y : Fr) : Prop :=
  ∃ c : Fr, c ^ 2 = 48 ∧ c.val % 2 = 0 ∧
    ((IsSquare (g (x1 c u)) ∧ x = x1 c u) ∨
     (¬ IsSquare (g (x1 c u)) ∧ IsSquare (g (x2 c u)) ∧ x = x2 c u) ∨
     (¬ IsSquare (g (x1 c u)) ∧ ¬ IsSquare (g (x2 c u)) ∧ x = x3 u)) ∧
    y ^ 2 = g x ∧ y.val % 2 = u.val % 2

end Verif.Spec.Svdw
