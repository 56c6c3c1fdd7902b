import Mathlib.Algebra.QuadraticAlgebra.Basic
import Mathlib.NumberTheory.LegendreSymbol.Basic
import Verif.Lemmas.GroupOrder

/-!
The quadratic extension `Fq2 = Fq[u]/(u² + 1)` and the BN254 twist carrying G2.
-/

namespace Verif
open WeierstrassCurve WeierstrassCurve.Affine

/-- `-1` is not a square in `Fq`, so `u² + 1` is irreducible. -/
theorem neg_one_not_square (x : Fq) : x ^ 2 ≠ -1 := by
  intro h
  have hq : q % 4 = 3 := by decide +kernel
  have := ZMod.mod_four_ne_three_of_sq_eq_neg_one (p := q) (y := x) h
  exact this hq

instance : Fact (∀ x : Fq, x ^ 2 ≠ -1 + 0 * x) :=
  ⟨fun x h => neg_one_not_square x (by simpa using h)⟩

/-- `Fq2`: pairs `c0 + c1 u` with `u² = -1` (`bn256::Fq2`, external; src/ecc_chip/bn256.rs:1-30). -/
abbrev Fq2 : Type := QuadraticAlgebra Fq (-1) 0

/-- Constant of the twist equation, `3 / (9 + u)` (external `bn256::G2Affine::b()`; its value is
pinned by the on-curve check of the generator, contracts/libs/Pairing.sol:26-31). -/
def twistB : Fq2 :=
  ⟨19485874751759354771024239261021720505790618469301721065564631296452457478373,
   266929791119991161246907387137283842545076965332900288569378510910307636690⟩

/-- The sextic twist `y² = x³ + 3/(9+u)` over `Fq2` (`BnG2`, src/lib.rs:22). -/
abbrev twist : WeierstrassCurve.Affine Fq2 := shortW twistB

/-- Points of the twist, infinity included (`BnG2 = bn256::G2Affine`, src/lib.rs:22).
`G2Affine::from_xy` checks the equation only, not membership in the order-`r` subgroup. -/
abbrev G2 : Type := twist.Point

end Verif
