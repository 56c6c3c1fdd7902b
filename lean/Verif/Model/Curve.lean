import Mathlib.AlgebraicGeometry.EllipticCurve.Affine.Point
import Verif.Lemmas.Primes

/-!
The two curves of zkdvrf as Mathlib elliptic-curve point groups.
-/

namespace Verif

open WeierstrassCurve

/-- Short Weierstrass curve `y² = x³ + b`.  Both curves of the code have this shape
(contracts/libs/Grumpkin.sol:16, contracts/libs/Hash.sol:86-88, src/hash_to_curve_evm.rs:117-153). -/
abbrev shortW {F : Type*} [CommRing F] (b : F) : WeierstrassCurve.Affine F := ⟨0, 0, 0, 0, b⟩

/-- BN254 G1: `y² = x³ + 3` over `Fq` (`BnG1`, src/lib.rs:22; src/dkg.rs:6).  The group law is the
external `halo2curves` one, here Mathlib's. -/
abbrev bnCurve : WeierstrassCurve.Affine Fq := shortW 3

/-- Grumpkin: `y² = x³ - 17` over `Fr` (`GkG1`, src/lib.rs:26; contracts/libs/Grumpkin.sol:16). -/
abbrev gkCurve : WeierstrassCurve.Affine Fr := shortW (-17)

/-- Points of BN254 G1, infinity included (`BnG1`, src/lib.rs:22). -/
abbrev G1 : Type := bnCurve.Point

/-- Points of Grumpkin, infinity included (`GkG1`, src/lib.rs:26). -/
abbrev Gk : Type := gkCurve.Point

/-- Affine coordinates of a point as stored by halo2curves' affine types and by the EVM
precompiles: infinity is `(0, 0)` (external; contracts/libs/Pairing.sol:35-36). -/
def coords {F : Type*} [CommRing F] {b : F} : (shortW b).Point → F × F
  | .zero => (0, 0)
  | .some x y _ => (x, y)

end Verif
