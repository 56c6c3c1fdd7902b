import Mathlib.Data.ZMod.Basic

/-!
The moduli of the two fields used throughout zkdvrf.
-/

namespace Verif

/-- Modulus of the BN254 base field (`bn256::Fq`, also the Grumpkin scalar field).
Models `Q` in contracts/libs/Hash.sol:8, `q` in contracts/libs/Pairing.sol:34
and the external `halo2curves` field used by src/lib.rs:22-27. -/
def q : ℕ := 21888242871839275222246405745257275088696311157297823662689037894645226208583

/-- Modulus of the BN254 scalar field (`bn256::Fr`, also the Grumpkin base field).
Models `R` in contracts/PseudoRand.sol:13, `r` in contracts/libs/Grumpkin.sol:14
and the external `halo2curves` field used by src/lib.rs:22-27. -/
def r : ℕ := 21888242871839275222246405745257275088548364400416034343698204186575808495617

/-- The BN254 base field (`bn256::Fq`, src/utils.rs and src/hash_to_curve_evm.rs:1-10). -/
abbrev Fq : Type := ZMod q

/-- The BN254 scalar field (`BnScalar`, src/lib.rs:22; src/dkg.rs:6). -/
abbrev Fr : Type := ZMod r

end Verif
