import Verif.Model.HashToCurve

/-! Model of contracts/PseudoRand.sol and contracts/libs/Grumpkin.sol. -/

namespace Verif

/-- Bytes of an ASCII string (`EVAL_PREFIX.as_bytes()`, `bytes("...")`). -/
def strBytes (s : String) : List Byte := s.toList.map (fun c => Fin.ofNat 256 c.toNat)

/-- Value of a call that does not fail; infinity stands for a failure. -/
def okOrZero : Res G1 → G1
  | .ok P => P
  | .error _ => 0

/-- The hash used by src/dkg.rs:122, 182 and 307 (`hash_to_curve_bn(EVAL_PREFIX)`,
src/utils.rs:171-173), as a total function: a panic gives the point at infinity here, and
`C18_hash_total` shows that it never panics. -/
def evalHash (keccak : Keccak) (input : List Byte) : G1 :=
  okOrZero (RustHash.hashToCurve keccak (strBytes evalPrefix) input)

namespace PseudoRandSol

/-- `DOMAIN`, contracts/PseudoRand.sol:12. -/
def DOMAIN : List Byte := strBytes "DVRF pseudorandom generation 2023"

/-- `R`, contracts/PseudoRand.sol:13. -/
def R : Word := 21888242871839275222246405745257275088548364400416034343698204186575808495617

/-- `PartialEvalProof`, contracts/IPseudoRand.sol:8-11. -/
structure Proof where
  z : Word
  c : Word

/-- `hashToG1`, contracts/PseudoRand.sol:15-18. -/
def hashToG1 (keccak : Keccak) (message : List Byte) : Evm SolG1 :=
  SolHash.hashToG1 keccak DOMAIN message

/-- `abi.encodePacked(g.x, g.y, ...)`, contracts/PseudoRand.sol:38-39 and 63-64. -/
def pack (ps : List SolG1) : List Byte := ps.flatMap (fun p => Word.bytes p.x ++ Word.bytes p.y)

/-- `verifyPartialEvalFast`, contracts/PseudoRand.sol:21-44. -/
def verifyPartialEvalFast (keccak : Keccak) (h sigma : SolG1) (proof : Proof) (vk : SolG1) :
    Evm Bool := do
  let g := Pairing.P1
  let gz ← Pairing.scalarMul g proof.z
  let vkc ← Pairing.scalarMul vk proof.c
  let r1 ← Pairing.addition gz (Pairing.negate vkc)
  let hz ← Pairing.scalarMul h proof.z
  let sc ← Pairing.scalarMul sigma proof.c
  let r2 ← Pairing.addition hz (Pairing.negate sc)
  let hash := keccak (pack [g, h, r1, r2, vk, sigma])
  let cc := hash % R
  return decide (cc = proof.c)

/-- `verifyPartialEval`, contracts/PseudoRand.sol:46-69: the hash is computed first, the rest is
the same text as `verifyPartialEvalFast`. -/
def verifyPartialEval (keccak : Keccak) (message : List Byte) (sigma : SolG1) (proof : Proof)
    (vk : SolG1) : Evm Bool := do
  let h ← SolHash.hashToG1 keccak DOMAIN message
  let g := Pairing.P1
  let gz ← Pairing.scalarMul g proof.z
  let vkc ← Pairing.scalarMul vk proof.c
  let r1 ← Pairing.addition gz (Pairing.negate vkc)
  let hz ← Pairing.scalarMul h proof.z
  let sc ← Pairing.scalarMul sigma proof.c
  let r2 ← Pairing.addition hz (Pairing.negate sc)
  let hash := keccak (pack [g, h, r1, r2, vk, sigma])
  let cc := hash % R
  return decide (cc = proof.c)

/-- `verifyPseudoRandFast`, contracts/PseudoRand.sol:71-76. -/
noncomputable def verifyPseudoRandFast (E : BnPairing) (h sigma : SolG1) (gpk : SolG2) : Evm Bool :=
  let hn := Pairing.negate h
  Pairing.pairingProd2 E hn gpk sigma Pairing.P2

/-- `verifyPseudoRand`, contracts/PseudoRand.sol:78-85. -/
noncomputable def verifyPseudoRand (E : BnPairing) (keccak : Keccak) (message : List Byte)
    (sigma : SolG1) (gpk : SolG2) : Evm Bool := do
  let h ← SolHash.hashToG1 keccak DOMAIN message
  let h := Pairing.negate h
  Pairing.pairingProd2 E h gpk sigma Pairing.P2

end PseudoRandSol

namespace GrumpkinSol

/-- `Grumpkin.Point`, contracts/libs/Grumpkin.sol:5-8. -/
structure Point where
  x : Word
  y : Word
deriving DecidableEq

/-- The constant `r`, contracts/libs/Grumpkin.sol:14. -/
def r : Word := 21888242871839275222246405745257275088548364400416034343698204186575808495617

/-- `isOnCurve`, contracts/libs/Grumpkin.sol:11-24. -/
def isOnCurve (a : Point) : Bool :=
  let y2 := mulmod a.y a.y r
  let z := addmod y2 17 r
  let x2 := mulmod a.x a.x r
  let x3 := mulmod a.x x2 r
  decide (z = x3)

end GrumpkinSol

end Verif
