import Verif.Model.Lib

/-!
The EVM fragment used by the contracts: 256-bit words, checked Solidity 0.8 arithmetic,
`mulmod`/`addmod`, the BN254 precompiles 6, 7, 8, and contracts/libs/Pairing.sol.
Reverts (and `invalid`/`assert` failures) are `none`.  Gas is not modelled.
-/

namespace Verif
open WeierstrassCurve.Affine

/-- Result of a Solidity call: `none` is a revert. -/
abbrev Evm (α : Type) : Type := Option α

/-- EVM `mulmod` (zero modulus gives zero). -/
def mulmod (a b m : Word) : Word :=
  if m = 0 then 0 else BitVec.ofNat 256 (a.toNat * b.toNat % m.toNat)

/-- EVM `addmod`. -/
def addmod (a b m : Word) : Word :=
  if m = 0 then 0 else BitVec.ofNat 256 ((a.toNat + b.toNat) % m.toNat)

/-- Solidity 0.8 checked multiplication on `uint256`. -/
def checkedMul (a b : Word) : Evm Word :=
  if a.toNat * b.toNat < 2 ^ 256 then some (BitVec.ofNat 256 (a.toNat * b.toNat)) else none

/-- Solidity 0.8 checked addition on `uint256`. -/
def checkedAdd (a b : Word) : Evm Word :=
  if a.toNat + b.toNat < 2 ^ 256 then some (BitVec.ofNat 256 (a.toNat + b.toNat)) else none

/-- Solidity 0.8 checked subtraction on `uint256`. -/
def checkedSub (a b : Word) : Evm Word :=
  if b.toNat ≤ a.toNat then some (BitVec.ofNat 256 (a.toNat - b.toNat)) else none

/-- Solidity `require` / `assert`. -/
def require (c : Bool) : Evm Unit := if c then some () else none

/-- Solidity 0.8 checked `uint32` result. -/
def u32 (n : ℕ) : Evm ℕ := if n < 2 ^ 32 then some n else none

/-- `Pairing.G1Point`, contracts/libs/Pairing.sol:10-13. -/
structure SolG1 where
  x : Word
  y : Word
deriving DecidableEq

/-- `Pairing.G2Point`, contracts/libs/Pairing.sol:15-18; `x0 = x[0]` etc. -/
structure SolG2 where
  x0 : Word
  x1 : Word
  y0 : Word
  y1 : Word
deriving DecidableEq

/-- Word of a field element. -/
def wordOf {p : ℕ} (x : ZMod p) : Word := BitVec.ofNat 256 x.val

/-- EVM words of an instance vector (`uint256[]` calldata of `submitPublicParams`,
contracts/zkdvrf.sol:139; the client sends the canonical representatives). -/
def wordsOf (v : List Fr) : List Word := v.map wordOf

/-- Point denoted by two words in the precompiles (EIP-196): coordinates below `q` satisfying the
curve equation, or `(0, 0)` for infinity; anything else makes the precompile fail. -/
def decodeG1 (p : SolG1) : Option G1 :=
  if p.x.toNat < q ∧ p.y.toNat < q then bnFromXY (p.x.toNat : Fq) (p.y.toNat : Fq) else none

/-- Words returned by the precompiles for a point. -/
def encodeG1 (P : G1) : SolG1 := ⟨wordOf (coords P).1, wordOf (coords P).2⟩

/-- Precompile 6 (ecAdd), called from contracts/libs/Pairing.sol:43-56. -/
def ecAdd (a b : SolG1) : Evm SolG1 := do
  let A ← decodeG1 a
  let B ← decodeG1 b
  return encodeG1 (A + B)

/-- Precompile 7 (ecMul), called from contracts/libs/Pairing.sol:61-73. -/
def ecMul (a : SolG1) (s : Word) : Evm SolG1 := do
  let A ← decodeG1 a
  return encodeG1 (s.toNat • A)

/-- One six-word group of the input of precompile 8 (EIP-197): imaginary parts come first. -/
structure PairingInput where
  x : Word
  y : Word
  xIm : Word
  xRe : Word
  yIm : Word
  yRe : Word

open Classical in
/-- G2 point of a pairing input (EIP-197): coordinates below `q`, on the twist (or all zero), and in
the subgroup of order `r`. -/
noncomputable def decodeG2Words (xIm xRe yIm yRe : Word) : Option G2 :=
  if xIm.toNat < q ∧ xRe.toNat < q ∧ yIm.toNat < q ∧ yRe.toNat < q then
    match g2FromXY ⟨(xRe.toNat : Fq), (xIm.toNat : Fq)⟩ ⟨(yRe.toNat : Fq), (yIm.toNat : Fq)⟩ with
    | none => none
    | some Q => if r • Q = 0 then some Q else none
  else none

/-- Precompile 8 (ecPairing). -/
noncomputable def ecPairing (E : BnPairing) (input : List PairingInput) : Evm Bool := do
  let terms ← input.mapM (fun i => do
    let P ← decodeG1 ⟨i.x, i.y⟩
    let Q ← decodeG2Words i.xIm i.xRe i.yIm i.yRe
    return E.e P Q)
  return decide (terms.sum = 0)

namespace Pairing

/-- `Pairing.P1`, contracts/libs/Pairing.sol:20-22. -/
def P1 : SolG1 := ⟨1, 2⟩

/-- `Pairing.P2`, contracts/libs/Pairing.sol:24-31. -/
def P2 : SolG2 :=
  ⟨10857046999023057135944570762232829481370756359578518086990519993285655852781,
   11559732032986387107991004021392285783925812861821192530917403151452391805634,
   8495653923123431417604973247489272438418190587263600148770280649306958101930,
   4082367875863433681332203403145435568316851327593401208105741076214120093531⟩

/-- The constant `q` of contracts/libs/Pairing.sol:35. -/
def qWord : Word := 21888242871839275222246405745257275088696311157297823662689037894645226208583

/-- `Pairing.negate`, contracts/libs/Pairing.sol:33-39 (the subtraction cannot underflow). -/
def negate (p : SolG1) : SolG1 :=
  if p.x = 0 ∧ p.y = 0 then ⟨0, 0⟩ else ⟨p.x, qWord - p.y % qWord⟩

/-- `Pairing.addition`, contracts/libs/Pairing.sol:41-56. -/
def addition (a b : SolG1) : Evm SolG1 := ecAdd a b

/-- `Pairing.scalar_mul`, contracts/libs/Pairing.sol:59-73. -/
def scalarMul (a : SolG1) (s : Word) : Evm SolG1 := ecMul a s

/-- `Pairing.pairing`, contracts/libs/Pairing.sol:78-101: `x[1]` goes before `x[0]`. -/
noncomputable def pairing (E : BnPairing) (p1 : List SolG1) (p2 : List SolG2) : Evm Bool := do
  require (decide (p1.length = p2.length))
  ecPairing E (List.zipWith (fun a b => ⟨a.x, a.y, b.x1, b.x0, b.y1, b.y0⟩) p1 p2)

/-- `Pairing.pairingProd2`, contracts/libs/Pairing.sol:103-112. -/
noncomputable def pairingProd2 (E : BnPairing) (a1 : SolG1) (a2 : SolG2) (b1 : SolG1) (b2 : SolG2) :
    Evm Bool := pairing E [a1, b1] [a2, b2]

end Pairing

/-- G2 point denoted by a Solidity G2 struct. -/
noncomputable def decodeG2 (Q : SolG2) : Option G2 := decodeG2Words Q.x1 Q.x0 Q.y1 Q.y0

/-- Solidity G2 struct of a twist point. -/
def encodeG2 (Q : G2) : SolG2 :=
  ⟨wordOf (coords Q).1.re, wordOf (coords Q).1.im, wordOf (coords Q).2.re, wordOf (coords Q).2.im⟩

end Verif
