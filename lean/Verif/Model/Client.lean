import Verif.Model.Serialise
import Verif.Model.Zkdvrf

/-!
Model of parts of bin/client.rs, and of the part of services/admin.ts that feeds it.

Files hold the serialised structures of `Verif.Model.Serialise`; file names and JSON syntax are in
`Verif.Model.ClientFiles`.
-/

namespace Verif

/-- `public_keys`, bin/client.rs:220-236 (feature `g2chip`): the member keys at the end of an
instance. -/
def clientPublicKeys (cfg : DkgConfig) (ins : List Fr) : Res (List Gk) :=
  let b := 5 * cfg.numberOfMembers + 14
  (List.range cfg.numberOfMembers).mapM (fun i => readGk ins (b + 2 * i))

namespace Client

/-- How a command can fail: with one of its own messages, or with a failure of the library (returned
error or panic). -/
inductive CliFail where
  | badIndex (i : ℕ)
  | notEnough
  | lib (f : Fail)
deriving DecidableEq

/-- The `?` operator on library results. -/
def lift {α : Type} : Res α → Except CliFail α
  | .ok a => .ok a
  | .error f => .error (.lib f)

/-- The verification loop, bin/client.rs:635-644. -/
noncomputable def verifyLoop (keccak : Keccak) (h2c : List Byte → G1) (cfg : DkgConfig)
    (input : List Byte) (vks : List G1) : List PartialEval → Except CliFail (List PartialEval)
  | [] => .ok []
  | e :: es =>
    if e.index < 1 ∨ e.index > cfg.numberOfMembers then .error (.badIndex e.index)
    else match vks[e.index - 1]? with
      | none => .error (.lib .panic)
      | some vk =>
        match verifyLoop keccak h2c cfg input vks es with
        | .error f => .error f
        | .ok rest =>
          match e.verify keccak h2c cfg input vk with
          | .ok () => .ok (e :: rest)
          | .error _ => .ok rest

/-- `RandCommands::Combine`, bin/client.rs:612-666; returns the value written to `pseudo.json`. -/
noncomputable def combine (E : BnPairing) (keccak : Keccak) (h2c : List Byte → G1)
    (cfg : DkgConfig) (evalsFile : List PartialEvalSerde) (gpkFile : Point2Serde)
    (vksFile : List PointSerde) (input : List Byte) (skip : Bool) :
    Except CliFail PseudoRandomSerde := do
  let evals ← lift (evalsFile.mapM PartialEvalSerde.read)
  let gpk ← lift gpkFile.toG2
  let verified ←
    if skip then .ok evals
    else do
      let vks ← lift (vksFile.mapM PointSerde.toG1)
      verifyLoop keccak h2c cfg input vks evals
  if verified.length < cfg.threshold then .error .notEnough
  else do
    let pseudo ← lift (combinePartialEvaluations keccak cfg (verified.take cfg.threshold))
    lift (pseudo.verify E keccak h2c input gpk)
    return PseudoRandomSerde.of pseudo

/-- `RandCommands::VerifyFinal`, bin/client.rs:667-681. -/
def verifyFinal (E : BnPairing) (keccak : Keccak) (h2c : List Byte → G1)
    (pseudoFile : PseudoRandomSerde) (gpkFile : Point2Serde) (input : List Byte) :
    Except CliFail Unit := do
  let pseudo ← lift pseudoFile.read
  let gpk ← lift gpkFile.toG2
  lift (pseudo.verify E keccak h2c input gpk)

/-- Minimal big-endian bytes of a word, one zero byte for 0. -/
def minBytes (w : Word) : List Byte :=
  match (Word.bytes w).dropWhile (fun b => decide (b = 0)) with
  | [] => [0]
  | b :: bs => b :: bs

/-- `BigNumber.toHexString()` of ethers (external), services/admin.ts:422-423: `0x` and an even number
of lower-case digits without leading zero bytes. -/
def hexOfWord (w : Word) : List Char := '0' :: 'x' :: (hexEncode (minBytes w)).map Char.toLower

/-- One record of `evals.json`, services/admin.ts:421-431. -/
def evalRecord (e : SolEval) : PartialEvalSerde :=
  ⟨e.indexPlus, ⟨hexOfWord e.value.x, hexOfWord e.value.y⟩, hexOfWord e.z, hexOfWord e.c⟩

/-- The collection loop of `createRandom`, services/admin.ts:411-434; the second argument
is `roundToEval` of the round. -/
def evalsFile (memberCount : ℕ) (roundToEval : ℕ → SolEval) : List PartialEvalSerde :=
  (((List.range memberCount).map roundToEval).filter
    (fun e => decide (e.indexPlus ≠ 0))).map evalRecord

/-- The transaction built from `pseudo.json`, services/admin.ts:450-454 (hex strings become `uint256`,
the byte array becomes `bytes32`; conversion by ethers, external). -/
def submission (p : PseudoRandomSerde) : Option SolRandom := do
  let x ← hexDecode (trim0x p.proof.x)
  let y ← hexDecode (trim0x p.proof.y)
  if x.length ≤ 32 ∧ y.length ≤ 32 ∧ p.value.length = 32 then
    return ⟨⟨BitVec.ofNat 256 (ofBE x), BitVec.ofNat 256 (ofBE y)⟩, BitVec.ofNat 256 (ofBE p.value)⟩
  else none

end Client

end Verif
