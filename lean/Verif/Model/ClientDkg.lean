import Verif.Model.Client
import Verif.Model.Poseidon

/-!
Model of the key generation, DKG and evaluation commands of bin/client.rs and of the parts of
services/node.ts and services/admin.ts around them (feature `g2chip`).

Files hold the serialised structures of `Verif.Model.Serialise`.  A command that fails may have
written some of its files before; here only the files of a successful command are modelled, see `Verif.Model.ClientFiles` for the rest.  Proofs are
made and checked by external code, given here as functions.
-/

namespace Verif.Client

/-- `Commands::Keygen`, bin/client.rs:391-409; the drawn secret is an argument, the result is the
member file. -/
noncomputable def keygen (sk : Fq) : MemberKeySerde := .of (MemberKey.random sk)

/-- A hexadecimal string as a `uint256` argument of a transaction (conversion by ethers, external). -/
def wordOfHex (s : List Char) : Option Word := do
  let bs ← hexDecode (trim0x s)
  if bs.length ≤ 32 then return BitVec.ofNat 256 (ofBE bs) else none

/-- The argument of `registerNode` read from the member file, services/node.ts:156-160. -/
def registration (f : MemberKeySerde) : Option GrumpkinSol.Point := do
  return ⟨← wordOfHex f.pk.x, ← wordOfHex f.pk.y⟩

/-- `mpks.json` as written by the services, services/node.ts:208-212. -/
def mpksFile (pkList : List GrumpkinSol.Point) : List PointSerde :=
  pkList.map (fun k => ⟨hexOfWord k.x, hexOfWord k.y⟩)

/-- `all_instances.json` as written by the services, services/node.ts:245-251,
services/admin.ts:293-299. -/
def instancesFile (ppList : List (List Word)) : List (List (List Char)) :=
  ppList.map (fun l => l.map hexOfWord)

/-- The index check of the commands, bin/client.rs:411-413, 452-454, 557-559, 579-581,
595-597. -/
def checkIndex (cfg : DkgConfig) (index : ℕ) : Except CliFail Unit :=
  if index < 1 ∨ index > cfg.numberOfMembers then .error (.badIndex index) else .ok ()

/-- `DkgCommands::Prove`, bin/client.rs:410-421, up to the public instance: reads the keys, creates
parameters with the random stream `draw`. -/
noncomputable def proveInstance (infPanics : Bool) (cfg : DkgConfig) (index : ℕ)
    (mpks : List PointSerde) (draw : ℕ → Fr) : Except CliFail (List Fr) := do
  checkIndex cfg index
  let pks ← lift (mpks.mapM PointSerde.toGk)
  let dkg ← lift (DkgMemberParams.new Poseidon.hash2 cfg pks draw)
  lift (dkg.publicParams.toInstance infPanics dkg.publicKeys)

/-- `DkgCommands::Prove`, bin/client.rs:410-450.  `prover` is proof creation with self-check
(`create_proof_checked`, external; `none` if it panics).  Results are the files `proof_<index>.dat` and
`instance_<index>.json` (`save_proof`, bin/client.rs:204-218). -/
noncomputable def prove (prover : List Fr → Option (List Byte)) (infPanics : Bool) (cfg : DkgConfig)
    (index : ℕ) (mpks : List PointSerde) (draw : ℕ → Fr) :
    Except CliFail (List Byte × List (List Char)) := do
  let ins ← proveInstance infPanics cfg index mpks draw
  match prover ins with
  | none => .error (.lib .panic)
  | some proof => return (proof, ins.map writeField)

/-- `DkgCommands::Verify`, bin/client.rs:451-505, without the names of files.  `verifier` is
`verify_single` (external, panics on a bad proof).  A list of keys different from the expected one is
reported as `none`. -/
noncomputable def dkgVerify (verifier : List Byte → List Fr → Bool) (cfg : DkgConfig) (index : ℕ)
    (proof : List Byte) (instanceFile : List (List Char)) (mpks : List PointSerde) :
    Except (Option CliFail) Unit := do
  (checkIndex cfg index).mapError some
  let ins ← (lift (instanceFile.mapM (readField r))).mapError some
  let pks ← (lift (mpks.mapM PointSerde.toGk)).mapError some
  let keys ← (lift (clientPublicKeys cfg ins)).mapError some
  if keys ≠ pks then .error none
  else if verifier proof ins then .ok () else .error (some (.lib .panic))

/-- The arguments of `submitPublicParams`, services/node.ts:234-238. -/
def ppSubmission (instanceFile : List (List Char)) : Option (List Word) := instanceFile.mapM wordOfHex

/-- The files written by `DkgCommands::Derive`: `gpk.json`, `vks.json` and the share file. -/
structure DeriveOut where
  gpk : Point2Serde
  vks : List PointSerde
  share : Option ShareKeySerde

/-- `DkgCommands::Derive`, bin/client.rs:506-575 (`save_share`, `save_gpp`: bin/client.rs:169-195).
`member` is the index argument with the contents of the member file. -/
noncomputable def derive (cfg : DkgConfig) (instances : List (List (List Char)))
    (member : Option (ℕ × MemberKeySerde)) : Except CliFail DeriveOut := do
  let ins ← lift (instances.mapM (fun l => l.mapM (readField r)))
  let pps ← lift (ins.mapM (fun s => do let p ← fromInstance cfg s; return p.1))
  let gpp ← lift (dkgGlobalPublicParams pps)
  let out := GlobalParamsSerde.of gpp
  match member with
  | none => return ⟨out.g2a, out.verifyKeys, none⟩
  | some (index, f) => do
    checkIndex cfg index
    let k ← lift f.read
    let share ← lift (k.dkgShareKey Poseidon.hash2 cfg index pps)
    lift (share.verify cfg gpp.verifyKeys)
    return ⟨out.g2a, out.verifyKeys, some (ShareKeySerde.of share)⟩

/-- The argument of `computeVk`, services/admin.ts:310-313. -/
def gpkSubmission (p : Point2Serde) : Option SolG2 := do
  return ⟨← wordOfHex p.x0, ← wordOfHex p.x1, ← wordOfHex p.y0, ← wordOfHex p.y1⟩

/-- `RandCommands::Eval`, bin/client.rs:578-593; `nonce` is the random scalar of the proof. -/
noncomputable def eval (keccak : Keccak) (h2c : List Byte → G1) (cfg : DkgConfig) (index : ℕ)
    (shareFile : ShareKeySerde) (input : List Byte) (nonce : Fr) :
    Except CliFail PartialEvalSerde := do
  checkIndex cfg index
  let share ← lift shareFile.read
  return PartialEvalSerde.of (DkgShareKey.evaluate keccak h2c share input nonce)

/-- `RandCommands::Verify`, bin/client.rs:594-611. -/
noncomputable def verifyEval (keccak : Keccak) (h2c : List Byte → G1) (cfg : DkgConfig) (index : ℕ)
    (evalFile : PartialEvalSerde) (vksFile : List PointSerde) (input : List Byte) :
    Except CliFail Unit := do
  checkIndex cfg index
  let sigma ← lift evalFile.read
  let vks ← lift (vksFile.mapM PointSerde.toG1)
  let vk ← lift (getOrPanic vks (index - 1))
  lift (sigma.verify keccak h2c cfg input vk)

/-- The argument of `submitPartialEval`, services/node.ts:280-288. -/
def evalSubmission (p : PartialEvalSerde) : Option SolEval := do
  return ⟨p.index, ⟨← wordOfHex p.value.x, ← wordOfHex p.value.y⟩, ← wordOfHex p.z, ← wordOfHex p.c⟩

end Verif.Client
