import Verif.Model.Disk
import Verif.Model.Mock

/-!
Model of the commands of bin/client.rs and bin/mock.rs as programs on files (feature `g2chip`): which
files they read and write, under which names and in which order.

Options are as in the command line; `THRESHOLD` and `NUMBER_OF_MEMBERS` are the configuration `cfg`
(`Verif.Model.Config`).  The cached parameters and keys under `./kzg_params` are in `Verif.Model.Cache`;
here proofs are made and checked by external code, given as functions.  Log messages are not modelled.
-/

namespace Verif.ClientFiles
open Disk Disk.Prog

/-- `DATA_DIR`, bin/client.rs:44. -/
def dataDir : List Char := "./data".toList
/-- `MEM_PUBLIC_KEYS_PATH`, bin/client.rs:45; `mpksPath`, services/node.ts:12. -/
def mpksPath : List Char := dataDir ++ "/mpks.json".toList
/-- `MEMBERS_DIR`, bin/client.rs:46; `memberDir`, services/node.ts:11 (with the slash). -/
def membersDir : List Char := dataDir ++ "/members".toList
/-- `DKG_DIR`, bin/client.rs:47; `dkgDir`, services/node.ts:13 (with the slash). -/
def dkgDir : List Char := dataDir ++ "/dkg".toList
/-- `DKG_SECRETS_DIR`, bin/client.rs:48. -/
def secretsDir : List Char := dkgDir ++ "/secrets".toList
/-- `DKG_PROOFS_DIR`, bin/client.rs:49. -/
def proofsDir : List Char := dkgDir ++ "/proofs".toList
/-- `DKG_SHARES_DIR`, bin/client.rs:50. -/
def sharesDir : List Char := dkgDir ++ "/shares".toList
/-- `RANDOM_DIR`, bin/client.rs:51; `randDir`, services/node.ts:15 (with the slash). -/
def randomDir : List Char := "./data/random".toList

/-- `{MEMBERS_DIR}/{f}.json`, bin/client.rs:397, 562; services/node.ts:157. -/
def memberPath (f : List Char) : List Char := membersDir ++ '/' :: (f ++ ".json".toList)
/-- `{DKG_PROOFS_DIR}/proof_{index}.dat`, bin/client.rs:205, 456; services/node.ts:231. -/
def proofPath (i : ℕ) : List Char := proofsDir ++ '/' :: ("proof_".toList ++ decimalText i ++ ".dat".toList)
/-- `{DKG_PROOFS_DIR}/instance_{index}.json`, bin/client.rs:209, 460; services/node.ts:232. -/
def instancePath (i : ℕ) : List Char :=
  proofsDir ++ '/' :: ("instance_".toList ++ decimalText i ++ ".json".toList)
/-- `{DKG_DIR}/all_instances.json`, bin/client.rs:510; `instancesPath`, services/node.ts:14. -/
def allInstancesPath : List Char := dkgDir ++ '/' :: "all_instances.json".toList
/-- `{DKG_DIR}/gpk.json`, bin/client.rs:182, 620, 673; services/admin.ts:310. -/
def gpkPath : List Char := dkgDir ++ '/' :: "gpk.json".toList
/-- `{DKG_DIR}/vks.json`, bin/client.rs:188, 604, 630. -/
def vksPath : List Char := dkgDir ++ '/' :: "vks.json".toList
/-- `{DKG_SHARES_DIR}/share_{index}.json`, bin/client.rs:171, 583. -/
def sharePath (i : ℕ) : List Char := sharesDir ++ '/' :: ("share_".toList ++ decimalText i ++ ".json".toList)
/-- `{RANDOM_DIR}/eval_{index}.json`, bin/client.rs:590, 599; services/node.ts:280. -/
def evalPath (i : ℕ) : List Char := randomDir ++ '/' :: ("eval_".toList ++ decimalText i ++ ".json".toList)
/-- `{RANDOM_DIR}/evals.json`, bin/client.rs:613; services/admin.ts:434. -/
def evalsPath : List Char := randomDir ++ '/' :: "evals.json".toList
/-- `{RANDOM_DIR}/pseudo.json`, bin/client.rs:659, 668; services/admin.ts:450. -/
def pseudoPath : List Char := randomDir ++ '/' :: "pseudo.json".toList
/-- `{DKG_SECRETS_DIR}/secret_{index}.json`, bin/mock.rs:25. -/
def secretPath (i : ℕ) : List Char := secretsDir ++ '/' :: ("secret_".toList ++ decimalText i ++ ".json".toList)
/-- `{DKG_DIR}/dkgs_public.json`, bin/mock.rs:32. -/
def dkgsPublicPath : List Char := dkgDir ++ '/' :: "dkgs_public.json".toList
/-- `{DKG_DIR}/gpp.json`, bin/mock.rs:40, 177. -/
def gppPath : List Char := dkgDir ++ '/' :: "gpp.json".toList
/-- `member_{index}`, bin/mock.rs:116, 129. -/
def mockMember (i : ℕ) : List Char := "member_".toList ++ decimalText i

/-- `Commands::Keygen`, bin/client.rs:391-409; `file` has the default `member`, the drawn secret is an
argument. -/
noncomputable def keygen (file : List Char) (sk : Fq) : Prog Unit :=
  writeJson (memberPath file) (Client.keygen sk)

/-- `save_proof`, bin/client.rs:204-218. -/
def saveProof (proof : List Byte) (ins : List Fr) (index : ℕ) : Prog Unit := do
  writeBytes (proofPath index) proof
  writeJson (instancePath index) (ins.map writeField)

/-- `DkgCommands::Prove`, bin/client.rs:410-450; arguments as in `Client.prove`. -/
noncomputable def prove (prover : List Fr → Option (List Byte)) (infPanics : Bool) (cfg : DkgConfig)
    (index : ℕ) (draw : ℕ → Fr) : Prog Unit := do
  client (Client.checkIndex cfg index)
  let mpksBytes : List PointSerde ← readJson mpksPath
  let mpks ← lib (mpksBytes.mapM PointSerde.toGk)
  let dkg ← lib (DkgMemberParams.new Poseidon.hash2 cfg mpks draw)
  let ins ← lib (dkg.publicParams.toInstance infPanics dkg.publicKeys)
  match prover ins with
  | none => fail (.cli (.lib .panic))
  | some proof => saveProof proof ins index

/-- `DkgCommands::Verify`, bin/client.rs:451-505; arguments as in `Client.dkgVerify`. -/
noncomputable def dkgVerify (verifier : List Byte → List Fr → Bool) (cfg : DkgConfig) (index : ℕ) :
    Prog Unit := do
  client (Client.checkIndex cfg index)
  let proof ← readBytes (proofPath index)
  let instanceBytes : List (List Char) ← readJson (instancePath index)
  let ins ← lib (instanceBytes.mapM (readField r))
  let mpksBytes : List PointSerde ← readJson mpksPath
  let mpks ← lib (mpksBytes.mapM PointSerde.toGk)
  let pks ← lib (clientPublicKeys cfg ins)
  if pks ≠ mpks then fail .keys
  else if verifier proof ins then pure () else fail (.cli (.lib .panic))

/-- `save_gpp`, bin/client.rs:179-195. -/
def saveGpp (gpp : DkgGlobalPubParams) : Prog Unit := do
  writeJson gpkPath (GlobalParamsSerde.of gpp).g2a
  writeJson vksPath (GlobalParamsSerde.of gpp).verifyKeys

/-- `save_share`, bin/client.rs:169-177. -/
def saveShare (share : DkgShareKey) : Prog Unit := writeJson (sharePath share.index) (ShareKeySerde.of share)

/-- `DkgCommands::Derive`, bin/client.rs:506-575, with the optional index and the option `file`.  The
global parameters are written before the index is checked and the share computed. -/
noncomputable def derive (cfg : DkgConfig) (index : Option ℕ) (file : List Char) : Prog Unit := do
  let instancesBytes : List (List (List Char)) ← readJson allInstancesPath
  let instances ← lib (instancesBytes.mapM (fun l => l.mapM (readField r)))
  let dkgsPub ← lib (instances.mapM (fun s => do let p ← fromInstance cfg s; return p.1))
  let gpp ← lib (dkgGlobalPublicParams dkgsPub)
  saveGpp gpp
  match index with
  | none => pure ()
  | some index => do
    client (Client.checkIndex cfg index)
    let memberBytes : MemberKeySerde ← readJson (memberPath file)
    let member ← lib memberBytes.read
    let share ← lib (member.dkgShareKey Poseidon.hash2 cfg index dkgsPub)
    lib (share.verify cfg gpp.verifyKeys)
    saveShare share

/-- `RandCommands::Eval`, bin/client.rs:578-593; the nonce is an argument. -/
noncomputable def eval (keccak : Keccak) (h2c : List Byte → G1) (cfg : DkgConfig) (index : ℕ)
    (input : List Byte) (nonce : Fr) : Prog Unit := do
  client (Client.checkIndex cfg index)
  let shareBytes : ShareKeySerde ← readJson (sharePath index)
  let share ← lib shareBytes.read
  writeJson (evalPath index) (PartialEvalSerde.of (DkgShareKey.evaluate keccak h2c share input nonce))

/-- `RandCommands::Verify`, bin/client.rs:594-611. -/
noncomputable def verifyEval (keccak : Keccak) (h2c : List Byte → G1) (cfg : DkgConfig) (index : ℕ)
    (input : List Byte) : Prog Unit := do
  client (Client.checkIndex cfg index)
  let sigmaBytes : PartialEvalSerde ← readJson (evalPath index)
  let sigma ← lib sigmaBytes.read
  let vksBytes : List PointSerde ← readJson vksPath
  let vks ← lib (vksBytes.mapM PointSerde.toG1)
  let vk ← lib (getOrPanic vks (index - 1))
  lib (sigma.verify keccak h2c cfg input vk)

/-- The choice of evaluations in `RandCommands::Combine`, bin/client.rs:625-645. -/
noncomputable def verified (keccak : Keccak) (h2c : List Byte → G1) (cfg : DkgConfig) (input : List Byte)
    (skip : Bool) (evals : List PartialEval) : Prog (List PartialEval) :=
  if skip then pure evals
  else do
    let vksBytes : List PointSerde ← readJson vksPath
    let vks ← lib (vksBytes.mapM PointSerde.toG1)
    client (Client.verifyLoop keccak h2c cfg input vks evals)

/-- `RandCommands::Combine`, bin/client.rs:612-666. -/
noncomputable def combine (E : BnPairing) (keccak : Keccak) (h2c : List Byte → G1) (cfg : DkgConfig)
    (input : List Byte) (skip : Bool) : Prog Unit := do
  let evalsBytes : List PartialEvalSerde ← readJson evalsPath
  let evals ← lib (evalsBytes.mapM PartialEvalSerde.read)
  let gpkBytes : Point2Serde ← readJson gpkPath
  let gpk ← lib gpkBytes.toG2
  let ok ← verified keccak h2c cfg input skip evals
  if ok.length < cfg.threshold then fail (.cli .notEnough)
  else do
    let pseudo ← lib (combinePartialEvaluations keccak cfg (ok.take cfg.threshold))
    lib (pseudo.verify E keccak h2c input gpk)
    writeJson pseudoPath (PseudoRandomSerde.of pseudo)

/-- `RandCommands::VerifyFinal`, bin/client.rs:667-681. -/
noncomputable def verifyFinal (E : BnPairing) (keccak : Keccak) (h2c : List Byte → G1)
    (input : List Byte) : Prog Unit := do
  let pseudoBytes : PseudoRandomSerde ← readJson pseudoPath
  let pseudo ← lib pseudoBytes.read
  let gpkBytes : Point2Serde ← readJson gpkPath
  let gpk ← lib gpkBytes.toG2
  lib (pseudo.verify E keccak h2c input gpk)

/-! ### bin/mock.rs -/

/-- `mock_members`, bin/mock.rs:100-122. -/
noncomputable def mockMembers (cfg : DkgConfig) (sk : ℕ → Fq) : Prog Unit := do
  let members := (List.range cfg.numberOfMembers).map (fun i => MemberKeySerde.of (MemberKey.random (sk i)))
  writeJson mpksPath (members.map (·.pk))
  let _ ← each (fun m => writeJson (memberPath (mockMember (m.2 + 1))) m.1) members.zipIdx
  pure ()

/-- `save_instances`, bin/mock.rs:84-98. -/
def saveInstances (instances : List (List Fr)) : Prog Unit :=
  writeJson allInstancesPath (instances.map (fun ins => ins.map writeField))

/-- `save_params`, bin/mock.rs:18-57. -/
def saveParams (dkgs : List DkgMemberParams) (dkgsPub : List DkgMemberPublicParams)
    (gpp : DkgGlobalPubParams) : Prog Unit := do
  let _ ← each (fun d => writeJson (secretPath (d.2 + 1)) (MemberParamsSerde.of d.1)) dkgs.zipIdx
  writeJson dkgsPublicPath (dkgsPub.map PublicParamsSerde.of)
  writeJson gppPath (GlobalParamsSerde.of gpp)
  writeJson gpkPath (GlobalParamsSerde.of gpp).g2a
  writeJson vksPath (GlobalParamsSerde.of gpp).verifyKeys

/-- `save_shares`, bin/mock.rs:59-69. -/
def saveShares (shares : List DkgShareKey) : Prog Unit := do
  let _ ← each saveShare shares
  pure ()

/-- `save_evals`, bin/mock.rs:71-82. -/
def saveEvals (sigmas : List PartialEval) (pseudo : PseudoRandom) : Prog Unit := do
  writeJson evalsPath (sigmas.map PartialEvalSerde.of)
  writeJson pseudoPath (PseudoRandomSerde.of pseudo)

/-- `mock_dkg`, bin/mock.rs:124-164. -/
noncomputable def mockDkg (infPanics : Bool) (cfg : DkgConfig) (draw : ℕ → ℕ → Fr) : Prog Unit := do
  let members ← each (fun i => do
    let memberBytes : MemberKeySerde ← readJson (memberPath (mockMember (i + 1)))
    lib memberBytes.read) (List.range cfg.numberOfMembers)
  let mpks := members.map (·.pk)
  let dkgs ← lib ((List.range cfg.numberOfMembers).mapM (fun i =>
    DkgMemberParams.new Poseidon.hash2 cfg mpks (draw i)))
  let dkgsPub := dkgs.map (·.publicParams)
  let instances ← lib (dkgs.mapM (fun d => d.publicParams.toInstance infPanics d.publicKeys))
  saveInstances instances
  let pp ← lib (dkgGlobalPublicParams dkgsPub)
  saveParams dkgs dkgsPub pp
  let shares ← lib ((List.range cfg.numberOfMembers).mapM (fun i => do
    let m ← getOrPanic members i
    let share ← m.dkgShareKey Poseidon.hash2 cfg (i + 1) dkgsPub
    share.verify cfg pp.verifyKeys
    return share))
  saveShares shares

/-- `mock_random`, bin/mock.rs:166-197. -/
noncomputable def mockRandom (E : BnPairing) (keccak : Keccak) (h2c : List Byte → G1)
    (cfg : DkgConfig) (input : List Byte) (nonce : ℕ → Fr) : Prog Unit := do
  let shares ← each (fun i => do
    let shareBytes : ShareKeySerde ← readJson (sharePath (i + 1))
    lib shareBytes.read) (List.range cfg.numberOfMembers)
  let gppBytes : GlobalParamsSerde ← readJson gppPath
  let gpp ← lib gppBytes.read
  let sigmas ← lib (shares.zipIdx.mapM (fun si => do
    let sigma := DkgShareKey.evaluate keccak h2c si.1 input (nonce si.2)
    let vk ← getOrPanic gpp.verifyKeys si.2
    sigma.verify keccak h2c cfg input vk
    return sigma))
  if sigmas.length < cfg.threshold then fail (.cli (.lib .panic))
  else do
    let v ← lib (combinePartialEvaluations keccak cfg (sigmas.take cfg.threshold))
    lib (v.verify E keccak h2c input gpp.g2a)
    saveEvals sigmas v

/-! ### The command line -/

/-- External code used by the commands, see `Verif.Model.Client`, `Verif.Model.ClientDkg`. -/
structure Tools where
  E : BnPairing
  keccak : Keccak
  h2c : List Byte → G1
  prover : List Fr → Option (List Byte)
  verifier : List Byte → List Fr → Bool
  infPanics : Bool

/-- What `OsRng` gives to a command, bin/client.rs:312. -/
structure Random where
  sk : Fq
  stream : ℕ → Fr
  nonce : Fr
  mock : Mock.Draws

/-- The commands, bin/client.rs:64-153, except `setup`.  The three steps of `mock` are separate here;
with several flags they run in this order (bin/client.rs:364-386). -/
inductive Command where
  | keygen (file : List Char)
  | prove (index : ℕ)
  | dkgVerify (index : ℕ)
  | derive (index : Option ℕ) (file : List Char)
  | eval (index : ℕ) (input : List Byte)
  | verifyEval (index : ℕ) (input : List Byte)
  | combine (input : List Byte) (skip : Bool)
  | verifyFinal (input : List Byte)
  | mockMembers
  | mockDkg
  | mockRandom (input : List Byte)

/-- The dispatch of `main`, bin/client.rs:361-687. -/
noncomputable def Command.prog (T : Tools) (cfg : DkgConfig) (ρ : Random) : Command → Prog Unit
  | .keygen file => ClientFiles.keygen file ρ.sk
  | .prove index => ClientFiles.prove T.prover T.infPanics cfg index ρ.stream
  | .dkgVerify index => ClientFiles.dkgVerify T.verifier cfg index
  | .derive index file => ClientFiles.derive cfg index file
  | .eval index input => ClientFiles.eval T.keccak T.h2c cfg index input ρ.nonce
  | .verifyEval index input => ClientFiles.verifyEval T.keccak T.h2c cfg index input
  | .combine input skip => ClientFiles.combine T.E T.keccak T.h2c cfg input skip
  | .verifyFinal input => ClientFiles.verifyFinal T.E T.keccak T.h2c input
  | .mockMembers => ClientFiles.mockMembers cfg ρ.mock.sk
  | .mockDkg => ClientFiles.mockDkg T.infPanics cfg ρ.mock.draw
  | .mockRandom input => ClientFiles.mockRandom T.E T.keccak T.h2c cfg input ρ.mock.nonce

end Verif.ClientFiles
