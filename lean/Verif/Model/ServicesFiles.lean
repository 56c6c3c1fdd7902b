import Verif.Model.ClientFiles
import Verif.Model.Services

/-!
Model of the passes of services/node.ts and services/admin.ts as programs on files.  A pass is a program
with the transaction as its result; `Verif.Model.Services` has the same passes on values.

The client is started with `exec`; a command that fails makes the pass fail.  `JSON.stringify` prints
lists of strings, numbers and objects as `serde_json` does, and `JSON.parse` is taken to read files as
`serde_json` (the services only read files just written by the client; external).  Errors of
`fs.writeFile` are ignored by the code and not modelled.  Commands are
values here; `Verif.Model.ServicesText` has the command lines, and C93 that they run these commands.
-/

namespace Verif.ServicesFiles
open Disk Disk.Prog ClientFiles
open Services (Machine Draw config)
open ZkdvrfPre (State)
open Zkdvrf (Call)

/-- A digit of a checksummed address: upper case if the digit of the hash is at least 8 (ERC-55, ethers,
external). -/
def checkDigit (c h : Char) : Char := if 8 ≤ (hexVal h).getD 0 then c.toUpper else c

/-- `wallet.address` of ethers (external): the checksummed address, ERC-55. -/
def addressText (keccak : Keccak) (a : Address) : List Char :=
  let digits := hexEncode (beBytes 20 a.toNat)
  '0' :: 'x' :: List.zipWith checkDigit digits (hexEncode (Word.bytes (keccak (utf8 digits))))

/-- `member_${address}`, services/node.ts:148-149, 258. -/
def memberName (keccak : Keccak) (a : Address) : List Char := "member_".toList ++ addressText keccak a

/-- The external code used by the client of a service. -/
noncomputable def tools (M : Machine) : Tools :=
  ⟨M.env.E, M.env.keccak, evalHash M.env.keccak, M.prover, M.verifier, M.infPanics⟩

/-- The randomness of the client in one pass; `mock` is not run by the services. -/
def random (d : Draw) : Random := ⟨d.sk, d.stream, d.nonce, ⟨fun _ => d.sk, fun _ => d.stream, fun _ => d.nonce⟩⟩

/-- One `execPromise(command)`, services/node.ts:152-153 and others. -/
noncomputable def exec (M : Machine) (p : State) (d : Draw) (c : Command) : Prog Unit :=
  c.prog (tools M) (config p) (random d)

/-- A value for a transaction; `null` and conversions that fail throw. -/
def orThrow {α : Type} : Option α → Prog α
  | some a => pure a
  | none => fail .script

/-- `registerNode`, services/node.ts:146-165. -/
noncomputable def registerNode (M : Machine) (p : State) (a : Address) (d : Draw) : Prog Call := do
  exec M p d (.keygen (memberName M.env.keccak a))
  let data : MemberKeySerde ← readJson (memberPath (memberName M.env.keccak a))
  let mpk ← orThrow (Client.registration data)
  return .registerNode mpk

/-- `submitPP`, services/node.ts:207-241. -/
noncomputable def submitPP (M : Machine) (p : State) (a : Address) (d : Draw) : Prog Call := do
  writeJson mpksPath (Client.mpksFile p.pkList)
  let index ← orThrow (ZkdvrfPre.getIndexPlus p a)
  exec M p d (.prove index)
  exec M p d (.dkgVerify index)
  let proof ← readBytes (proofPath index)
  let ins : List (List Char) ← readJson (instancePath index)
  let pp ← orThrow (Client.ppSubmission ins)
  return .submitPublicParams pp proof

/-- `nidkgDerive`, services/node.ts:243-262. -/
noncomputable def nidkgDerive (M : Machine) (p : State) (a : Address) (d : Draw) : Prog Unit := do
  writeJson allInstancesPath (Client.instancesFile p.ppList)
  let index ← orThrow (ZkdvrfPre.getIndexPlus p a)
  exec M p d (.derive (some index) (memberName M.env.keccak a))

/-- `submitPartialEval`, services/node.ts:264-291. -/
noncomputable def submitPartialEval (M : Machine) (p : State) (a : Address) (d : Draw) : Prog Call := do
  let input := p.roundInput p.currentRoundNum
  let index ← orThrow (ZkdvrfPre.getIndexPlus p a)
  exec M p d (.eval index input)
  exec M p d (.verifyEval index input)
  let evalJson : PartialEvalSerde ← readJson (evalPath index)
  let pEval ← orThrow (Client.evalSubmission evalJson)
  return .submitPartialEval pEval

/-- The derivation before the first evaluation, services/node.ts:117-119. -/
noncomputable def deriveFirst (M : Machine) (p : State) (a : Address) (d : Draw) : Prog Unit :=
  if p.lastSubmittedRound a = 0 then nidkgDerive M p a d else pure ()

/-- A transaction as the result of a pass. -/
def sending (P : Prog Call) : Prog (Option Call) := P.bind (fun c => pure (some c))

/-- One pass of the loop of a node with wallet `a`, services/node.ts:86-128: the transaction, if any. -/
noncomputable def nodePass (M : Machine) (p : State) (a : Address) (d : Draw) : Prog (Option Call) :=
  let node := p.addrToNode a
  if node.nodeAddress = a then
    match p.contractPhase with
    | .Unregistered => if !node.status then sending (registerNode M p a d) else pure none
    | .Nidkg => if !node.statusPP then sending (submitPP M p a d) else pure none
    | .Ready =>
      if Services.jsGreater p.currentRoundNum (p.lastSubmittedRound a) &&
          decide (p.roundSubmissionCount p.currentRoundNum < p.threshold) then
        sending ((deriveFirst M p a d).bind (fun _ => submitPartialEval M p a d))
      else pure none
    | _ => pure none
  else pure none

/-- `createGpp`, services/admin.ts:291-337, up to the transaction (what follows only prints messages: Model/GppReport.lean);
without the option the key file has the name `member`, which is not read. -/
noncomputable def createGpp (M : Machine) (p : State) (d : Draw) : Prog Call := do
  writeJson allInstancesPath (Client.instancesFile p.ppList)
  exec M p d (.derive none "member".toList)
  let gpk : Point2Serde ← readJson gpkPath
  let g ← orThrow (Client.gpkSubmission gpk)
  return .computeVk g

/-- `createRandom`, services/admin.ts:407-457. -/
noncomputable def createRandom (M : Machine) (p : State) (d : Draw) : Prog Call := do
  let input := p.roundInput p.currentRoundNum
  writeJson evalsPath (Client.evalsFile p.memberCount (p.roundToEval p.currentRoundNum))
  exec M p d (.combine input false)
  exec M p d (.verifyFinal input)
  let pseudo : PseudoRandomSerde ← readJson pseudoPath
  let rnd ← orThrow (Client.submission pseudo)
  return .submitRandom rnd

/-- One pass of the loop of the admin service up to the combination of a random,
services/admin.ts:164-191, as `Services.adminPass`. -/
noncomputable def adminPass (M : Machine) (p : State) (d : Draw) (begun : Bool) : Prog (Option Call) :=
  match p.contractPhase with
  | .Registered => pure (some .startNidkg)
  | .NidkgComplete => sending (createGpp M p d)
  | .Ready =>
    if !begun then pure none
    else if p.currentRoundNum = 0 then pure (some .initiateRandom)
    else if (p.roundToRandom p.currentRoundNum).value = 0 ∧
        p.threshold ≤ p.roundSubmissionCount p.currentRoundNum then sending (createRandom M p d)
    else pure none
  | _ => pure none

/-- The contract with the disks of the admin and of the nodes. -/
structure World where
  p : State
  admin : Store
  node : Address → Store

/-- The contract after a pass of the wallet `a` that ended with `res`: the transaction is mined, if there
is one. -/
noncomputable def mined (M : Machine) (p : State) (a : Address) : Except Stop (Option Call) → State
  | .ok (some c) => Services.mine M p a c
  | _ => p

/-- World after a complete pass of the node `a`. -/
noncomputable def World.nodeStep (M : Machine) (w : World) (a : Address) (d : Draw) : World :=
  let res := (nodePass M w.p a d).run (w.node a)
  { w with p := mined M w.p a res.2, node := Function.update w.node a res.1 }

/-- World after a complete pass of the admin service with wallet `o`. -/
noncomputable def World.adminStep (M : Machine) (w : World) (o : Address) (d : Draw) (begun : Bool) : World :=
  let res := (adminPass M w.p d begun).run w.admin
  { w with p := mined M w.p o res.2, admin := res.1 }

/-- World after the end of a pass of the admin service (`Services.adminTick`; it has no files). -/
noncomputable def World.tickStep (M : Machine) (w : World) (o : Address) (begun elapsed : Bool) : World :=
  match Services.adminTick w.p .none begun elapsed with
  | .send _ c => { w with p := Services.mine M w.p o c }
  | _ => w

end Verif.ServicesFiles
