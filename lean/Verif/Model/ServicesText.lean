import Verif.Model.CommandLine

/-!
Model of the passes of services/node.ts and services/admin.ts with the command lines as text: the same as
`Verif.Model.ServicesFiles`, but every command goes through the shell and the parser of the client.

`o` are the options of the service, `v` is its environment.
-/

namespace Verif.ServicesText
open Disk Disk.Prog ClientFiles CommandLine
open Services (Machine Draw)
open ServicesFiles (tools random orThrow memberName sending World mined)
open ZkdvrfPre (State)
open Zkdvrf (Call)
open Config (Options Vars)

/-- How a service is started: its options and its environment. -/
structure Start where
  options : Options
  vars : Vars

/-- A command of the service, services/node.ts:153, 222, 227, 260, 273, 277; services/admin.ts:307, 442, 447. -/
noncomputable def exec (M : Machine) (v : Vars) (d : Draw) (line : List Char) : Prog Unit :=
  execLine (tools M) (random d) v line

/-- The input of the current round as a string: ethers decodes the bytes of a `string` as UTF-8 and throws on
other bytes (external), services/node.ts:266, services/admin.ts:409. -/
def roundText (p : State) : Prog (List Char) := orThrow (utf8Decode (p.roundInput p.currentRoundNum))

/-- `registerNode`, services/node.ts:146-165. -/
noncomputable def registerNode (M : Machine) (o : Options) (v : Vars) (a : Address) (d : Draw) : Prog Call := do
  exec M v d (keygenLine o (memberName M.env.keccak a))
  let data : MemberKeySerde ← readJson (memberPath (memberName M.env.keccak a))
  let mpk ← orThrow (Client.registration data)
  return .registerNode mpk

/-- `submitPP`, services/node.ts:207-241. -/
noncomputable def submitPP (M : Machine) (o : Options) (v : Vars) (p : State) (a : Address) (d : Draw) :
    Prog Call := do
  writeJson mpksPath (Client.mpksFile p.pkList)
  let index ← orThrow (ZkdvrfPre.getIndexPlus p a)
  exec M v d (proveLine o index)
  exec M v d (dkgVerifyLine o index)
  let proof ← readBytes (proofPath index)
  let ins : List (List Char) ← readJson (instancePath index)
  let pp ← orThrow (Client.ppSubmission ins)
  return .submitPublicParams pp proof

/-- `nidkgDerive`, services/node.ts:243-262. -/
noncomputable def nidkgDerive (M : Machine) (o : Options) (v : Vars) (p : State) (a : Address) (d : Draw) :
    Prog Unit := do
  writeJson allInstancesPath (Client.instancesFile p.ppList)
  let index ← orThrow (ZkdvrfPre.getIndexPlus p a)
  exec M v d (deriveMemberLine o index (memberName M.env.keccak a))

/-- `submitPartialEval`, services/node.ts:264-291. -/
noncomputable def submitPartialEval (M : Machine) (o : Options) (v : Vars) (p : State) (a : Address)
    (d : Draw) : Prog Call := do
  let input ← roundText p
  let index ← orThrow (ZkdvrfPre.getIndexPlus p a)
  exec M v d (evalLine o index input)
  exec M v d (verifyEvalLine o index input)
  let evalJson : PartialEvalSerde ← readJson (evalPath index)
  let pEval ← orThrow (Client.evalSubmission evalJson)
  return .submitPartialEval pEval

/-- The derivation before the first evaluation, services/node.ts:117-119. -/
noncomputable def deriveFirst (M : Machine) (o : Options) (v : Vars) (p : State) (a : Address) (d : Draw) :
    Prog Unit :=
  if p.lastSubmittedRound a = 0 then nidkgDerive M o v p a d else pure ()

/-- One pass of the loop of a node with wallet `a`, services/node.ts:86-128. -/
noncomputable def nodePass (M : Machine) (o : Options) (v : Vars) (p : State) (a : Address) (d : Draw) :
    Prog (Option Call) :=
  let node := p.addrToNode a
  if node.nodeAddress = a then
    match p.contractPhase with
    | .Unregistered => if !node.status then sending (registerNode M o v a d) else pure none
    | .Nidkg => if !node.statusPP then sending (submitPP M o v p a d) else pure none
    | .Ready =>
      if Services.jsGreater p.currentRoundNum (p.lastSubmittedRound a) &&
          decide (p.roundSubmissionCount p.currentRoundNum < p.threshold) then
        sending ((deriveFirst M o v p a d).bind (fun _ => submitPartialEval M o v p a d))
      else pure none
    | _ => pure none
  else pure none

/-- `createGpp`, services/admin.ts:291-337, up to the transaction. -/
noncomputable def createGpp (M : Machine) (o : Options) (v : Vars) (p : State) (d : Draw) : Prog Call := do
  writeJson allInstancesPath (Client.instancesFile p.ppList)
  exec M v d (deriveLine o)
  let gpk : Point2Serde ← readJson gpkPath
  let g ← orThrow (Client.gpkSubmission gpk)
  return .computeVk g

/-- `createRandom`, services/admin.ts:407-457. -/
noncomputable def createRandom (M : Machine) (o : Options) (v : Vars) (p : State) (d : Draw) : Prog Call := do
  let input ← roundText p
  writeJson evalsPath (Client.evalsFile p.memberCount (p.roundToEval p.currentRoundNum))
  exec M v d (combineLine o input)
  exec M v d (verifyFinalLine o input)
  let pseudo : PseudoRandomSerde ← readJson pseudoPath
  let rnd ← orThrow (Client.submission pseudo)
  return .submitRandom rnd

/-- One pass of the loop of the admin service up to the combination of a random, services/admin.ts:164-191. -/
noncomputable def adminPass (M : Machine) (o : Options) (v : Vars) (p : State) (d : Draw) (begun : Bool) :
    Prog (Option Call) :=
  match p.contractPhase with
  | .Registered => pure (some .startNidkg)
  | .NidkgComplete => sending (createGpp M o v p d)
  | .Ready =>
    if !begun then pure none
    else if p.currentRoundNum = 0 then pure (some .initiateRandom)
    else if (p.roundToRandom p.currentRoundNum).value = 0 ∧
        p.threshold ≤ p.roundSubmissionCount p.currentRoundNum then sending (createRandom M o v p d)
    else pure none
  | _ => pure none

/-- World after a complete pass of the node `a`. -/
noncomputable def nodeStep (M : Machine) (u : Start) (w : World) (a : Address) (d : Draw) : World :=
  let res := (nodePass M u.options u.vars w.p a d).run (w.node a)
  { w with p := mined M w.p a res.2, node := Function.update w.node a res.1 }

/-- World after a complete pass of the admin service with wallet `owner`. -/
noncomputable def adminStep (M : Machine) (u : Start) (w : World) (owner : Address) (d : Draw) (begun : Bool) :
    World :=
  let res := (adminPass M u.options u.vars w.p d begun).run w.admin
  { w with p := mined M w.p owner res.2, admin := res.1 }

end Verif.ServicesText
