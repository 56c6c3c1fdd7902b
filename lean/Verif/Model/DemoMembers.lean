import Verif.Model.Demo

/-!
Model of the members' side of the demo: scripts/demo/register.ts, scripts/demo/nidkg.ts and
scripts/demo/random.ts, together with the admin script of the demo (handlers in `Verif.Model.Demo`).

All scripts of the demo run in one directory and share the files below `./data`.  A script sends its
transactions one after the other; a rejected transaction or a failed command throws and ends the
script (`none`; ethers estimates the gas before sending, external).  The scripts read the configuration
of the client from its own environment: `cfg`.  An iteration of a script (reads, commands, one
transaction) is one step.  The files of a single iteration (`proof_<i>.dat`, `instance_<i>.json`,
`eval_<i>.json`, `evals.json`, `pseudo.json`) are passed on directly.  Logging, sleeping and the RPC layer are not modelled.
-/

namespace Verif.DemoMembers
open ZkdvrfPre (State)
open Zkdvrf (Event Call)
open Services (Machine Draw Files Out)

/-- The files below `./data` (scripts/utils.ts:5-9, bin/client.rs): `members/member_<i>.json`,
`mpks.json`, `dkg/all_instances.json`, `dkg/gpk.json`, `dkg/vks.json`, `dkg/shares/share_<index>.json`. -/
structure Dir where
  member : ℕ → Option MemberKeySerde
  mpks : Option (List PointSerde)
  instances : Option (List (List (List Char)))
  gpk : Option Point2Serde
  vks : Option (List PointSerde)
  share : ℕ → Option ShareKeySerde

/-- An empty `./data`. -/
def Dir.none : Dir := ⟨fun _ => .none, .none, .none, .none, .none, fun _ => .none⟩

/-- The contract, what it has emitted, and the files. -/
structure World where
  p : State
  log : List Event
  dir : Dir

/-- The transaction of `a` is mined, or rejected (`none`). -/
noncomputable def send (M : Machine) (w : World) (dir : Dir) (a : Address) (c : Call) : Option World :=
  match ZkdvrfPre.exec M.env w.p ⟨a, 0⟩ c with
  | some p' => some ⟨p', w.log ++ ZkdvrfPre.emits p' c, dir⟩
  | none => none

/-- One iteration of the loop of scripts/demo/register.ts:36-61, for the wallet `a` number `i` (from 0). -/
noncomputable def registerOne (M : Machine) (i : ℕ) (a : Address) (d : Draw) (w : World) :
    Option World :=
  let file := Client.keygen d.sk
  match Client.registration file with
  | none => none
  | some pk => send M w { w.dir with member := Function.update w.dir.member (i + 1) (some file) } a
      (.registerNode pk)

/-- The loop of scripts/demo/register.ts:36-61, from wallet number `i` on. -/
noncomputable def register (M : Machine) : ℕ → List (Address × Draw) → World → Option World
  | _, [], w => some w
  | i, (a, d) :: ms, w => registerOne M i a d w >>= register M (i + 1) ms

/-- The handler of `RegistrationCompleted` in scripts/demo/register.ts:22-33: downloads the keys. -/
noncomputable def onRegistered (w : World) : Option World :=
  if Event.RegistrationCompleted w.p.memberCount ∈ w.log then
    some { w with dir := { w.dir with mpks := some (Client.mpksFile w.p.pkList) } }
  else none

/-- Reading the indices at the start of scripts/demo/nidkg.ts:28-36. -/
def indices (p : State) (ws : List Address) : Option (List ℕ) :=
  ws.mapM (ZkdvrfPre.getIndexPlus p)

/-- One iteration of the loop of scripts/demo/nidkg.ts:71-104, for the wallet `a` with the index `idx`. -/
noncomputable def dealOne (M : Machine) (cfg : DkgConfig) (idx : ℕ) (a : Address) (d : Draw)
    (w : World) : Option World :=
  match w.dir.mpks with
  | none => none
  | some mpks =>
    match Client.prove M.prover M.infPanics cfg idx mpks d.stream with
    | .error _ => none
    | .ok (proof, file) =>
      match Client.dkgVerify M.verifier cfg idx proof file mpks with
      | .error _ => none
      | .ok () =>
        match Client.ppSubmission file with
        | none => none
        | some pp => send M w w.dir a (.submitPublicParams pp proof)

/-- The loop of scripts/demo/nidkg.ts:71-104. -/
noncomputable def deal (M : Machine) (cfg : DkgConfig) : List ℕ → List (Address × Draw) → World →
    Option World
  | idx :: is, (a, d) :: ms, w => dealOne M cfg idx a d w >>= deal M cfg is ms
  | _, _, w => some w

/-- The commands `dkg derive` for the member number `i` (from 0), scripts/demo/nidkg.ts:54-61. -/
noncomputable def deriveOne (cfg : DkgConfig) (i idx : ℕ) (dir : Dir) : Option Dir :=
  match dir.instances, dir.member (i + 1) with
  | some instances, some member =>
    match Client.derive cfg instances (some (idx, member)) with
    | .ok out => some { dir with gpk := some out.gpk, vks := some out.vks,
                                 share := Function.update dir.share idx out.share }
    | .error _ => none
  | _, _ => none

/-- The loop of the handler of `NidkgCompleted`, scripts/demo/nidkg.ts:54-61. -/
noncomputable def deriveAll (cfg : DkgConfig) : ℕ → List ℕ → Dir → Option Dir
  | _, [], dir => some dir
  | i, idx :: is, dir => deriveOne cfg i idx dir >>= deriveAll cfg (i + 1) is

/-- The handler of `NidkgCompleted` in scripts/demo/nidkg.ts:39-65: downloads the parameters, then each
member derives its share. -/
noncomputable def onDealt (cfg : DkgConfig) (is : List ℕ) (w : World) : Option World :=
  if Event.NidkgCompleted w.p.memberCount ∈ w.log then
    (deriveAll cfg 0 is { w.dir with instances := some (Client.instancesFile w.p.ppList) }).map
      (fun dir => { w with dir := dir })
  else none

/-- One iteration of the loop of scripts/demo/random.ts:26-59, on the input read before the loop. -/
noncomputable def evalOne (M : Machine) (cfg : DkgConfig) (input : List Byte) (a : Address) (d : Draw)
    (w : World) : Option World :=
  match ZkdvrfPre.getIndexPlus w.p a with
  | none => none
  | some idx =>
    match w.dir.share idx, w.dir.vks with
    | some share, some vks =>
      match Client.eval M.env.keccak (evalHash M.env.keccak) cfg idx share input d.nonce with
      | .error _ => none
      | .ok e =>
        match Client.verifyEval M.env.keccak (evalHash M.env.keccak) cfg idx e vks input with
        | .error _ => none
        | .ok () =>
          match Client.evalSubmission e with
          | none => none
          | some pe => send M w w.dir a (.submitPartialEval pe)
    | _, _ => none

/-- The loop of scripts/demo/random.ts:26-59. -/
noncomputable def evals (M : Machine) (cfg : DkgConfig) (input : List Byte) :
    List (Address × Draw) → World → Option World
  | [], w => some w
  | (a, d) :: ms, w => evalOne M cfg input a d w >>= evals M cfg input ms

/-- scripts/demo/random.ts:14-59, as far as the members `ms`. -/
noncomputable def random (M : Machine) (cfg : DkgConfig) (ms : List (Address × Draw)) (w : World) :
    Option World :=
  evals M cfg (w.p.roundInput w.p.currentRoundNum) ms w

/-- The admin script (wallet `o`) handles an event that was emitted, scripts/demo/admin.ts:48-241; its
`gpk.json` and `vks.json` are those of the directory, and the handler of `NidkgCompleted` writes
`all_instances.json` (:75-81). -/
noncomputable def admin (M : Machine) (o : Address) (members : ℕ) (again : Bool) (e : Event) (w : World) :
    Option World :=
  if e ∈ w.log then
    match Demo.onEvent M members again w.p ⟨none, w.dir.gpk, w.dir.vks, none⟩ e with
    | .idle => some w
    | .failed _ => none
    | .send f c =>
      let dir := { w.dir with gpk := f.gpk, vks := f.vks }
      send M w (match e with
        | .NidkgCompleted _ => { dir with instances := some (Client.instancesFile w.p.ppList) }
        | _ => dir) o c
  else none

/-- From the deployed contract with added nodes to the first round: `register`, `startNidkg`, `nidkg`,
`computeVk`, `initiateRandom`. `early` says that the members derive their shares before the admin
sends `computeVk`. -/
noncomputable def setup (M : Machine) (cfg : DkgConfig) (o : Address) (ms : List (Address × Draw))
    (early : Bool) (w : World) : Option World := do
  let w ← register M 0 ms w
  let w ← onRegistered w
  let w ← admin M o ms.length false (.RegistrationCompleted ms.length) w
  let is ← indices w.p (ms.map Prod.fst)
  let w ← deal M cfg is ms w
  let w ← if early then onDealt cfg is w >>= admin M o ms.length false (.NidkgCompleted ms.length)
    else admin M o ms.length false (.NidkgCompleted ms.length) w >>= onDealt cfg is
  admin M o ms.length false .GlobalPublicParamsCreated w

/-- A round: `random` for the members `ms` among all `n`, the admin publishes the random of round `k` and,
asked for another one, opens the next round. -/
noncomputable def round (M : Machine) (cfg : DkgConfig) (o : Address) (n : ℕ)
    (ms : List (Address × Draw)) (w : World) : Option World := do
  let k := w.p.currentRoundNum
  let x := w.p.roundInput k
  let w ← random M cfg ms w
  let w ← admin M o n true (.RandomThresholdReached k x) w
  admin M o n true (.RandomReady k x) w

end Verif.DemoMembers
