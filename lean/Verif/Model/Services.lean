import Verif.Model.ClientDkg
import Verif.Model.ZkdvrfPre

/-!
Model of the services: services/admin.ts and services/node.ts, which drive the contract
contracts/zkdvrf_pre.sol with the commands of bin/client.rs.

One pass through a service's loop reads the contract, may run commands of the client, and may send
one transaction.  A pass is modelled as one step: the contract does not change between the reads and
the inclusion of the transaction.  The event listeners (`listenRegister`, ...) are never called by
`_start` and are not modelled; neither are logging, sleeping, gas limits and the RPC layer.
-/

namespace Verif.ZkdvrfPre

/-- `getIndexPlus`, contracts/zkdvrf_pre.sol:259-262. -/
def getIndexPlus (p : State) (a : Address) : Evm ℕ := u32 ((p.addrToNode a).pkIndex + 1)

end Verif.ZkdvrfPre

namespace Verif.Services
open ZkdvrfPre (State)
open Zkdvrf (Call)

/-- Lexicographic order on strings, as bytes: `a < b`. -/
def lexLt : List Byte → List Byte → Bool
  | _, [] => false
  | [], _ :: _ => true
  | x :: xs, y :: ys => decide (x.val < y.val) || (decide (x = y) && lexLt xs ys)

/-- JavaScript `a > b` on two `BigNumber` objects of ethers 5 (package.json:26; services/node.ts:117).
They have no `valueOf` of their own, so the operator converts both to decimal strings and compares
these (external). -/
def jsGreater (a b : ℕ) : Bool := lexLt (decimal b) (decimal a)

/-- What surrounds the services: the chain, the prover (`none` if it panics) and the verifier of the
client, and the behaviour of the field encoding of infinity (see `Verif.Model.Lib`). -/
structure Machine where
  env : Env
  prover : List Fr → Option (List Byte)
  verifier : List Byte → List Fr → Bool
  infPanics : Bool

/-- Randomness drawn by the client in one pass: a member secret, the stream for parameters, the nonce
of an evaluation proof. -/
structure Draw where
  sk : Fq
  stream : ℕ → Fr
  nonce : Fr

/-- The files under `./data` of one service that outlive a pass (services/node.ts:11-15,
services/admin.ts:11-15, bin/client.rs). -/
structure Files where
  member : Option MemberKeySerde
  gpk : Option Point2Serde
  vks : Option (List PointSerde)
  share : Option ShareKeySerde

/-- An empty `./data`. -/
def Files.none : Files := ⟨.none, .none, .none, .none⟩

/-- Result of a pass: no transaction, a failed command (the exception ends the service), or a
transaction; with the files left behind. -/
inductive Out where
  | idle
  | failed (f : Files)
  | send (f : Files) (c : Call)

/-- The configuration passed to the client; `check_config` (services/node.ts:130-144,
services/admin.ts:274-288) makes sure that it is the one of the contract. -/
def config (p : State) : DkgConfig := ⟨p.threshold, p.memberCount⟩

/-- `registerNode`, services/node.ts:146-165; the transaction carries no ether. -/
noncomputable def registerNode (f : Files) (d : Draw) : Out :=
  let file := Client.keygen d.sk
  let f' := { f with member := some file }
  match Client.registration file with
  | none => .failed f'
  | some pk => .send f' (.registerNode pk)

/-- `submitPP`, services/node.ts:207-241. -/
noncomputable def submitPP (M : Machine) (p : State) (a : Address) (f : Files) (d : Draw) : Out :=
  let mpks := Client.mpksFile p.pkList
  match ZkdvrfPre.getIndexPlus p a with
  | none => .failed f
  | some index =>
    match Client.prove M.prover M.infPanics (config p) index mpks d.stream with
    | .error _ => .failed f
    | .ok (proof, file) =>
      match Client.dkgVerify M.verifier (config p) index proof file mpks with
      | .error _ => .failed f
      | .ok () =>
        match Client.ppSubmission file with
        | none => .failed f
        | some pp => .send f (.submitPublicParams pp proof)

/-- `nidkgDerive`, services/node.ts:243-262: the files after the command, or none if it fails. -/
noncomputable def nidkgDerive (p : State) (a : Address) (f : Files) : Option Files :=
  match ZkdvrfPre.getIndexPlus p a, f.member with
  | some index, some member =>
    match Client.derive (config p) (Client.instancesFile p.ppList) (some (index, member)) with
    | .ok out => some { f with gpk := some out.gpk, vks := some out.vks, share := out.share }
    | .error _ => none
  | _, _ => none

/-- `submitPartialEval`, services/node.ts:264-291. -/
noncomputable def submitPartialEval (M : Machine) (p : State) (a : Address) (f : Files) (d : Draw) :
    Out :=
  let input := p.roundInput p.currentRoundNum
  match ZkdvrfPre.getIndexPlus p a, f.share, f.vks with
  | some index, some share, some vks =>
    match Client.eval M.env.keccak (evalHash M.env.keccak) (config p) index share input d.nonce with
    | .error _ => .failed f
    | .ok e =>
      match Client.verifyEval M.env.keccak (evalHash M.env.keccak) (config p) index e vks input with
      | .error _ => .failed f
      | .ok () =>
        match Client.evalSubmission e with
        | none => .failed f
        | some w => .send f (.submitPartialEval w)
  | _, _, _ => .failed f

/-- One pass of the loop of a node with wallet `a`, services/node.ts:86-128. -/
noncomputable def nodePass (M : Machine) (p : State) (a : Address) (f : Files) (d : Draw) : Out :=
  let node := p.addrToNode a
  if node.nodeAddress = a then
    match p.contractPhase with
    | .Unregistered => if !node.status then registerNode f d else .idle
    | .Nidkg => if !node.statusPP then submitPP M p a f d else .idle
    | .Ready =>
      if jsGreater p.currentRoundNum (p.lastSubmittedRound a) &&
          decide (p.roundSubmissionCount p.currentRoundNum < p.threshold) then
        if p.lastSubmittedRound a = 0 then
          match nidkgDerive p a f with
          | none => .failed f
          | some f' => submitPartialEval M p a f' d
        else submitPartialEval M p a f d
      else .idle
    | _ => .idle
  else .idle

/-- The beginning of `_start`, services/admin.ts:110-162: checks the owner and adds the nodes (`wallets`
are the five configured addresses); the state afterwards, `none` if it throws or a transaction
reverts. -/
noncomputable def startup (M : Machine) (p : State) (admin : Address) (wallets : List Address) :
    Option State :=
  if p.owner ≠ admin then none
  else if p.currentIndex = p.memberCount then some p
  else wallets.foldlM (fun p a =>
    if (p.addrToNode a).nodeAddress = 0 then
      ZkdvrfPre.exec M.env p ⟨admin, 0⟩ (.addPermissionedNodes a)
    else some p) p

/-- `createGpp`, services/admin.ts:291-337 (the comparison at its end only prints messages). -/
noncomputable def createGpp (p : State) (f : Files) : Out :=
  match Client.derive (config p) (Client.instancesFile p.ppList) none with
  | .error _ => .failed f
  | .ok out =>
    let f' := { f with gpk := some out.gpk, vks := some out.vks }
    match Client.gpkSubmission out.gpk with
    | none => .failed f'
    | some gpk => .send f' (.computeVk gpk)

/-- `createRandom`, services/admin.ts:407-457. -/
noncomputable def createRandom (M : Machine) (p : State) (f : Files) : Out :=
  let input := p.roundInput p.currentRoundNum
  let evals := Client.evalsFile p.memberCount (p.roundToEval p.currentRoundNum)
  match f.gpk, f.vks with
  | some gpk, some vks =>
    match Client.combine M.env.E M.env.keccak (evalHash M.env.keccak) (config p) evals gpk vks input
        false with
    | .error _ => .failed f
    | .ok pseudo =>
      match Client.verifyFinal M.env.E M.env.keccak (evalHash M.env.keccak) pseudo gpk input with
      | .error _ => .failed f
      | .ok () =>
        match Client.submission pseudo with
        | none => .failed f
        | some rnd => .send f (.submitRandom rnd)
  | _, _ => .failed f

/-- One pass of the loop of the admin service up to the combination of a random,
services/admin.ts:164-191.  `begun` says that the start date of the generation has passed. -/
noncomputable def adminPass (M : Machine) (p : State) (f : Files) (begun : Bool) : Out :=
  match p.contractPhase with
  | .Registered => .send f .startNidkg
  | .NidkgComplete => createGpp p f
  | .Ready =>
    if !begun then .idle
    else if p.currentRoundNum = 0 then .send f .initiateRandom
    else if (p.roundToRandom p.currentRoundNum).value = 0 ∧
        p.threshold ≤ p.roundSubmissionCount p.currentRoundNum then createRandom M p f
    else .idle
  | _ => .idle

/-- The end of the pass in phase `Ready`, services/admin.ts:193-200, 339-345: opens the next round when the
configured interval has elapsed since the last one (`elapsed`). -/
def adminTick (p : State) (f : Files) (begun elapsed : Bool) : Out :=
  match p.contractPhase with
  | .Ready => if begun && decide (p.currentRoundNum ≠ 0) && elapsed then .send f .initiateRandom else .idle
  | _ => .idle

/-- The contract with the files of the admin and of the nodes. -/
structure World where
  p : State
  admin : Files
  node : Address → Files

/-- The contract after a transaction of `a` without ether: a reverted one changes nothing. -/
noncomputable def mine (M : Machine) (p : State) (a : Address) (c : Call) : State :=
  ZkdvrfPre.step M.env p (.call ⟨a, 0⟩ c)

/-- World after a pass of the node `a`. -/
noncomputable def World.nodeStep (M : Machine) (w : World) (a : Address) (d : Draw) : World :=
  match nodePass M w.p a (w.node a) d with
  | .idle => w
  | .failed f => { w with node := Function.update w.node a f }
  | .send f c => { w with p := mine M w.p a c, node := Function.update w.node a f }

/-- World after an output of the admin service with wallet `o`. -/
noncomputable def World.adminStep (M : Machine) (w : World) (o : Address) : Out → World
  | .idle => w
  | .failed f => { w with admin := f }
  | .send f c => { w with p := mine M w.p o c, admin := f }

end Verif.Services
