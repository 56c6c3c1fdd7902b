import Verif.Model.Services

/-!
Model of the services when their passes overlap: services/node.ts:86-128 and services/admin.ts:164-206.

In `Verif.Model.Services` a pass of a loop is one step.  Here it is three: the service reads the contract
and decides what to do (`look`); it reads the data for its commands, runs them and sends a transaction
(`fetch`); the transaction is mined (`land`).  Between these steps anything may happen.  A service starts
its next pass when its transaction is mined (`await res.wait()`), and ends when a command fails or the
transaction reverts: the exception leaves `_start` and nothing restarts it (docker-compose.yml).

Simplifications: the reads of one step see one state; the dealing of a node, whose `wait()` is not awaited
(services/node.ts:240), is mined before the next pass as well.
-/

namespace Verif.Services
open ZkdvrfPre (State)
open Zkdvrf (Call)

/-- What a pass of a node decides to do: the three branches of services/node.ts:96-123; `derive` says that
`nidkgDerive` comes first (services/node.ts:118-120). -/
inductive Job where
  | register
  | deal
  | eval (derive : Bool)

/-- What a pass of the admin decides to do, services/admin.ts:164-200; `random` has the round number found
when deciding, the argument of `createRandom` (services/admin.ts:190, 407). -/
inductive AdminJob where
  | start
  | gpp
  | open
  | random (round : ℕ)

/-- Where the loop of a service is.  `sent` has the transaction on its way and, for the statements about it, the
round that was current when its data were read. -/
inductive Stage (J : Type) where
  | free
  | decided (j : J)
  | sent (c : Call) (round : ℕ)
  | stopped

/-- The reads and tests at the beginning of a pass of a node, services/node.ts:91-117. -/
def nodeLook (p : State) (a : Address) : Option Job :=
  let node := p.addrToNode a
  if node.nodeAddress = a then
    match p.contractPhase with
    | .Unregistered => if !node.status then some .register else none
    | .Nidkg => if !node.statusPP then some .deal else none
    | .Ready =>
      if jsGreater p.currentRoundNum (p.lastSubmittedRound a) &&
          decide (p.roundSubmissionCount p.currentRoundNum < p.threshold) then
        some (.eval (decide (p.lastSubmittedRound a = 0)))
      else none
    | _ => none
  else none

/-- The rest of the pass, services/node.ts:100, 106, 118-121. -/
noncomputable def nodeRun (M : Machine) (p : State) (a : Address) (f : Files) (d : Draw) : Job → Out
  | .register => registerNode f d
  | .deal => submitPP M p a f d
  | .eval derive =>
    if derive then
      match nidkgDerive p a f with
      | none => .failed f
      | some f' => submitPartialEval M p a f' d
    else submitPartialEval M p a f d

/-- The reads and tests at the beginning of a pass of the admin, services/admin.ts:165-190. -/
def adminLook (p : State) (begun : Bool) : Option AdminJob :=
  match p.contractPhase with
  | .Registered => some .start
  | .NidkgComplete => some .gpp
  | .Ready =>
    if !begun then none
    else if p.currentRoundNum = 0 then some .open
    else if (p.roundToRandom p.currentRoundNum).value = 0 ∧
        p.threshold ≤ p.roundSubmissionCount p.currentRoundNum then some (.random p.currentRoundNum)
    else none
  | _ => none

/-- The test at the end of a pass of the admin, services/admin.ts:193-200. -/
def adminTickLook (p : State) (begun elapsed : Bool) : Option AdminJob :=
  match p.contractPhase with
  | .Ready => if begun && decide (p.currentRoundNum ≠ 0) && elapsed then some .open else none
  | _ => none

/-- The rest of the pass of the admin, services/admin.ts:169, 174, 184, 190, 199. -/
noncomputable def adminRun (M : Machine) (p : State) (f : Files) : AdminJob → Out
  | .start => .send f .startNidkg
  | .gpp => createGpp p f
  | .open => .send f .initiateRandom
  | .random k => createRandom M { p with currentRoundNum := k } f

/-- The contract, the files of the services, and where their loops are. -/
structure Overlap where
  p : State
  admin : Files
  node : Address → Files
  adminAt : Stage AdminJob
  nodeAt : Address → Stage Job

/-- The services just started, with these files. -/
def Overlap.begin (w : World) : Overlap := ⟨w.p, w.admin, w.node, .free, fun _ => .free⟩

/-- The node `a` begins a pass. -/
def Overlap.look (w : Overlap) (a : Address) : Overlap :=
  match w.nodeAt a with
  | .free =>
    match nodeLook w.p a with
    | none => w
    | some j => { w with nodeAt := Function.update w.nodeAt a (.decided j) }
  | _ => w

/-- The node `a` reads its data, runs the commands and sends its transaction. -/
noncomputable def Overlap.fetch (M : Machine) (w : Overlap) (a : Address) (d : Draw) : Overlap :=
  match w.nodeAt a with
  | .decided j =>
    match nodeRun M w.p a (w.node a) d j with
    | .idle => { w with nodeAt := Function.update w.nodeAt a .free }
    | .failed f => { w with
        node := Function.update w.node a f
        nodeAt := Function.update w.nodeAt a .stopped }
    | .send f c => { w with
        node := Function.update w.node a f
        nodeAt := Function.update w.nodeAt a (.sent c w.p.currentRoundNum) }
  | _ => w

/-- The transaction of the node `a` is mined. -/
noncomputable def Overlap.land (M : Machine) (w : Overlap) (a : Address) : Overlap :=
  match w.nodeAt a with
  | .sent c _ =>
    match ZkdvrfPre.exec M.env w.p ⟨a, 0⟩ c with
    | none => { w with nodeAt := Function.update w.nodeAt a .stopped }
    | some p' => { w with p := p', nodeAt := Function.update w.nodeAt a .free }
  | _ => w

/-- The admin decides: `j` is what it found. -/
def Overlap.adminDecide (w : Overlap) (j : Option AdminJob) : Overlap :=
  match w.adminAt, j with
  | .free, some j => { w with adminAt := .decided j }
  | _, _ => w

/-- The admin reads its data, runs the commands and sends its transaction. -/
noncomputable def Overlap.adminFetch (M : Machine) (w : Overlap) : Overlap :=
  match w.adminAt with
  | .decided j =>
    match adminRun M w.p w.admin j with
    | .idle => { w with adminAt := .free }
    | .failed f => { w with admin := f, adminAt := .stopped }
    | .send f c => { w with admin := f, adminAt := .sent c w.p.currentRoundNum }
  | _ => w

/-- The transaction of the admin with wallet `o` is mined. -/
noncomputable def Overlap.adminLand (M : Machine) (w : Overlap) (o : Address) : Overlap :=
  match w.adminAt with
  | .sent c _ =>
    match ZkdvrfPre.exec M.env w.p ⟨o, 0⟩ c with
    | none => { w with adminAt := .stopped }
    | some p' => { w with p := p', adminAt := .free }
  | _ => w

end Verif.Services
