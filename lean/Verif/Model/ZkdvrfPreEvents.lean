import Verif.Model.ZkdvrfEvents
import Verif.Model.ZkdvrfPre

/-! The events of contracts/zkdvrf_pre.sol (lines 18-24, the same as those of zkdvrf.sol). -/

namespace Verif.ZkdvrfPre
open Zkdvrf (Tx Call Event)

/-- The `emit` statements, reading the state `s` after the call: `registerNode`
contracts/zkdvrf_pre.sol:121-124, `startNidkg` :133, `submitPublicParams` :149-152, `computeVk` :165,
`initiateRandom` :181, `submitPartialEval` :200-202, `submitRandom` :214. -/
def emits (s : State) : Call → List Event
  | .addPermissionedNodes _ => []
  | .registerNode _ =>
    if s.registeredCount = s.memberCount then [.RegistrationCompleted s.registeredCount] else []
  | .startNidkg => [.NidkgStarted]
  | .submitPublicParams _ _ =>
    if s.ppSubmissionCount = s.memberCount then [.NidkgCompleted s.ppSubmissionCount] else []
  | .computeVk _ => [.GlobalPublicParamsCreated]
  | .initiateRandom => [.RandomInitiated s.currentRoundNum (s.roundInput s.currentRoundNum)]
  | .submitPartialEval _ =>
    if s.roundSubmissionCount s.currentRoundNum = s.threshold then
      [.RandomThresholdReached s.currentRoundNum (s.roundInput s.currentRoundNum)] else []
  | .submitRandom _ => [.RandomReady s.currentRoundNum (s.roundInput s.currentRoundNum)]
  | .transferOwnership _ => []
  | .renounceOwnership => []

/-- Events of one transaction: those of the call if it succeeds. -/
noncomputable def txEvents (env : Env) (s : State) : Tx → List Event
  | .call m c =>
    match exec env s m c with
    | some s' => emits s' c
    | none => []
  | .forceEther _ => []

/-- Some history leads from a deployment to state `s`, and `log` is what the contract has emitted on
the way, oldest first. -/
inductive History (env : Env) : State → List Event → Prop
  | deploy {m t n o a b c d s} (h : constructor m t n o a b c d = some s) : History env s []
  | step {s log} (tx : Tx) (hv : tx.valid) (h : History env s log) :
      History env (step env s tx) (log ++ txEvents env s tx)

end Verif.ZkdvrfPre
