import Verif.Model.Zkdvrf

/-!
The events of contracts/zkdvrf.sol: which ones a successful call appends to the log.  A reverted call
and forced ether append none.  `OwnershipTransferred` of OpenZeppelin's `Ownable` is not modelled.
-/

namespace Verif.Zkdvrf

/-- The events, contracts/zkdvrf.sol:17-23. -/
inductive Event where
  | RegistrationCompleted (count : ℕ)
  | NidkgStarted
  | NidkgCompleted (count : ℕ)
  | GlobalPublicParamsCreated
  | RandomInitiated (roundNum : ℕ) (input : List Byte)
  | RandomThresholdReached (roundNum : ℕ) (input : List Byte)
  | RandomReady (roundNum : ℕ) (input : List Byte)
deriving DecidableEq

/-- The `emit` statements.  They are the last statements of their functions, so their conditions and
arguments read the state `s` after the call: `registerNode` contracts/zkdvrf.sol:122-124, `startNidkg`
:134, `submitPublicParams` :153-156, `computeVk` :169, `initiateRandom` :183, `submitPartialEval`
:203-205, `submitRandom` :216. -/
def emits (s : State) : Call → List Event
  | .addPermissionedNodes _ => []
  | .registerNode _ =>
    if s.registeredCount = s.memberCount then [.RegistrationCompleted s.registeredCount] else []
  | .startNidkg => [.NidkgStarted]
  | .submitPublicParams _ _ =>
    if s.ppSubmissionCount = s.memberCount then [.NidkgCompleted s.ppSubmissionCount] else []
  | .computeVk _ => [.GlobalPublicParamsCreated]
  | .initiateRandom => [.RandomInitiated s.currentRoundNum (s.roundInput s.currentRoundNum)]
  | .submitPartialEval _ =>
    if s.roundSubmissionCount s.currentRoundNum = s.threshold then
      [.RandomThresholdReached s.currentRoundNum (s.roundInput s.currentRoundNum)] else []
  | .submitRandom _ => [.RandomReady s.currentRoundNum (s.roundInput s.currentRoundNum)]
  | .transferOwnership _ => []
  | .renounceOwnership => []

/-- Events of one transaction: those of the call if it succeeds. -/
noncomputable def txEvents (env : Env) (s : State) : Tx → List Event
  | .call m c =>
    match exec env s m c with
    | some s' => emits s' c
    | none => []
  | .forceEther _ => []

/-- `History env s log`: some history of events leads from a deployment to state `s`, and `log` is
what the contract has emitted on the way, oldest first. -/
inductive History (env : Env) : State → List Event → Prop
  | deploy {m t n a b c d s} (hm : m.sender ≠ 0) (h : constructor m t n a b c d = some s) :
      History env s []
  | step {s log} (tx : Tx) (hv : tx.valid) (h : History env s log) :
      History env (step env s tx) (log ++ txEvents env s tx)

end Verif.Zkdvrf
