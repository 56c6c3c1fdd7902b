import Verif.Model.Zkdvrf

/-!
Model of contracts/zkdvrf_pre.sol, the variant that stores the hash point of each round.  Same
conventions as `Verif.Model.Zkdvrf`; the entry points have the same signatures, so the calls are
those of `Zkdvrf.Call`.  The verifying-key address is part of the parameter `verifyProof`.
-/

namespace Verif.ZkdvrfPre
open Zkdvrf (Call Tx nonPayable)

/-- `Status`, contracts/zkdvrf_pre.sol:34-40. -/
inductive Phase where
  | Unregistered
  | Registered
  | Nidkg
  | NidkgComplete
  | Ready
deriving DecidableEq

/-- Storage of the contract, contracts/zkdvrf_pre.sol:44-78, its owner and its balance. -/
structure State where
  owner : Address
  memberCount : ℕ
  threshold : ℕ
  ppLength : ℕ
  currentIndex : ℕ
  registeredCount : ℕ
  ppSubmissionCount : ℕ
  currentRoundNum : ℕ
  minNodeDeposit : ℕ
  pkListIndex : ℕ
  pkList : List GrumpkinSol.Point
  ppList : List (List Word)
  vkList : List SolG1
  gpkVal : SolG2
  contractPhase : Phase
  nodes : ℕ → Address
  addrToNode : Address → Node
  roundInput : ℕ → List Byte
  roundHash : ℕ → SolG1
  lastSubmittedRound : Address → ℕ
  roundToEval : ℕ → ℕ → SolEval
  roundSubmissionCount : ℕ → ℕ
  roundToRandom : ℕ → SolRandom
  balance : ℕ

/-- `constructor`, contracts/zkdvrf_pre.sol:81-91; `Ownable(owner)` of OpenZeppelin 5 rejects the
zero address. -/
def constructor (m : Msg) (thresholdValue numberValue : ℕ) (owner : Address)
    (halo2VerifierNonzero globalPublicParamsNonzero pseudoRandNonzero : Bool) (minDeposit : ℕ) :
    Evm State := do
  require (decide (m.value = 0))
  require (decide (owner ≠ 0))
  require (halo2VerifierNonzero && globalPublicParamsNonzero && pseudoRandNonzero)
  let memberCount ← u32 numberValue
  let threshold ← u32 thresholdValue
  let p ← u32 (7 * memberCount)
  let ppLength ← u32 (p + 14)
  return {
    owner := owner, memberCount := memberCount, threshold := threshold, ppLength := ppLength,
    currentIndex := 0, registeredCount := 0, ppSubmissionCount := 0, currentRoundNum := 0,
    minNodeDeposit := minDeposit, pkListIndex := 0, pkList := [],
    ppList := [], vkList := [], gpkVal := ⟨0, 0, 0, 0⟩,
    contractPhase := .Unregistered, nodes := fun _ => 0, addrToNode := fun _ => .empty,
    roundInput := fun _ => [], roundHash := fun _ => ⟨0, 0⟩, lastSubmittedRound := fun _ => 0,
    roundToEval := fun _ _ => .empty, roundSubmissionCount := fun _ => 0,
    roundToRandom := fun _ => .empty, balance := 0 }

/-- `onlyOwner` of OpenZeppelin `Ownable` (external). -/
def onlyOwner (s : State) (m : Msg) : Evm Unit := require (decide (m.sender = s.owner))

/-- `addPermissionedNodes`, contracts/zkdvrf_pre.sol:95-102. -/
def addPermissionedNodes (s : State) (m : Msg) (nodeAddress : Address) : Evm State := do
  nonPayable m
  onlyOwner s m
  require (decide (s.currentIndex < s.memberCount))
  require (decide (nodeAddress ≠ 0))
  require (decide ((s.addrToNode nodeAddress).nodeAddress = 0))
  let i ← u32 (s.currentIndex + 1)
  return { s with
    addrToNode := Function.update s.addrToNode nodeAddress ⟨nodeAddress, false, 0, false, 0⟩
    currentIndex := i }

/-- `registerNode`, contracts/zkdvrf_pre.sol:105-125. -/
def registerNode (s : State) (m : Msg) (pubKey : GrumpkinSol.Point) : Evm State := do
  require (decide (s.contractPhase = .Unregistered))
  require (decide (m.sender = (s.addrToNode m.sender).nodeAddress))
  require (!(s.addrToNode m.sender).status)
  require (decide (s.minNodeDeposit ≤ m.value))
  require (GrumpkinSol.isOnCurve pubKey)
  let pk ← u32 (s.pkListIndex + 1)
  let rc ← u32 (s.registeredCount + 1)
  return { s with
    nodes := Function.update s.nodes s.registeredCount m.sender
    addrToNode := Function.update s.addrToNode m.sender
      { s.addrToNode m.sender with
        deposit := m.value, status := true, pkIndex := s.pkListIndex }
    pkList := s.pkList ++ [pubKey]
    pkListIndex := pk
    registeredCount := rc
    contractPhase := if rc = s.memberCount then .Registered else s.contractPhase
    balance := s.balance + m.value }

/-- `startNidkg`, contracts/zkdvrf_pre.sol:129-134. -/
def startNidkg (s : State) (m : Msg) : Evm State := do
  nonPayable m
  onlyOwner s m
  require (decide (s.contractPhase = .Registered))
  return { s with contractPhase := .Nidkg }

/-- The loop of `checkPublicParams`, contracts/zkdvrf_pre.sol:247-254. -/
def checkLoop (pp : List Word) (pkList : List GrumpkinSol.Point) : ℕ → ℕ → ℕ → Evm Bool
  | 0, _, _ => some true
  | left + 1, i, j => do
    let k ← pkList[i]?
    let a ← pp[j]?
    require (decide (a = k.x))
    let b ← pp[j + 1]?
    require (decide (b = k.y))
    checkLoop pp pkList left (i + 1) (j + 2)

/-- `checkPublicParams`, contracts/zkdvrf_pre.sol:237-257. -/
def checkPublicParams (s : State) (pp : List Word) : Evm Bool := do
  require (decide (s.pkList.length = s.memberCount))
  require (decide (pp.length = s.ppLength))
  let twice ← u32 (2 * s.memberCount)
  require (decide (twice ≤ pp.length))
  checkLoop pp s.pkList s.memberCount 0 (pp.length - twice)

/-- `submitPublicParams`, contracts/zkdvrf_pre.sol:138-153. -/
def submitPublicParams (env : Env) (s : State) (m : Msg) (pp : List Word) (zkProof : List Byte) :
    Evm State := do
  nonPayable m
  require (decide (m.sender = (s.addrToNode m.sender).nodeAddress))
  require (decide (s.contractPhase = .Nidkg))
  require (!(s.addrToNode m.sender).statusPP)
  let c ← checkPublicParams s pp
  require c
  let v ← env.verifyProof zkProof pp
  require v
  let cnt ← u32 (s.ppSubmissionCount + 1)
  return { s with
    addrToNode := Function.update s.addrToNode m.sender
      { s.addrToNode m.sender with statusPP := true }
    ppList := s.ppList ++ [pp]
    ppSubmissionCount := cnt
    contractPhase := if cnt = s.memberCount then .NidkgComplete else s.contractPhase }

/-- `computeVk`, contracts/zkdvrf_pre.sol:156-166. -/
noncomputable def computeVk (env : Env) (s : State) (m : Msg) (gpk : SolG2) : Evm State := do
  nonPayable m
  require (decide (s.contractPhase = .NidkgComplete))
  let out ← Gpp.createGpp env.E s.memberCount gpk s.ppList
  return { s with
    vkList := s.vkList ++ out.2
    gpkVal := out.1
    contractPhase := .Ready }

/-- `initiateRandom`, contracts/zkdvrf_pre.sol:169-182. -/
def initiateRandom (env : Env) (s : State) (m : Msg) : Evm State := do
  nonPayable m
  onlyOwner s m
  require (decide (s.contractPhase = .Ready))
  require (decide (s.currentRoundNum = 0) ||
    decide ((s.roundToRandom s.currentRoundNum).value ≠ 0))
  let n ← inc256 s.currentRoundNum
  let input := inputPrefix ++ decimal n
  let h ← PseudoRandSol.hashToG1 env.keccak input
  return { s with
    currentRoundNum := n
    roundInput := Function.update s.roundInput n input
    roundHash := Function.update s.roundHash n h }

/-- `submitPartialEval`, contracts/zkdvrf_pre.sol:186-203. -/
def submitPartialEval (env : Env) (s : State) (m : Msg) (pEval : SolEval) : Evm State := do
  nonPayable m
  require (decide (m.sender = (s.addrToNode m.sender).nodeAddress))
  require (decide ((s.roundToRandom s.currentRoundNum).value = 0))
  require (decide (s.lastSubmittedRound m.sender < s.currentRoundNum))
  let pkIndex := (s.addrToNode m.sender).pkIndex
  let ip ← u32 (pkIndex + 1)
  require (decide (pEval.indexPlus = ip))
  let vkStored ← s.vkList[pkIndex]?
  let ok ← PseudoRandSol.verifyPartialEvalFast env.keccak (s.roundHash s.currentRoundNum)
    pEval.value ⟨pEval.z, pEval.c⟩ vkStored
  require ok
  let cnt ← u32 (s.roundSubmissionCount s.currentRoundNum + 1)
  return { s with
    lastSubmittedRound := Function.update s.lastSubmittedRound m.sender s.currentRoundNum
    roundToEval := Function.update s.roundToEval s.currentRoundNum
      (Function.update (s.roundToEval s.currentRoundNum) pkIndex pEval)
    roundSubmissionCount := Function.update s.roundSubmissionCount s.currentRoundNum cnt }

/-- `submitRandom`, contracts/zkdvrf_pre.sol:206-215. -/
noncomputable def submitRandom (env : Env) (s : State) (m : Msg) (pseudo : SolRandom) :
    Evm State := do
  nonPayable m
  onlyOwner s m
  require (decide ((s.roundToRandom s.currentRoundNum).value = 0))
  require (decide (s.threshold ≤ s.roundSubmissionCount s.currentRoundNum))
  let ok ← PseudoRandSol.verifyPseudoRandFast env.E (s.roundHash s.currentRoundNum)
    pseudo.proof s.gpkVal
  require ok
  let value := env.keccak (Word.bytes pseudo.proof.x ++ Word.bytes pseudo.proof.y)
  require (decide (pseudo.value = value))
  return { s with roundToRandom := Function.update s.roundToRandom s.currentRoundNum pseudo }

/-- `getLatestRandom`, contracts/zkdvrf_pre.sol:217-227 (the subtraction is checked). -/
def getLatestRandom (s : State) : Evm SolRandom :=
  if (s.roundToRandom s.currentRoundNum).value ≠ 0 then
    some (s.roundToRandom s.currentRoundNum)
  else if s.currentRoundNum = 1 then none
  else if 1 ≤ s.currentRoundNum then some (s.roundToRandom (s.currentRoundNum - 1))
  else none

/-- `getRandomAtRound`, contracts/zkdvrf_pre.sol:229-235. -/
def getRandomAtRound (s : State) (roundNum : ℕ) : Evm SolRandom :=
  if (s.roundToRandom roundNum).value ≠ 0 then some (s.roundToRandom roundNum) else none

/-- `transferOwnership` of OpenZeppelin `Ownable` (external). -/
def transferOwnership (s : State) (m : Msg) (newOwner : Address) : Evm State := do
  nonPayable m
  onlyOwner s m
  require (decide (newOwner ≠ 0))
  return { s with owner := newOwner }

/-- `renounceOwnership` of OpenZeppelin `Ownable` (external). -/
def renounceOwnership (s : State) (m : Msg) : Evm State := do
  nonPayable m
  onlyOwner s m
  return { s with owner := 0 }

/-- Dispatch of a call. -/
noncomputable def exec (env : Env) (s : State) (m : Msg) : Call → Evm State
  | .addPermissionedNodes a => addPermissionedNodes s m a
  | .registerNode pk => registerNode s m pk
  | .startNidkg => startNidkg s m
  | .submitPublicParams pp pr => submitPublicParams env s m pp pr
  | .computeVk gpk => computeVk env s m gpk
  | .initiateRandom => initiateRandom env s m
  | .submitPartialEval pe => submitPartialEval env s m pe
  | .submitRandom pr => submitRandom env s m pr
  | .transferOwnership a => transferOwnership s m a
  | .renounceOwnership => renounceOwnership s m

/-- Effect of an event: a reverted call changes nothing. -/
noncomputable def step (env : Env) (s : State) : Tx → State
  | .call m c => (exec env s m c).getD s
  | .forceEther a => { s with balance := s.balance + a }

/-- States reachable from a deployment by any history of events. -/
inductive Reachable (env : Env) : State → Prop
  | deploy {m t n o a b c d s} (h : constructor m t n o a b c d = some s) :
      Reachable env s
  | step {s} (tx : Tx) (hv : tx.valid) (h : Reachable env s) : Reachable env (step env s tx)

end Verif.ZkdvrfPre
