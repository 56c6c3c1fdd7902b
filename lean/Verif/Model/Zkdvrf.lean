import Mathlib.Logic.Function.Basic
import Verif.Model.Gpp
import Verif.Model.PseudoRand

/-!
Model of contracts/zkdvrf.sol as a state machine.

* A call either yields the new state or reverts (`none`); a reverted transaction leaves the state as
  it was.  Events are modelled in `Verif.Model.ZkdvrfEvents`; gas
  and storage layout are not modelled.
* The called contracts are the ones of the repository: `GlobalPublicParams` and `PseudoRand` are the
  models of `Verif.Model.Gpp` and `Verif.Model.PseudoRand`; the SNARK verifier is the parameter
  `verifyProof`.  None of them calls back.
* `uint32` and `uint256` counters are natural numbers with the overflow checks of Solidity 0.8.
-/

namespace Verif

/-- An Ethereum address. -/
abbrev Address : Type := BitVec 160

/-- What the contract's surroundings provide: the pairing precompile, Keccak, and
`Halo2Verifier.verifyProof` with the fixed verifying key (contracts/zkdvrf.sol:144). -/
structure Env where
  E : BnPairing
  keccak : Keccak
  verifyProof : List Byte → List Word → Evm Bool

/-- `msg.sender` and `msg.value`. -/
structure Msg where
  sender : Address
  value : ℕ

/-- `dvrfNode`, contracts/zkdvrf.sol:25-31 (zkdvrf_pre.sol:26-32). -/
structure Node where
  nodeAddress : Address
  status : Bool
  deposit : ℕ
  statusPP : Bool
  pkIndex : ℕ
deriving DecidableEq

/-- `IPseudoRand.PartialEval`, contracts/IPseudoRand.sol:13-17. -/
structure SolEval where
  indexPlus : ℕ
  value : SolG1
  z : Word
  c : Word
deriving DecidableEq

/-- `IPseudoRand.PseudoRandom`, contracts/IPseudoRand.sol:19-22. -/
structure SolRandom where
  proof : SolG1
  value : Word
deriving DecidableEq

/-- Default values of storage. -/
def Node.empty : Node := ⟨0, false, 0, false, 0⟩
/-- Default values of storage. -/
def SolEval.empty : SolEval := ⟨0, ⟨0, 0⟩, 0, 0⟩
/-- Default values of storage. -/
def SolRandom.empty : SolRandom := ⟨⟨0, 0⟩, 0⟩

/-- `Strings.toString` of OpenZeppelin (external; used in contracts/zkdvrf.sol:181): decimal
digits. -/
def decimal (n : ℕ) : List Byte :=
  if n < 10 then [Fin.ofNat 256 (48 + n)] else decimal (n / 10) ++ [Fin.ofNat 256 (48 + n % 10)]
termination_by n

/-- `INPUT_PREFIX`, contracts/zkdvrf.sol:40. -/
def inputPrefix : List Byte := strBytes "zkRand-v1-2024:"

/-- `bytes32(0)` test and friends are on words; checked increment of a `uint256` counter. -/
def inc256 (n : ℕ) : Evm ℕ := if n + 1 < 2 ^ 256 then some (n + 1) else none

namespace Zkdvrf

/-- `Status`, contracts/zkdvrf.sol:33-38. -/
inductive Phase where
  | Unregistered
  | Nidkg
  | NidkgComplete
  | Ready
deriving DecidableEq

/-- Storage of the contract, contracts/zkdvrf.sol:42-77, its owner (OpenZeppelin `Ownable`) and its
balance.  The addresses of the called contracts are part of `Env`. -/
structure State where
  owner : Address
  memberCount : ℕ
  threshold : ℕ
  ppLength : ℕ
  currentIndex : ℕ
  registeredCount : ℕ
  ppSubmissionCount : ℕ
  currentRoundNum : ℕ
  minNodeDeposit : ℕ
  pkListIndex : ℕ
  pkList : List GrumpkinSol.Point
  pkListOrder : List Address
  ppList : List (List Word)
  ppListOrder : List Address
  vkList : List SolG1
  gpkVal : SolG2
  contractPhase : Phase
  nodes : ℕ → Address
  addrToNode : Address → Node
  roundInput : ℕ → List Byte
  lastSubmittedRound : Address → ℕ
  roundToEval : ℕ → ℕ → SolEval
  roundSubmissionCount : ℕ → ℕ
  roundToRandom : ℕ → SolRandom
  balance : ℕ

/-- `constructor`, contracts/zkdvrf.sol:79-89.  The three `bool`s say whether the corresponding
contract address is nonzero; the constructor is not payable. -/
def constructor (m : Msg) (thresholdValue numberValue : ℕ)
    (halo2VerifierNonzero globalPublicParamsNonzero pseudoRandNonzero : Bool) (minDeposit : ℕ) :
    Evm State := do
  require (decide (m.value = 0))
  require (decide (m.sender ≠ 0))
  require (halo2VerifierNonzero && globalPublicParamsNonzero && pseudoRandNonzero)
  let memberCount ← u32 numberValue
  let threshold ← u32 thresholdValue
  let p ← u32 (7 * memberCount)
  let ppLength ← u32 (p + 14)
  return {
    owner := m.sender, memberCount := memberCount, threshold := threshold, ppLength := ppLength,
    currentIndex := 0, registeredCount := 0, ppSubmissionCount := 0, currentRoundNum := 0,
    minNodeDeposit := minDeposit, pkListIndex := 0, pkList := [], pkListOrder := [],
    ppList := [], ppListOrder := [], vkList := [], gpkVal := ⟨0, 0, 0, 0⟩,
    contractPhase := .Unregistered, nodes := fun _ => 0, addrToNode := fun _ => .empty,
    roundInput := fun _ => [], lastSubmittedRound := fun _ => 0,
    roundToEval := fun _ _ => .empty, roundSubmissionCount := fun _ => 0,
    roundToRandom := fun _ => .empty, balance := 0 }

/-- `onlyOwner` of OpenZeppelin `Ownable` (external). -/
def onlyOwner (s : State) (m : Msg) : Evm Unit := require (decide (m.sender = s.owner))

/-- A function without `payable` rejects value (Solidity). -/
def nonPayable (m : Msg) : Evm Unit := require (decide (m.value = 0))

/-- `addPermissionedNodes`, contracts/zkdvrf.sol:94-101. -/
def addPermissionedNodes (s : State) (m : Msg) (nodeAddress : Address) : Evm State := do
  nonPayable m
  onlyOwner s m
  require (decide (s.currentIndex < s.memberCount))
  require (decide (nodeAddress ≠ 0))
  require (decide ((s.addrToNode nodeAddress).nodeAddress = 0))
  let i ← u32 (s.currentIndex + 1)
  return { s with
    addrToNode := Function.update s.addrToNode nodeAddress ⟨nodeAddress, false, 0, false, 0⟩
    currentIndex := i }

/-- `registerNode`, contracts/zkdvrf.sol:104-125. -/
def registerNode (s : State) (m : Msg) (pubKey : GrumpkinSol.Point) : Evm State := do
  require (decide (s.contractPhase = .Unregistered))
  require (decide (m.sender = (s.addrToNode m.sender).nodeAddress))
  require (!(s.addrToNode m.sender).status)
  require (decide (s.minNodeDeposit ≤ m.value))
  require (GrumpkinSol.isOnCurve pubKey)
  let pk ← u32 (s.pkListIndex + 1)
  let rc ← u32 (s.registeredCount + 1)
  return { s with
    nodes := Function.update s.nodes s.registeredCount m.sender
    addrToNode := Function.update s.addrToNode m.sender
      { s.addrToNode m.sender with
        deposit := m.value, status := true, pkIndex := s.pkListIndex }
    pkList := s.pkList ++ [pubKey]
    pkListOrder := s.pkListOrder ++ [m.sender]
    pkListIndex := pk
    registeredCount := rc
    balance := s.balance + m.value }

/-- `startNidkg`, contracts/zkdvrf.sol:129-135. -/
def startNidkg (s : State) (m : Msg) : Evm State := do
  nonPayable m
  onlyOwner s m
  require (decide (s.contractPhase = .Unregistered))
  require (decide (s.registeredCount = s.memberCount))
  return { s with contractPhase := .Nidkg }

/-- The loop of `checkPublicParams`, contracts/zkdvrf.sol:249-256: `i` counts up, `j` advances by
two; out-of-bounds accesses revert. -/
def checkLoop (pp : List Word) (pkList : List GrumpkinSol.Point) : ℕ → ℕ → ℕ → Evm Bool
  | 0, _, _ => some true
  | left + 1, i, j => do
    let k ← pkList[i]?
    let a ← pp[j]?
    require (decide (a = k.x))
    let b ← pp[j + 1]?
    require (decide (b = k.y))
    checkLoop pp pkList left (i + 1) (j + 2)

/-- `checkPublicParams`, contracts/zkdvrf.sol:239-259 (the two `return false` statements follow a
`require` of the negated condition and are unreachable). -/
def checkPublicParams (s : State) (pp : List Word) : Evm Bool := do
  require (decide (s.pkList.length = s.memberCount))
  require (decide (pp.length = s.ppLength))
  let twice ← u32 (2 * s.memberCount)
  require (decide (twice ≤ pp.length))
  checkLoop pp s.pkList s.memberCount 0 (pp.length - twice)

/-- `submitPublicParams`, contracts/zkdvrf.sol:139-157. -/
def submitPublicParams (env : Env) (s : State) (m : Msg) (pp : List Word) (zkProof : List Byte) :
    Evm State := do
  nonPayable m
  require (decide (m.sender = (s.addrToNode m.sender).nodeAddress))
  require (decide (s.contractPhase = .Nidkg))
  require (!(s.addrToNode m.sender).statusPP)
  let c ← checkPublicParams s pp
  require c
  let v ← env.verifyProof zkProof pp
  require v
  let cnt ← u32 (s.ppSubmissionCount + 1)
  return { s with
    addrToNode := Function.update s.addrToNode m.sender
      { s.addrToNode m.sender with statusPP := true }
    ppList := s.ppList ++ [pp]
    ppListOrder := s.ppListOrder ++ [m.sender]
    ppSubmissionCount := cnt
    contractPhase := if cnt = s.memberCount then .NidkgComplete else s.contractPhase }

/-- `computeVk`, contracts/zkdvrf.sol:160-170. -/
noncomputable def computeVk (env : Env) (s : State) (m : Msg) (gpk : SolG2) : Evm State := do
  nonPayable m
  require (decide (s.contractPhase = .NidkgComplete))
  let out ← Gpp.createGpp env.E s.memberCount gpk s.ppList
  return { s with
    vkList := s.vkList ++ out.2
    gpkVal := out.1
    contractPhase := .Ready }

/-- `initiateRandom`, contracts/zkdvrf.sol:173-184. -/
def initiateRandom (s : State) (m : Msg) : Evm State := do
  nonPayable m
  onlyOwner s m
  require (decide (s.contractPhase = .Ready))
  require (decide (s.currentRoundNum = 0) ||
    decide ((s.roundToRandom s.currentRoundNum).value ≠ 0))
  let n ← inc256 s.currentRoundNum
  return { s with
    currentRoundNum := n
    roundInput := Function.update s.roundInput n (inputPrefix ++ decimal n) }

/-- `submitPartialEval`, contracts/zkdvrf.sol:188-206. -/
def submitPartialEval (env : Env) (s : State) (m : Msg) (pEval : SolEval) : Evm State := do
  nonPayable m
  require (decide (m.sender = (s.addrToNode m.sender).nodeAddress))
  require (decide ((s.roundToRandom s.currentRoundNum).value = 0))
  require (decide (s.lastSubmittedRound m.sender < s.currentRoundNum))
  let currentX := s.roundInput s.currentRoundNum
  let pkIndex := (s.addrToNode m.sender).pkIndex
  let ip ← u32 (pkIndex + 1)
  require (decide (pEval.indexPlus = ip))
  let vkStored ← s.vkList[pkIndex]?
  let ok ← PseudoRandSol.verifyPartialEval env.keccak currentX pEval.value ⟨pEval.z, pEval.c⟩ vkStored
  require ok
  let cnt ← u32 (s.roundSubmissionCount s.currentRoundNum + 1)
  return { s with
    lastSubmittedRound := Function.update s.lastSubmittedRound m.sender s.currentRoundNum
    roundToEval := Function.update s.roundToEval s.currentRoundNum
      (Function.update (s.roundToEval s.currentRoundNum) pkIndex pEval)
    roundSubmissionCount := Function.update s.roundSubmissionCount s.currentRoundNum cnt }

/-- `submitRandom`, contracts/zkdvrf.sol:209-217. -/
noncomputable def submitRandom (env : Env) (s : State) (m : Msg) (pseudo : SolRandom) :
    Evm State := do
  nonPayable m
  onlyOwner s m
  require (decide ((s.roundToRandom s.currentRoundNum).value = 0))
  let ok ← PseudoRandSol.verifyPseudoRand env.E env.keccak (s.roundInput s.currentRoundNum)
    pseudo.proof s.gpkVal
  require ok
  let value := env.keccak (Word.bytes pseudo.proof.x ++ Word.bytes pseudo.proof.y)
  require (decide (pseudo.value = value))
  return { s with roundToRandom := Function.update s.roundToRandom s.currentRoundNum pseudo }

/-- `getLatestRandom`, contracts/zkdvrf.sol:219-229 (the subtraction is checked). -/
def getLatestRandom (s : State) : Evm SolRandom :=
  if (s.roundToRandom s.currentRoundNum).value ≠ 0 then
    some (s.roundToRandom s.currentRoundNum)
  else if s.currentRoundNum = 1 then none
  else if 1 ≤ s.currentRoundNum then some (s.roundToRandom (s.currentRoundNum - 1))
  else none

/-- `getRandomAtRound`, contracts/zkdvrf.sol:231-237. -/
def getRandomAtRound (s : State) (roundNum : ℕ) : Evm SolRandom :=
  if (s.roundToRandom roundNum).value ≠ 0 then some (s.roundToRandom roundNum) else none

/-- `getIndexPlus`, contracts/zkdvrf.sol:261-264. -/
def getIndexPlus (s : State) (nodeAddress : Address) : Evm ℕ :=
  u32 ((s.addrToNode nodeAddress).pkIndex + 1)

/-- `transferOwnership` of OpenZeppelin `Ownable` (external; contracts/zkdvrf.sol:13). -/
def transferOwnership (s : State) (m : Msg) (newOwner : Address) : Evm State := do
  nonPayable m
  onlyOwner s m
  require (decide (newOwner ≠ 0))
  return { s with owner := newOwner }

/-- `renounceOwnership` of OpenZeppelin `Ownable` (external). -/
def renounceOwnership (s : State) (m : Msg) : Evm State := do
  nonPayable m
  onlyOwner s m
  return { s with owner := 0 }

/-- The state-changing entry points of the contract. -/
inductive Call where
  | addPermissionedNodes (nodeAddress : Address)
  | registerNode (pubKey : GrumpkinSol.Point)
  | startNidkg
  | submitPublicParams (pp : List Word) (zkProof : List Byte)
  | computeVk (gpk : SolG2)
  | initiateRandom
  | submitPartialEval (pEval : SolEval)
  | submitRandom (pseudo : SolRandom)
  | transferOwnership (newOwner : Address)
  | renounceOwnership

/-- Dispatch of a call. -/
noncomputable def exec (env : Env) (s : State) (m : Msg) : Call → Evm State
  | .addPermissionedNodes a => addPermissionedNodes s m a
  | .registerNode pk => registerNode s m pk
  | .startNidkg => startNidkg s m
  | .submitPublicParams pp pr => submitPublicParams env s m pp pr
  | .computeVk gpk => computeVk env s m gpk
  | .initiateRandom => initiateRandom s m
  | .submitPartialEval pe => submitPartialEval env s m pe
  | .submitRandom pr => submitRandom env s m pr
  | .transferOwnership a => transferOwnership s m a
  | .renounceOwnership => renounceOwnership s m

/-- One event in the life of the contract: a transaction, or ether forced into it (block rewards,
`selfdestruct`), which runs no code. -/
inductive Tx where
  | call (m : Msg) (c : Call)
  | forceEther (amount : ℕ)

/-- Effect of an event: a reverted call changes nothing. -/
noncomputable def step (env : Env) (s : State) : Tx → State
  | .call m c => (exec env s m c).getD s
  | .forceEther a => { s with balance := s.balance + a }

/-- A transaction has a sender; nobody can send from the zero address. -/
def Tx.valid : Tx → Prop
  | .call m _ => m.sender ≠ 0
  | .forceEther _ => True

/-- States reachable from a deployment by any history of events. -/
inductive Reachable (env : Env) : State → Prop
  | deploy {m t n a b c d s} (hm : m.sender ≠ 0) (h : constructor m t n a b c d = some s) :
      Reachable env s
  | step {s} (tx : Tx) (hv : tx.valid) (h : Reachable env s) : Reachable env (step env s tx)

end Zkdvrf

end Verif
