import Verif.Model.Zkdvrf

/-!
Model of contracts/lottery.sol, next to the zkdvrf contract it reads.

`pickWinner` pays the winner with a call that hands over control, before the phase changes, so the
recipient may call back.  The model therefore splits `pickWinner` into the part before that call and
the part after it; in between anything may happen (`Steps`).
-/

namespace Verif.Lottery

/-- `Status`, contracts/lottery.sol:20-24. -/
inductive Phase where
  | Setup
  | Open
  | Close
deriving DecidableEq

/-- Storage of the contract, contracts/lottery.sol:12-26, its owner (OpenZeppelin `Ownable`) and its
balance; `zkdvrfAddr` is the contract of `World`.  The last three fields are not storage but a
record of ether movements: accepted bets, payments made by `pickWinner`, ether forced in. -/
structure State where
  owner : Address
  players : List Address
  hasEntered : Address → Bool
  minBet : ℕ
  randRoundNum : ℕ
  randValue : Word
  contractPhase : Phase
  balance : ℕ
  bets : List (Address × ℕ)
  payments : List (Address × ℕ)
  forced : ℕ

/-- The lottery and the zkdvrf contract at `zkdvrfAddr`. -/
structure World where
  lot : State
  zk : Zkdvrf.State

/-- `constructor`, contracts/lottery.sol:30-32. -/
def constructor (m : Msg) : Evm State := do
  require (decide (m.value = 0))
  require (decide (m.sender ≠ 0))
  return { owner := m.sender, players := [], hasEntered := fun _ => false, minBet := 0,
           randRoundNum := 0, randValue := 0, contractPhase := .Setup, balance := 0,
           bets := [], payments := [], forced := 0 }

/-- `setup`, contracts/lottery.sol:34-41. -/
def setup (s : State) (m : Msg) (randRoundNumber minBetAmount : ℕ) : Evm State := do
  require (decide (m.value = 0))
  require (decide (m.sender = s.owner))
  require (decide (s.contractPhase = .Setup))
  return { s with
    randRoundNum := randRoundNumber, minBet := minBetAmount, contractPhase := .Open }

/-- `roundReached`, contracts/lottery.sol:44-47. -/
def roundReached (z : Zkdvrf.State) (s : State) : Bool :=
  decide (s.randRoundNum ≤ z.currentRoundNum)

/-- `enter`, contracts/lottery.sol:49-58. -/
def enter (z : Zkdvrf.State) (s : State) (m : Msg) : Evm State := do
  require (decide (s.contractPhase = .Open))
  require (!roundReached z s)
  require (!s.hasEntered m.sender)
  require (decide (s.minBet ≤ m.value))
  return { s with
    players := s.players ++ [m.sender]
    hasEntered := Function.update s.hasEntered m.sender true
    balance := s.balance + m.value
    bets := s.bets ++ [(m.sender, m.value)] }

/-- `(players[i], players[j]) = (players[j], players[i])`, contracts/lottery.sol:69; an access out
of bounds reverts. -/
def swap {α : Type} (l : List α) (i j : ℕ) : Evm (List α) := do
  let a ← l[i]?
  let b ← l[j]?
  return (l.set i b).set j a

/-- The loop of `shuffle`, contracts/lottery.sol:64-70, for any choice of `j`; `left` iterations
remain. -/
def shuffleLoop {α : Type} (choice : ℕ → ℕ) : ℕ → ℕ → List α → Evm (List α)
  | 0, _, l => some l
  | left + 1, i, l => do
    let l' ← swap l i (choice i)
    shuffleLoop choice left (i + 1) l'

/-- The choice of `j` in the loop, contracts/lottery.sol:65-68. -/
def choice (keccak : Keccak) (randValue : Word) (i : ℕ) : ℕ :=
  (keccak (Word.bytes randValue ++ Word.bytes (BitVec.ofNat 256 i))).toNat % (i + 1)

/-- `shuffle`, contracts/lottery.sol:61-71. -/
def shuffle (keccak : Keccak) (randValue : Word) (players : List Address) :
    Evm (List Address) := do
  require (decide (randValue ≠ 0))
  shuffleLoop (choice keccak randValue) players.length 0 players

/-- `pickWinner` up to the moment the recipient gets control, contracts/lottery.sol:73-81: the whole
balance goes to the first player of the shuffled array. -/
def pickStart (keccak : Keccak) (z : Zkdvrf.State) (s : State) (m : Msg) : Evm State := do
  require (decide (m.value = 0))
  require (decide (m.sender = s.owner))
  require (decide (s.contractPhase = .Open))
  require (decide (0 < s.players.length))
  let r ← Zkdvrf.getRandomAtRound z s.randRoundNum
  let players ← shuffle keccak r.value s.players
  let winner ← players[0]?
  return { s with
    randValue := r.value
    players := players
    balance := 0
    payments := s.payments ++ [(winner, s.balance)] }

/-- `pickWinner` after the recipient has returned successfully, contracts/lottery.sol:82-84. -/
def pickEnd (s : State) : State := { s with contractPhase := .Close }

/-- `transferOwnership` of OpenZeppelin `Ownable` (external; contracts/lottery.sol:9). -/
def transferOwnership (s : State) (m : Msg) (newOwner : Address) : Evm State := do
  require (decide (m.value = 0))
  require (decide (m.sender = s.owner))
  require (decide (newOwner ≠ 0))
  return { s with owner := newOwner }

/-- `renounceOwnership` of OpenZeppelin `Ownable` (external). -/
def renounceOwnership (s : State) (m : Msg) : Evm State := do
  require (decide (m.value = 0))
  require (decide (m.sender = s.owner))
  return { s with owner := 0 }

/-- The state-changing entry points that hand over control to nobody. -/
inductive Call where
  | setup (randRoundNumber minBetAmount : ℕ)
  | enter
  | transferOwnership (newOwner : Address)
  | renounceOwnership

/-- Dispatch of a call. -/
def exec (z : Zkdvrf.State) (s : State) (m : Msg) : Call → Evm State
  | .setup r b => setup s m r b
  | .enter => enter z s m
  | .transferOwnership a => transferOwnership s m a
  | .renounceOwnership => renounceOwnership s m

/-- `Steps env w w'`: a sequence of events leads from `w` to `w'`: events at the zkdvrf contract,
calls to the lottery, ether forced into it, and `pickWinner`, during which, after the payment,
another such sequence may run (the recipient has control).  Reverted calls change nothing and are
left out. -/
inductive Steps (env : Env) : World → World → Prop
  | refl (w : World) : Steps env w w
  | zkdvrf {w w' : World} (tx : Zkdvrf.Tx) (hv : tx.valid) (h : Steps env w w') :
      Steps env w { w' with zk := Zkdvrf.step env w'.zk tx }
  | call {w w' : World} (m : Msg) (c : Call) (hm : m.sender ≠ 0) {l : State} (h : Steps env w w')
      (he : exec w'.zk w'.lot m c = some l) : Steps env w { w' with lot := l }
  | force {w w' : World} (a : ℕ) (h : Steps env w w') :
      Steps env w { w' with lot :=
        { w'.lot with balance := w'.lot.balance + a, forced := w'.lot.forced + a } }
  | pickWinner {w w1 w2 : World} (m : Msg) (hm : m.sender ≠ 0) {l : State} (h : Steps env w w1)
      (he : pickStart env.keccak w1.zk w1.lot m = some l)
      (h' : Steps env { w1 with lot := l } w2) :
      Steps env w { w2 with lot := pickEnd w2.lot }

/-- States reached from a deployment of the lottery next to a zkdvrf contract in any state it can
reach. -/
inductive Reachable (env : Env) : World → Prop
  | deploy {z : Zkdvrf.State} {m : Msg} {l : State} (hz : Zkdvrf.Reachable env z)
      (h : constructor m = some l) : Reachable env ⟨l, z⟩
  | steps {w w' : World} (hr : Reachable env w) (h : Steps env w w') : Reachable env w'

end Verif.Lottery
