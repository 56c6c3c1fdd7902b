import Verif.Model.Lottery
import Verif.Lemmas.ZkdvrfPre

/-!
Model of contracts/lottery.sol next to the contract scripts/deploy.ts actually deploys,
contracts/zkdvrf_pre.sol.  The lottery reads two things only: `currentRoundNum()`
(contracts/lottery.sol:44-47) and `getRandomAtRound(..)` (contracts/lottery.sol:62); both contracts
answer them from the same storage, so the lottery's functions are reused on `State.toZk`, the plain
contract's state with the same data (`reads_round`, `reads_random` below: what is read is
zkdvrf_pre's own answer).
-/

namespace Verif.LotteryPre
open Verif.Lottery (Call)

/-- The lottery and the zkdvrf_pre contract at `zkdvrfAddr`, contracts/lottery.sol:12,30-32. -/
structure World where
  lot : Lottery.State
  zk : ZkdvrfPre.State

/-- The lottery calls that hand over control to nobody, contracts/lottery.sol:34-58 and `Ownable`;
the contract at `zkdvrfAddr` is zkdvrf_pre. -/
def exec (z : ZkdvrfPre.State) (s : Lottery.State) (m : Msg) (c : Call) : Evm Lottery.State :=
  Lottery.exec (z.toZk [] []) s m c

/-- `pickWinner` up to the payment, contracts/lottery.sol:73-81. -/
def pickStart (k : Keccak) (z : ZkdvrfPre.State) (s : Lottery.State) (m : Msg) :
    Evm Lottery.State :=
  Lottery.pickStart k (z.toZk [] []) s m

/-- contracts/lottery.sol:44-47: the round number read is zkdvrf_pre's. -/
theorem reads_round (z : ZkdvrfPre.State) (s : Lottery.State) :
    Lottery.roundReached (z.toZk [] []) s = decide (s.randRoundNum ≤ z.currentRoundNum) := rfl

/-- contracts/lottery.sol:62: the random read is the answer of zkdvrf_pre. -/
theorem reads_random (z : ZkdvrfPre.State) (k : ℕ) :
    Zkdvrf.getRandomAtRound (z.toZk [] []) k = ZkdvrfPre.getRandomAtRound z k := rfl

/-- Sequences of events, as `Lottery.Steps`: events at zkdvrf_pre, calls to the lottery, forced
ether, and `pickWinner`, during which another such sequence may run. -/
inductive Steps (env : Env) : World → World → Prop
  | refl (w : World) : Steps env w w
  | zkdvrf {w w' : World} (tx : Zkdvrf.Tx) (hv : tx.valid) (h : Steps env w w') :
      Steps env w { w' with zk := ZkdvrfPre.step env w'.zk tx }
  | call {w w' : World} (m : Msg) (c : Call) (hm : m.sender ≠ 0) {l : Lottery.State}
      (h : Steps env w w') (he : exec w'.zk w'.lot m c = some l) :
      Steps env w { w' with lot := l }
  | force {w w' : World} (a : ℕ) (h : Steps env w w') :
      Steps env w { w' with lot :=
        { w'.lot with balance := w'.lot.balance + a, forced := w'.lot.forced + a } }
  | pickWinner {w w1 w2 : World} (m : Msg) (hm : m.sender ≠ 0) {l : Lottery.State}
      (h : Steps env w w1) (he : pickStart env.keccak w1.zk w1.lot m = some l)
      (h' : Steps env { w1 with lot := l } w2) :
      Steps env w { w2 with lot := Lottery.pickEnd w2.lot }

/-- States reached from a deployment of the lottery (scripts/lottery/deploy.ts) next to a zkdvrf_pre
contract in any state it can reach. -/
inductive Reachable (env : Env) : World → Prop
  | deploy {z : ZkdvrfPre.State} {m : Msg} {l : Lottery.State} (hz : ZkdvrfPre.Reachable env z)
      (h : Lottery.constructor m = some l) : Reachable env ⟨l, z⟩
  | steps {w w' : World} (hr : Reachable env w) (h : Steps env w w') : Reachable env w'

end Verif.LotteryPre
