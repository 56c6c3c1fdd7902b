import Verif.Model.Services
import Verif.Model.ZkdvrfPreEvents
import Verif.Model.Lottery

/-!
Model of the event handlers of scripts/demo/admin.ts, scripts/lottery/admin.ts and
scripts/lottery/play.ts.

A handler reads the contract, may run commands of the client, and sends one transaction.  It is
modelled as one step: the contract does not change between its reads and the inclusion of its
transaction (but it may have changed since the event).  Logging, sleeping, the final comparison of keys
(only prints) and the RPC layer are not modelled.
-/

namespace Verif.Demo
open ZkdvrfPre (State)
open Zkdvrf (Event Call)
open Services (Machine Files Out config)

/-- The handler of `RandomThresholdReached`, scripts/demo/admin.ts:160-226: collects the evaluations of
the announced round from the first `members` indices (`members` is the number of configured addresses),
combines and verifies them for the announced input, and submits the random. -/
noncomputable def onThreshold (M : Machine) (members : ℕ) (p : State) (f : Files) (roundNum : ℕ)
    (input : List Byte) : Out :=
  let evals := Client.evalsFile members (p.roundToEval roundNum)
  match f.gpk, f.vks with
  | some gpk, some vks =>
    match Client.combine M.env.E M.env.keccak (evalHash M.env.keccak) (config p) evals gpk vks input
        false with
    | .error _ => .failed f
    | .ok pseudo =>
      match Client.verifyFinal M.env.E M.env.keccak (evalHash M.env.keccak) pseudo gpk input with
      | .error _ => .failed f
      | .ok () =>
        match Client.submission pseudo with
        | none => .failed f
        | some rnd => .send f (.submitRandom rnd)
  | _, _ => .failed f

/-- The handlers of scripts/demo/admin.ts: `RegistrationCompleted` :48-64, `NidkgCompleted` :70-131 (as
`createGpp` of the admin service), `GlobalPublicParamsCreated` :137-158, `RandomThresholdReached` :160-226,
`RandomReady` :230-241 (`again` is the answer at the prompt). -/
noncomputable def onEvent (M : Machine) (members : ℕ) (again : Bool) (p : State) (f : Files) :
    Event → Out
  | .RegistrationCompleted _ => .send f .startNidkg
  | .NidkgCompleted _ => Services.createGpp p f
  | .GlobalPublicParamsCreated => .send f .initiateRandom
  | .RandomThresholdReached k x => onThreshold M members p f k x
  | .RandomReady _ _ => if again then .send f .initiateRandom else .idle
  | _ => .idle

/-- The handler of scripts/lottery/admin.ts:38-45: whether it calls `pickWinner` on this event;
`randRoundNumber` is the constant given to `setup` before (:19-21). -/
def lotteryPicks (randRoundNumber : ℕ) : Event → Bool
  | .RandomReady k _ => decide (k = randRoundNumber)
  | _ => false

/-- The handler of `BetOpen` in scripts/lottery/play.ts:20-40: every configured player bets the announced
minimum; a rejected bet is only logged.  The zkdvrf contract `z` does not change meanwhile. -/
def play (z : Zkdvrf.State) (minBet : ℕ) (s : Lottery.State) (wallets : List Address) : Lottery.State :=
  wallets.foldl (fun s a => (Lottery.exec z s ⟨a, minBet⟩ .enter).getD s) s

end Verif.Demo
