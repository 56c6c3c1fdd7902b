import Verif.Model.ZkdvrfEvents
import Verif.Spec.Contract

/-! Vocabulary for statements about the event log. -/

namespace Verif.Zkdvrf

/-- Place of an event in the life of the contract: registration, start and end of the DKG, keys; then
for each round 1, 2, … its start, its quorum, its random. -/
def Event.place : Event → ℕ
  | .RegistrationCompleted _ => 0
  | .NidkgStarted => 1
  | .NidkgCompleted _ => 2
  | .GlobalPublicParamsCreated => 3
  | .RandomInitiated k _ => 3 * k + 1
  | .RandomThresholdReached k _ => 3 * k + 2
  | .RandomReady k _ => 3 * k + 3

/-- The stray event: `RandomReady` for round 0, which is never initiated. -/
def Event.Stray : Event → Prop
  | .RandomReady 0 _ => True
  | _ => False

/-- `e` may precede `e'` in a log.  Events come in the order of their places, each at most once; the
stray event may come at most once, anywhere before the first round is initiated. -/
def Event.MayPrecede (e e' : Event) : Prop :=
  (¬ e.Stray ∧ ¬ e'.Stray ∧ e.place < e'.place) ∨ (e.Stray ∧ ¬ e'.Stray) ∨
  (¬ e.Stray ∧ e'.Stray ∧ e.place ≤ 3)

end Verif.Zkdvrf
