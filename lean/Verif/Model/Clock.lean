import Verif.Model.Services

/-!
Model of the clock of the admin service: services/admin.ts:97-103, 175-202, 339-347.

Times are milliseconds since 1970 as returned by `Date.now()`.  Simplification: a pass of the loop reads the
clock and the contract at one moment, and the transaction it sends takes effect then; the service goes on
when it is confirmed (`await res.wait()`), at any later moment.
-/

namespace Verif.Services
open ZkdvrfPre (State)
open Zkdvrf (Call)

/-- `_init`, services/admin.ts:99-103: the moment of the option `randGenStartDate`, or 0 if it is not a valid date
(`parsed` is none). -/
def startDateOf (parsed : Option ℤ) : ℤ := parsed.getD 0

/-- services/admin.ts:178, the negation: the generation has begun. -/
def begunAt (startDate : ℤ) (now : ℕ) : Bool := !decide ((now : ℤ) < startDate)

/-- services/admin.ts:193-198: `Math.floor((now - timeOfLastRound) / 1000) > randGenInterval`. -/
def elapsedAt (interval : ℤ) (last now : ℕ) : Bool :=
  decide (((now : ℤ) - (last : ℤ)) / 1000 > interval)

/-- The services with the time.  `last` is `timeOfLastRound`; `running` is false when the admin has ended;
`openings` records, for the statements, when the admin sent the transactions that opened rounds and when they
were confirmed, since it was started. -/
structure Timed where
  w : World
  now : ℕ
  last : ℕ
  running : Bool
  openings : List (ℕ × ℕ)

/-- The admin service is started, at first or again: services/admin.ts:97, with a new `state`. -/
def Timed.start (w : World) (now : ℕ) : Timed := ⟨w, now, 0, true, []⟩

/-- The admin (wallet `o`) does what its pass has decided; if that is a transaction, it is confirmed at `mined`.  A
failing command or a reverted transaction ends the service.  `initiateRand`, services/admin.ts:339-347, notes the
time when the opening of a round is confirmed. -/
noncomputable def Timed.adminDo (M : Machine) (o : Address) (s : Timed) (out : Out) (mined : ℕ) : Timed :=
  match out with
  | .idle => s
  | .failed f => { s with w := { s.w with admin := f }, running := false }
  | .send f c =>
    match ZkdvrfPre.exec M.env s.w.p ⟨o, 0⟩ c with
    | none => { s with w := { s.w with admin := f }, now := mined, running := false }
    | some p' =>
      match c with
      | .initiateRandom => { s with
          w := { s.w with p := p', admin := f }
          now := mined
          last := mined
          openings := s.openings ++ [(s.now, mined)] }
      | _ => { s with w := { s.w with p := p', admin := f }, now := mined }

end Verif.Services
