import Verif.Model.Clock
import Verif.Spec.Services

/-! Vocabulary for statements about the clock of the admin service. -/

namespace Verif.Services
open ZkdvrfPre (State Completed)

/-- `s'` comes from `s` as time passes: passes of the admin (wallet `o`, start date and interval as given) and of the
nodes `ws` and transactions of others than the admin, in any order and at any times.  The admin is not restarted. -/
inductive TimedRun (M : Machine) (o : Address) (ws : List Address) (startDate interval : ℤ) (s : Timed) :
    Timed → Prop
  | refl : TimedRun M o ws startDate interval s s
  | wait {s'} (now : ℕ) (hn : s'.now ≤ now) (h : TimedRun M o ws startDate interval s s') :
      TimedRun M o ws startDate interval s { s' with now := now }
  | node {s'} (a : Address) (d : Draw) (ha : a ∈ ws) (h : TimedRun M o ws startDate interval s s') :
      TimedRun M o ws startDate interval s { s' with w := s'.w.nodeStep M a d }
  | other {s'} (m : Msg) (c : Zkdvrf.Call) (ho : m.sender ≠ o) (h : TimedRun M o ws startDate interval s s') :
      TimedRun M o ws startDate interval s
        { s' with w := { s'.w with p := ZkdvrfPre.step M.env s'.w.p (.call m c) } }
  | admin {s'} (mined : ℕ) (hm : s'.now ≤ mined) (hr : s'.running = true)
      (h : TimedRun M o ws startDate interval s s') :
      TimedRun M o ws startDate interval s
        (s'.adminDo M o (adminPass M s'.w.p s'.w.admin (begunAt startDate s'.now)) mined)
  | tick {s'} (mined : ℕ) (hm : s'.now ≤ mined) (hr : s'.running = true)
      (h : TimedRun M o ws startDate interval s s') :
      TimedRun M o ws startDate interval s
        (s'.adminDo M o (adminTick s'.w.p s'.w.admin (begunAt startDate s'.now)
          (elapsedAt interval s'.last s'.now)) mined)

/-- The same with all nodes honest and fast: whenever the admin looks at its timer and at least `interval + 1` seconds
have passed since the opening of the current round was confirmed, that round is complete. -/
inductive TimedHonest (M : Machine) (o : Address) (ws : List Address) (t n : ℕ) (aux1 : G1) (aux2 : G2)
    (startDate interval : ℤ) (s : Timed) : Timed → Prop
  | refl : TimedHonest M o ws t n aux1 aux2 startDate interval s s
  | wait {s'} (now : ℕ) (hn : s'.now ≤ now) (h : TimedHonest M o ws t n aux1 aux2 startDate interval s s') :
      TimedHonest M o ws t n aux1 aux2 startDate interval s { s' with now := now }
  | node {s'} (a : Address) (d : Draw) (ha : a ∈ ws) (hd : GoodDraw t n aux1 aux2 d)
      (h : TimedHonest M o ws t n aux1 aux2 startDate interval s s') :
      TimedHonest M o ws t n aux1 aux2 startDate interval s { s' with w := s'.w.nodeStep M a d }
  | admin {s'} (mined : ℕ) (hm : s'.now ≤ mined) (hr : s'.running = true)
      (h : TimedHonest M o ws t n aux1 aux2 startDate interval s s') :
      TimedHonest M o ws t n aux1 aux2 startDate interval s
        (s'.adminDo M o (adminPass M s'.w.p s'.w.admin (begunAt startDate s'.now)) mined)
  | tick {s'} (mined : ℕ) (hm : s'.now ≤ mined) (hr : s'.running = true)
      (hfast : s'.w.p.currentRoundNum ≠ 0 → (s'.last : ℤ) + 1000 * (interval + 1) ≤ s'.now →
        Completed s'.w.p s'.w.p.currentRoundNum)
      (h : TimedHonest M o ws t n aux1 aux2 startDate interval s s') :
      TimedHonest M o ws t n aux1 aux2 startDate interval s
        (s'.adminDo M o (adminTick s'.w.p s'.w.admin (begunAt startDate s'.now)
          (elapsedAt interval s'.last s'.now)) mined)

end Verif.Services
