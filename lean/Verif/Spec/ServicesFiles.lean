import Verif.Model.ServicesFiles
import Verif.Spec.Services

/-! Vocabulary for statements about services that keep their data in files and can be stopped at any
point: histories and their assumptions. -/

namespace Verif.ServicesFiles
open Disk Disk.Prog
open Services (Machine Draw GoodDraw)
open ZkdvrfPre (State Completed)
open Zkdvrf (Call)

/-- Number of transactions sent by a pass. -/
def sent : Except Stop (Option Call) → ℕ
  | .ok (some _) => 1
  | _ => 0

/-- Nothing to do, or a transaction that the contract accepts. -/
def Fine (M : Machine) (p : State) (a : Address) : Except Stop (Option Call) → Prop
  | .ok none => True
  | .ok (some c) => ∃ p', ZkdvrfPre.exec M.env p ⟨a, 0⟩ c = some p'
  | .error _ => False

/-- `w'` comes from `w` by passes of the services in any order, with `N` transactions sent.  Every service
has its own data directory.  A service may be stopped at any point of a pass before the transaction (and
started again), whatever it drew.  The draws of complete passes are good, and the configured interval
between rounds never elapses before the open round is complete. -/
inductive Honest (M : Machine) (o : Address) (ws : List Address) (t n : ℕ) (aux1 : G1) (aux2 : G2)
    (w : World) : ℕ → World → Prop
  | refl : Honest M o ws t n aux1 aux2 w 0 w
  | node {N w'} (a : Address) (d : Draw) (ha : a ∈ ws) (hd : GoodDraw t n aux1 aux2 d)
      (h : Honest M o ws t n aux1 aux2 w N w') :
      Honest M o ws t n aux1 aux2 w (N + sent ((nodePass M w'.p a d).run (w'.node a)).2) (w'.nodeStep M a d)
  | nodeStopped {N w'} (a : Address) (d : Draw) (s : Store)
      (hs : Stopped (nodePass M w'.p a d) (w'.node a) s) (h : Honest M o ws t n aux1 aux2 w N w') :
      Honest M o ws t n aux1 aux2 w N { w' with node := Function.update w'.node a s }
  | admin {N w'} (d : Draw) (begun : Bool) (h : Honest M o ws t n aux1 aux2 w N w') :
      Honest M o ws t n aux1 aux2 w (N + sent ((adminPass M w'.p d begun).run w'.admin).2)
        (w'.adminStep M o d begun)
  | adminStopped {N w'} (d : Draw) (begun : Bool) (s : Store)
      (hs : Stopped (adminPass M w'.p d begun) w'.admin s) (h : Honest M o ws t n aux1 aux2 w N w') :
      Honest M o ws t n aux1 aux2 w N { w' with admin := s }
  | tick {N w'} (begun elapsed : Bool)
      (he : elapsed = true → Completed w'.p w'.p.currentRoundNum)
      (h : Honest M o ws t n aux1 aux2 w N w') :
      Honest M o ws t n aux1 aux2 w (N + (Services.adminTick w'.p .none begun elapsed).sent)
        (w'.tickStep M o begun elapsed)

end Verif.ServicesFiles
