import Verif.Model.OverlapKill
import Verif.Spec.Overlap

/-! Vocabulary for statements about services that are killed and started again while their passes overlap. -/

namespace Verif.Services

/-- A step of a running service, or a transaction of a killed one is mined. -/
inductive SurvivorStep (M : Machine) (o : Address) (ws : List Address) (t n : ℕ) (aux1 : G1) (aux2 : G2)
    (s : Survivors) : Survivors → Prop
  | run (w' : Overlap) (h : OverlapStep M o ws t n aux1 aux2 s.w w') :
      SurvivorStep M o ws t n aux1 aux2 s ⟨w', s.left⟩
  | mine (i : ℕ) (hl : ∀ a c k, s.left[i]? = some (a, c, k) → NoLuck M s.w.p a k c) :
      SurvivorStep M o ws t n aux1 aux2 s (s.mine M i)

/-- A service is killed, or has stopped, and is started again.  A node with a registration on its way is
killed only if that will not be mined (`C91_violation_pending` says what happens otherwise). -/
inductive Restart (o : Address) (ws : List Address) (s : Survivors) : Survivors → Prop
  | node (a : Address) (lost : Bool) (ha : a ∈ ws)
      (hr : ∀ pk k, s.w.nodeAt a = .sent (.registerNode pk) k → lost = true) : Restart o ws s (s.restart a lost)
  | admin (lost : Bool) : Restart o ws s (s.restartAdmin o lost)

/-- `s'` comes from `s` by steps of the services and restarts, in any order. -/
def Surviving (M : Machine) (o : Address) (ws : List Address) (t n : ℕ) (aux1 : G1) (aux2 : G2) :
    Survivors → Survivors → Prop :=
  Relation.ReflTransGen (fun s s' => SurvivorStep M o ws t n aux1 aux2 s s' ∨ Restart o ws s s')

end Verif.Services
