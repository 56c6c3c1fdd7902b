import Verif.Model.Overlap
import Verif.Spec.Services

/-! Vocabulary for statements about services whose passes overlap. -/

namespace Verif.Services
open ZkdvrfPre (State Completed indexOf)

/-- If the transaction `c` of `a`, made in round `k`, is an evaluation that the contract accepts in another
round, then it is the right one there too (the proof of equal logarithms was made for the input of round `k`;
that it passes for another input without being right has negligible probability). -/
def NoLuck (M : Machine) (p : State) (a : Address) (k : ℕ) (c : Zkdvrf.Call) : Prop :=
  ∀ e, c = .submitPartialEval e → k ≠ p.currentRoundNum →
    (∃ p', ZkdvrfPre.exec M.env p ⟨a, 0⟩ c = some p') →
    ∀ v V, decodeG1 e.value = some v → p.vkList[indexOf p a]? = some (encodeG1 V) →
      Spec.SameLog (evalHash M.env.keccak (p.roundInput p.currentRoundNum)) V v

/-- `w'` comes from `w` by steps of the services in any order: the passes of the admin (wallet `o`) and of the
nodes `ws` overlap in any way.  The draws are good, and the configured interval between rounds never elapses
before the open round is complete. -/
inductive Overlapping (M : Machine) (o : Address) (ws : List Address) (t n : ℕ) (aux1 : G1) (aux2 : G2)
    (w : Overlap) : Overlap → Prop
  | refl : Overlapping M o ws t n aux1 aux2 w w
  | look {w'} (a : Address) (ha : a ∈ ws) (h : Overlapping M o ws t n aux1 aux2 w w') :
      Overlapping M o ws t n aux1 aux2 w (w'.look a)
  | fetch {w'} (a : Address) (d : Draw) (ha : a ∈ ws) (hd : GoodDraw t n aux1 aux2 d)
      (h : Overlapping M o ws t n aux1 aux2 w w') :
      Overlapping M o ws t n aux1 aux2 w (w'.fetch M a d)
  | land {w'} (a : Address) (ha : a ∈ ws) (hl : ∀ c k, w'.nodeAt a = .sent c k → NoLuck M w'.p a k c)
      (h : Overlapping M o ws t n aux1 aux2 w w') :
      Overlapping M o ws t n aux1 aux2 w (w'.land M a)
  | adminLook {w'} (begun : Bool) (h : Overlapping M o ws t n aux1 aux2 w w') :
      Overlapping M o ws t n aux1 aux2 w (w'.adminDecide (adminLook w'.p begun))
  | adminTick {w'} (begun elapsed : Bool)
      (he : elapsed = true → Completed w'.p w'.p.currentRoundNum)
      (h : Overlapping M o ws t n aux1 aux2 w w') :
      Overlapping M o ws t n aux1 aux2 w (w'.adminDecide (adminTickLook w'.p begun elapsed))
  | adminFetch {w'} (h : Overlapping M o ws t n aux1 aux2 w w') :
      Overlapping M o ws t n aux1 aux2 w (w'.adminFetch M)
  | adminLand {w'} (h : Overlapping M o ws t n aux1 aux2 w w') :
      Overlapping M o ws t n aux1 aux2 w (w'.adminLand M o)

/-- One step of a service: what `Overlapping` allows to be done at a time. -/
inductive OverlapStep (M : Machine) (o : Address) (ws : List Address) (t n : ℕ) (aux1 : G1) (aux2 : G2)
    (w : Overlap) : Overlap → Prop
  | look (a : Address) (ha : a ∈ ws) : OverlapStep M o ws t n aux1 aux2 w (w.look a)
  | fetch (a : Address) (d : Draw) (ha : a ∈ ws) (hd : GoodDraw t n aux1 aux2 d) :
      OverlapStep M o ws t n aux1 aux2 w (w.fetch M a d)
  | land (a : Address) (ha : a ∈ ws) (hl : ∀ c k, w.nodeAt a = .sent c k → NoLuck M w.p a k c) :
      OverlapStep M o ws t n aux1 aux2 w (w.land M a)
  | adminLook (begun : Bool) : OverlapStep M o ws t n aux1 aux2 w (w.adminDecide (adminLook w.p begun))
  | adminTick (begun elapsed : Bool) (he : elapsed = true → Completed w.p w.p.currentRoundNum) :
      OverlapStep M o ws t n aux1 aux2 w (w.adminDecide (adminTickLook w.p begun elapsed))
  | adminFetch : OverlapStep M o ws t n aux1 aux2 w (w.adminFetch M)
  | adminLand : OverlapStep M o ws t n aux1 aux2 w (w.adminLand M o)

end Verif.Services
