import Verif.Spec.OverlapKill
import Verif.Spec.ServicesProofs

/-! Vocabulary for statements about some honest node services among others that do anything. -/

namespace Verif.Services
open ZkdvrfPre (State Registered)

/-- One step when the wallets in `H` are those of node services, which may be killed and started again, and
everybody else - the owner, the other members, outsiders - sends any transactions at any time. -/
inductive MixedStep (M : Machine) (H : Set Address) (t n : ℕ) (aux1 : G1) (aux2 : G2) (s : Survivors) :
    Survivors → Prop
  | look (a : Address) (ha : a ∈ H) : MixedStep M H t n aux1 aux2 s ⟨s.w.look a, s.left⟩
  | fetch (a : Address) (d : Draw) (ha : a ∈ H) (hd : GoodDraw t n aux1 aux2 d) :
      MixedStep M H t n aux1 aux2 s ⟨s.w.fetch M a d, s.left⟩
  | land (a : Address) (ha : a ∈ H) (hl : ∀ c k, s.w.nodeAt a = .sent c k → NoLuck M s.w.p a k c) :
      MixedStep M H t n aux1 aux2 s ⟨s.w.land M a, s.left⟩
  | mine (i : ℕ) (hl : ∀ a c k, s.left[i]? = some (a, c, k) → NoLuck M s.w.p a k c) :
      MixedStep M H t n aux1 aux2 s (s.mine M i)
  | restart (a : Address) (lost : Bool) (ha : a ∈ H)
      (hr : ∀ pk k, s.w.nodeAt a = .sent (.registerNode pk) k → lost = true) :
      MixedStep M H t n aux1 aux2 s (s.restart a lost)
  | other (tx : Zkdvrf.Tx) (hv : tx.valid) (hn : ∀ m c, tx = .call m c → m.sender ∉ H) :
      MixedStep M H t n aux1 aux2 s ⟨{ s.w with p := ZkdvrfPre.step M.env s.w.p tx }, s.left⟩

/-- `s'` comes from `s` by such steps. -/
def Mixed (M : Machine) (H : Set Address) (t n : ℕ) (aux1 : G1) (aux2 : G2) : Survivors → Survivors → Prop :=
  Relation.ReflTransGen (MixedStep M H t n aux1 aux2)

/-- A deployed contract, for `t` of `n`, with which none of the wallets in `H` has registered yet. -/
structure Before (M : Machine) (H : Set Address) (t n : ℕ) (p : State) : Prop where
  reachable : ZkdvrfPre.Reachable M.env p
  threshold : p.threshold = t
  members : p.memberCount = n
  t_pos : 1 ≤ t
  n_pos : 1 ≤ n
  nonzero : ∀ a ∈ H, a ≠ 0
  unregistered : ∀ a ∈ H, ¬ Registered p a

/-- Every registered key is written in the form in which the contract's users write it (a member can register
another form of its key, see `C51`). -/
def Canonical (p : State) : Prop := ∃ pks : List Gk, p.pkList = pks.map Zkdvrf.keyWords

end Verif.Services
