import Verif.Spec.OverlapOthers
import Verif.Spec.History

/-! Vocabulary for statements about honest node services among others, with any proof system. -/

namespace Verif.Services
open ZkdvrfPre (State Registered)

/-- One step as in `MixedStep`, when every submission of parameters by somebody else that the contract accepts is `good`. -/
inductive MixedGuardedStep (M : Machine) (good : List Byte → List Word → Prop) (H : Set Address) (t n : ℕ) (aux1 : G1)
    (aux2 : G2) (s : Survivors) : Survivors → Prop
  | look (a : Address) (ha : a ∈ H) : MixedGuardedStep M good H t n aux1 aux2 s ⟨s.w.look a, s.left⟩
  | fetch (a : Address) (d : Draw) (ha : a ∈ H) (hd : GoodDraw t n aux1 aux2 d) :
      MixedGuardedStep M good H t n aux1 aux2 s ⟨s.w.fetch M a d, s.left⟩
  | land (a : Address) (ha : a ∈ H) (hl : ∀ c k, s.w.nodeAt a = .sent c k → NoLuck M s.w.p a k c) :
      MixedGuardedStep M good H t n aux1 aux2 s ⟨s.w.land M a, s.left⟩
  | mine (i : ℕ) (hl : ∀ a c k, s.left[i]? = some (a, c, k) → NoLuck M s.w.p a k c) :
      MixedGuardedStep M good H t n aux1 aux2 s (s.mine M i)
  | restart (a : Address) (lost : Bool) (ha : a ∈ H)
      (hr : ∀ pk k, s.w.nodeAt a = .sent (.registerNode pk) k → lost = true) :
      MixedGuardedStep M good H t n aux1 aux2 s (s.restart a lost)
  | other (tx : Zkdvrf.Tx) (hv : tx.valid) (hn : ∀ m c, tx = .call m c → m.sender ∉ H)
      (hg : ∀ m pp pr p', tx = .call m (.submitPublicParams pp pr) →
        ZkdvrfPre.exec M.env s.w.p m (.submitPublicParams pp pr) = some p' → good pr pp) :
      MixedGuardedStep M good H t n aux1 aux2 s ⟨{ s.w with p := ZkdvrfPre.step M.env s.w.p tx }, s.left⟩

/-- `s'` comes from `s` by such steps. -/
def MixedGuarded (M : Machine) (good : List Byte → List Word → Prop) (H : Set Address) (t n : ℕ) (aux1 : G1) (aux2 : G2) :
    Survivors → Survivors → Prop :=
  Relation.ReflTransGen (MixedGuardedStep M good H t n aux1 aux2)

/-- A deployed contract, for `t` of `n`, reached by a history in which every accepted submission of parameters is
`good`, and with which none of the wallets in `H` has registered yet. -/
structure BeforeGuarded (M : Machine) (good : List Byte → List Word → Prop) (H : Set Address) (t n : ℕ) (p : State) : Prop where
  reachable : ZkdvrfPre.GuardedHistory M.env good p
  threshold : p.threshold = t
  members : p.memberCount = n
  t_pos : 1 ≤ t
  n_pos : 1 ≤ n
  nonzero : ∀ a ∈ H, a ≠ 0
  unregistered : ∀ a ∈ H, ¬ Registered p a

/-- Submissions of public inputs with which the circuit for `t` of `n` can be satisfied, whatever the proof. -/
def Satisfiable (t n : ℕ) (aux1 : G1) (aux2 : G2) (_pr : List Byte) (pp : List Word) : Prop :=
  ∃ ins, pp = wordsOf ins ∧ DkgCircuit.synthesize ⟨t, n⟩ aux1 aux2 ins

end Verif.Services
