import Verif.Model.Services
import Verif.Spec.ContractPre

/-! Vocabulary for statements about the services: histories and their assumptions. -/

namespace Verif.Services
open ZkdvrfPre (State Added Completed)

/-- Number of transactions sent. -/
def Out.sent : Out → ℕ
  | .send _ _ => 1
  | _ => 0

/-- `w'` comes from `w` by passes of the admin service (wallet `o`) and of the node services (wallets
`ws`), in any order and with any randomness, and by transactions of anybody else. -/
inductive Run (M : Machine) (o : Address) (ws : List Address) (w : World) : World → Prop
  | refl : Run M o ws w w
  | node {w'} (a : Address) (d : Draw) (ha : a ∈ ws) (h : Run M o ws w w') :
      Run M o ws w (w'.nodeStep M a d)
  | admin {w'} (begun : Bool) (h : Run M o ws w w') :
      Run M o ws w (w'.adminStep M o (adminPass M w'.p w'.admin begun))
  | tick {w'} (begun elapsed : Bool) (h : Run M o ws w w') :
      Run M o ws w (w'.adminStep M o (adminTick w'.p w'.admin begun elapsed))
  | other {w'} (m : Msg) (c : Zkdvrf.Call) (h0 : m.sender ≠ 0) (ho : m.sender ≠ o)
      (hn : m.sender ∉ ws) (h : Run M o ws w w') :
      Run M o ws w { w' with p := ZkdvrfPre.step M.env w'.p (.call m c) }

/-- A deployed contract before its first round, owned by the admin, whose added nodes are among `ws`. -/
structure Deployed (M : Machine) (o : Address) (ws : List Address) (p : State) : Prop where
  reachable : ZkdvrfPre.Reachable M.env p
  owner : p.owner = o
  owner_ne : o ≠ 0
  threshold : 1 ≤ p.threshold
  added : ∀ a, Added p a → a ∈ ws
  nonzero : ∀ a ∈ ws, a ≠ 0
  before : p.currentRoundNum = 0

/-- The proof system does its job for `t` of `n`: the check of the contract is sound, every instance with
which the circuit can be satisfied (with usable auxiliary points) is proved by the prover, and such
proofs are accepted by the client and by the contract.  Keccak never returns zero. -/
structure Faithful (M : Machine) (t n : ℕ) (aux1 : G1) (aux2 : G2) : Prop where
  sound : Spec.SnarkSound M.env t n
  table1 : Spec.TableFits 3 g1 aux1
  order2 : r • aux2 = 0
  table2 : Spec.TableFits 3 g2 aux2
  proves : ∀ ins, DkgCircuit.synthesize ⟨t, n⟩ aux1 aux2 ins →
    ∃ pr, M.prover ins = some pr ∧ M.verifier pr ins = true ∧
      M.env.verifyProof pr (wordsOf ins) = some true
  hash : ∀ b, M.env.keccak b ≠ 0

/-- Random values that work: nonzero secret and encryption randomness, and a polynomial whose values
the circuit can handle (all but a negligible part of them, see `C29_few_unusable_scalars`). -/
structure GoodDraw (t n : ℕ) (aux1 : G1) (aux2 : G2) (d : Draw) : Prop where
  sk : d.sk ≠ 0
  enc : d.stream t ≠ 0
  use1 : Spec.Usable g1 aux1 (d.stream 0)
  use2 : Spec.Usable g2 aux2 (d.stream 0)
  shares : ∀ i, 1 ≤ i → i ≤ n →
    Spec.Usable g1 aux1 (Spec.poly ((List.range t).map d.stream) (i : Fr))

/-- A contract just set up for the services: `ws` are the `n` nodes, all added, none registered yet, and
no deposit is asked. -/
structure Fresh (M : Machine) (o : Address) (ws : List Address) (t n : ℕ) (p : State) : Prop where
  reachable : ZkdvrfPre.Reachable M.env p
  owner : p.owner = o
  owner_ne : o ≠ 0
  threshold : p.threshold = t
  members : p.memberCount = n
  t_pos : 1 ≤ t
  t_le : t ≤ n
  phase : p.contractPhase = .Unregistered
  keys : p.pkList = []
  deposit : p.minNodeDeposit = 0
  nodup : ws.Nodup
  length : ws.length = n
  added : ∀ a, Added p a ↔ a ∈ ws

/-- `w'` comes from `w` by passes of the services in any order, with `N` transactions sent.  The draws
are good, and the configured interval between rounds never elapses before the open round is complete. -/
inductive Honest (M : Machine) (o : Address) (ws : List Address) (t n : ℕ) (aux1 : G1) (aux2 : G2)
    (w : World) : ℕ → World → Prop
  | refl : Honest M o ws t n aux1 aux2 w 0 w
  | node {N w'} (a : Address) (d : Draw) (ha : a ∈ ws) (hd : GoodDraw t n aux1 aux2 d)
      (h : Honest M o ws t n aux1 aux2 w N w') :
      Honest M o ws t n aux1 aux2 w (N + (nodePass M w'.p a (w'.node a) d).sent) (w'.nodeStep M a d)
  | admin {N w'} (begun : Bool) (h : Honest M o ws t n aux1 aux2 w N w') :
      Honest M o ws t n aux1 aux2 w (N + (adminPass M w'.p w'.admin begun).sent)
        (w'.adminStep M o (adminPass M w'.p w'.admin begun))
  | tick {N w'} (begun elapsed : Bool)
      (he : elapsed = true → Completed w'.p w'.p.currentRoundNum)
      (h : Honest M o ws t n aux1 aux2 w N w') :
      Honest M o ws t n aux1 aux2 w (N + (adminTick w'.p w'.admin begun elapsed).sent)
        (w'.adminStep M o (adminTick w'.p w'.admin begun elapsed))

/-- Nothing to do, or a transaction that the contract accepts. -/
def Fine (M : Machine) (p : State) (a : Address) : Out → Prop
  | .idle => True
  | .failed _ => False
  | .send _ c => ∃ p', ZkdvrfPre.exec M.env p ⟨a, 0⟩ c = some p'

end Verif.Services
