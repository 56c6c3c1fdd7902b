import Verif.Spec.ServicesFiles
import Verif.Spec.Contract

/-! Vocabulary for statements about services with any proof system: provers that fail, verifiers that
reject. -/

namespace Verif.ServicesFiles
open Disk Disk.Prog
open Services (Machine Draw GoodDraw)
open ZkdvrfPre (State Completed)
open Zkdvrf (Call)

/-- Number of transactions of a pass that the contract accepts. -/
noncomputable def landed (M : Machine) (p : State) (a : Address) : Except Stop (Option Call) → ℕ
  | .ok (some c) => if (ZkdvrfPre.exec M.env p ⟨a, 0⟩ c).isSome then 1 else 0
  | _ => 0

/-- The same for the end of a pass of the admin service. -/
noncomputable def landedTick (M : Machine) (p : State) (a : Address) : Services.Out → ℕ
  | .send _ c => if (ZkdvrfPre.exec M.env p ⟨a, 0⟩ c).isSome then 1 else 0
  | _ => 0

/-- `w'` comes from `w` by passes of the services in any order, as in `Honest`, with `N` transactions that
the contract accepted.  Passes may fail and transactions may be reverted (the service is then started
again). -/
inductive Accepting (M : Machine) (o : Address) (ws : List Address) (t n : ℕ) (aux1 : G1) (aux2 : G2)
    (w : World) : ℕ → World → Prop
  | refl : Accepting M o ws t n aux1 aux2 w 0 w
  | node {N w'} (a : Address) (d : Draw) (ha : a ∈ ws) (hd : GoodDraw t n aux1 aux2 d)
      (h : Accepting M o ws t n aux1 aux2 w N w') :
      Accepting M o ws t n aux1 aux2 w (N + landed M w'.p a ((nodePass M w'.p a d).run (w'.node a)).2)
        (w'.nodeStep M a d)
  | nodeStopped {N w'} (a : Address) (d : Draw) (s : Store)
      (hs : Stopped (nodePass M w'.p a d) (w'.node a) s) (h : Accepting M o ws t n aux1 aux2 w N w') :
      Accepting M o ws t n aux1 aux2 w N { w' with node := Function.update w'.node a s }
  | admin {N w'} (d : Draw) (begun : Bool) (h : Accepting M o ws t n aux1 aux2 w N w') :
      Accepting M o ws t n aux1 aux2 w (N + landed M w'.p o ((adminPass M w'.p d begun).run w'.admin).2)
        (w'.adminStep M o d begun)
  | adminStopped {N w'} (d : Draw) (begun : Bool) (s : Store)
      (hs : Stopped (adminPass M w'.p d begun) w'.admin s) (h : Accepting M o ws t n aux1 aux2 w N w') :
      Accepting M o ws t n aux1 aux2 w N { w' with admin := s }
  | tick {N w'} (begun elapsed : Bool)
      (he : elapsed = true → Completed w'.p w'.p.currentRoundNum)
      (h : Accepting M o ws t n aux1 aux2 w N w') :
      Accepting M o ws t n aux1 aux2 w (N + landedTick M w'.p o (Services.adminTick w'.p .none begun elapsed))
        (w'.tickStep M o begun elapsed)

/-- The proof system works on this instance: there is a proof, which the client and the contract accept. -/
def ProofAccepted (M : Machine) (ins : List Fr) : Prop :=
  ∃ pr, M.prover ins = some pr ∧ M.verifier pr ins = true ∧ M.env.verifyProof pr (wordsOf ins) = some true

/-- This is the instance that a node deals with the random stream of `d` for the keys registered in `p`. -/
def Deals (M : Machine) (p : State) (d : Draw) (ins : List Fr) : Prop :=
  ∃ pks mp, p.pkList = pks.map Zkdvrf.keyWords ∧
    DkgMemberParams.new Poseidon.hash2 ⟨p.threshold, p.memberCount⟩ pks d.stream = .ok mp ∧
    mp.publicParams.toInstance M.infPanics mp.publicKeys = .ok ins

/-- What is asked of the rest: auxiliary points for the tables of the circuit, and Keccak never returns
zero. -/
structure Sane (M : Machine) (aux1 : G1) (aux2 : G2) : Prop where
  table1 : Spec.TableFits 3 g1 aux1
  order2 : r • aux2 = 0
  table2 : Spec.TableFits 3 g2 aux2
  hash : ∀ b, M.env.keccak b ≠ 0

end Verif.ServicesFiles
