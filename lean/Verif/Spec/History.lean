import Verif.Model.ZkdvrfPre
import Verif.Spec.Contract
import Verif.Spec.Halo2Poly
import Verif.Spec.Dealing

/-! Histories of the contracts in which every successful submission of public parameters has a given property. -/

namespace Verif.Zkdvrf

/-- States reached from a deployment by a history in which every submission of public parameters that succeeds is `good`. -/
inductive GuardedHistory (env : Env) (good : List Byte → List Word → Prop) : State → Prop
  | deploy {m t n a b c d s} (hm : m.sender ≠ 0) (h : constructor m t n a b c d = some s) : GuardedHistory env good s
  | step {s} (tx : Tx) (hv : tx.valid) (h : GuardedHistory env good s)
      (hg : ∀ m pp pr s', tx = .call m (.submitPublicParams pp pr) → exec env s m (.submitPublicParams pp pr) = some s' → good pr pp) :
      GuardedHistory env good (step env s tx)

end Verif.Zkdvrf

namespace Verif.ZkdvrfPre

/-- The same for zkdvrf_pre. -/
inductive GuardedHistory (env : Env) (good : List Byte → List Word → Prop) : State → Prop
  | deploy {m t n o a b c d s} (h : constructor m t n o a b c d = some s) : GuardedHistory env good s
  | step {s} (tx : Zkdvrf.Tx) (hv : tx.valid) (h : GuardedHistory env good s)
      (hg : ∀ m pp pr s', tx = .call m (.submitPublicParams pp pr) → exec env s m (.submitPublicParams pp pr) = some s' → good pr pp) :
      GuardedHistory env good (step env s tx)

end Verif.ZkdvrfPre

namespace Verif.Spec

/-- The keys of a finished setup come from the submitted words `ppList`: these are instances of dealings to the registered keys,
the group key is the sum of the dealt secrets (in G2), and the verification key of the member at position `j` the sum of
the shares dealt to it (in G1). -/
def KeysFrom (t n : ℕ) (pkList : List GrumpkinSol.Point) (ppList : List (List Word)) (vkList : List SolG1) (gpk : SolG2) : Prop :=
  ∃ ds : List (List Fr × ℕ),
    List.Forall₂ (fun d w => d.1.length = t ∧ d.2 < 2 ^ 254 ∧ ¬ q ∣ d.2 ∧ ∃ (pks : List Gk) (ins : List Fr),
      pkList = pks.map Zkdvrf.keyWords ∧ (∀ pk ∈ pks, pk ≠ 0) ∧ DealingCells n d.1 d.2 pks ins ∧ w = wordsOf ins) ds ppList ∧
    gpk = encodeG2 (smul2 (ds.map fun d => poly d.1 0).sum g2) ∧
    vkList = (List.range n).map fun j => encodeG1 ((ds.map fun d => poly d.1 ((j + 1 : ℕ) : Fr)).sum • g1)

end Verif.Spec

namespace Verif.Spec.Halo2
open Polynomial

/-- A submission of words and proof made by a prover with polynomials: the proof consists of commitments of polynomials
of degree at most `D` with the secret `s` of the setup, no challenge is an exception, and the prover does not know
a nonzero polynomial that vanishes at the secret: the one that the opening check is about. -/
def Clean (keccak : Keccak) (V : Key) (s : Fr) (K : KeyPolys) (D : ℕ) (B : List Fr → Exceptions) (pr : List Byte) (pp : List Word) :
    Prop :=
  ∃ (inst : List Fr) (P : Polys) (e : Evals) (w w' : Fr[X]), pp = wordsOf inst ∧ pr = (proofOf s P e w w').bytes ∧
    P.Bound D ∧ w.natDegree ≤ D ∧ ¬ (B inst).Hit (challengesOf keccak V inst (proofOf s P e w w').words) P e w ∧
    ¬ ∃ f : Fr[X], f ≠ 0 ∧ f.eval s = 0 ∧ f = openPoly V K (challengesOf keccak V inst (proofOf s P e w w').words) inst P e w w'

end Verif.Spec.Halo2
