import Verif.Spec.ServicesProofs
import Verif.Spec.LayoutExact
import Verif.Spec.LayoutHonest
import Verif.Model.Halo2Verifier
import Verif.Model.LayoutProver

/-! Vocabulary for statements about services with the deployed verifier and an honest prover. -/

namespace Verif.Spec
open Layout DkgCircuit Polynomial

/-- The check of the contract is the deployed verifier (`sel`, `addr`: how it is called) with the key `V`, whose
columns are `K` and whose structured reference string belongs to the secret `s`; the key belongs exactly to the layout
`S` of the circuit for `t` of `n`, with its regions at `start` and the integer chip `J`. -/
structure DeployedVerifier (env : Env) (t n : ℕ) (aux1 : G1) (aux2 : G2) (V : Halo2.Key) (K : Halo2.KeyPolys)
    (J : IntegerImpl) (S : Shape) (start : ℕ → ℕ) (s : Fr) (sel : List Byte) (addr : Word) : Prop where
  valid : V.Valid
  bound : K.Bound (V.n - 1)
  permutes : K.Permutes V
  instances : V.instances ≤ V.n
  complete : ∀ inp inst, ∃ Is, J.Complete ⟨inp, inst, keyRange V K⟩ Is
  layout : Layout.layout J ⟨t, n⟩ aux1 aux2 = some (S, V.instances)
  exact : RealizesExactly V K S start
  keyFor : Halo2.KeyFor V s K
  selector : sel.length = 4
  verifies : env.verifyProof = Verif.Halo2.verifyProof env.E env.keccak V.words sel addr

/-- `Q` holds for the proofs that honest provers make for the dealing `mp` with the instance `ins`, whatever they
draw, with few exceptions: all but few auxiliary points `A`, any values `rows` in the rows for blinding, any blinding
`b`, all but few challenges. -/
def ForHonestProofs (keccak : List Byte → Word) (t n : ℕ) (aux1 : G1) (aux2 : G2) (V : Halo2.Key) (K : Halo2.KeyPolys)
    (J : IntegerImpl) (S : Shape) (start : ℕ → ℕ) (s : Fr) (mp : DkgMemberParams) (ins : List Fr)
    (Q : List Byte → Prop) : Prop :=
  ∃ bad : Finset Gk, bad.card ≤ 510 * (n + 1) + 1 ∧ ∀ A ∉ bad, ∀ rows : Fin 5 → ℕ → Fr, ∃ inp T advice,
    circuitOf mp A = some inp ∧
    honestTable J ⟨t, n⟩ aux1 aux2 inp ins (keyRange V K) (fun _ => 0) = some (S, T) ∧
    (∀ c, S.Reads c → (tableOf V K start advice ins).cell c = T.cell c) ∧
    (∀ j i, V.usable ≤ i → i < V.n → (advice j).eval (V.omega ^ i) = rows j i) ∧
    ∃ (Bβ : Fr → Finset Fr) (Bγ : Fr → Fr → Finset Fr), (∀ theta, (Bβ theta).card ≤ 5 * V.usable) ∧
      (∀ theta beta, (Bγ theta beta).card ≤ 10 * V.usable) ∧
      ∀ b : Halo2.Blinding, b.random.natDegree ≤ V.n - 1 → ∃ P : Halo2.Prover, P.advice = advice ∧ P.Blinded V b ∧
        (∃! C : Halo2.Challenges, Halo2.challengesOf keccak V ins (P.proof s C).words = C) ∧
        ∀ C : Halo2.Challenges, Halo2.challengesOf keccak V ins (P.proof s C).words = C →
          C.Good V → C.beta ∉ Bβ C.theta → C.gamma ∉ Bγ C.theta C.beta → (P.proof s C).Finite →
            Q (P.proof s C).bytes

/-- The draw `d` with another secret. -/
def withSecret (d : Services.Draw) (b : Fr) : Services.Draw := { d with stream := Function.update d.stream 0 b }

end Verif.Spec
