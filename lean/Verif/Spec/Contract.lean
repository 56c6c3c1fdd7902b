import Verif.Model.Zkdvrf
import Verif.Spec.Dealing
import Verif.Model.DkgCircuit

/-! Vocabulary for statements about the life of the contract: histories, the order of the phases,
who is who. -/

namespace Verif.Zkdvrf

/-- `s'` comes after `s`: some finite sequence of events leads from `s` to `s'`. -/
inductive Later (env : Env) (s : State) : State → Prop
  | refl : Later env s s
  | step {s'} (tx : Tx) (hv : tx.valid) (h : Later env s s') : Later env s (step env s' tx)

/-- Position of a phase in the life of the contract. -/
def Phase.rank : Phase → ℕ
  | .Unregistered => 0
  | .Nidkg => 1
  | .NidkgComplete => 2
  | .Ready => 3

/-- The owner has added this address. -/
def Added (s : State) (a : Address) : Prop := (s.addrToNode a).nodeAddress ≠ 0

/-- This address has registered. -/
def Registered (s : State) (a : Address) : Prop := (s.addrToNode a).status = true

/-- Index of a registered node in the key list (0-based). -/
def indexOf (s : State) (a : Address) : ℕ := (s.addrToNode a).pkIndex

/-- A random is stored for round `k`. -/
def Completed (s : State) (k : ℕ) : Prop := (s.roundToRandom k).value ≠ 0

/-- A partial evaluation is stored for round `k` and index `i`. -/
def Submitted (s : State) (k i : ℕ) : Prop := (s.roundToEval k i).indexPlus ≠ 0

/-- Ether forced into the contract by an event. -/
def forced : Tx → ℕ
  | .forceEther a => a
  | .call _ _ => 0

/-- State after a list of events. -/
noncomputable def run (env : Env) (s : State) (txs : List Tx) : State := txs.foldl (step env) s

/-- Key words of a finite Grumpkin point (`coords`), as the members' clients submit them. -/
def keyWords (P : Gk) : GrumpkinSol.Point := ⟨wordOf (coords P).1, wordOf (coords P).2⟩

end Verif.Zkdvrf

namespace Verif.Spec

/-- The on-chain proof check is sound for the DKG circuit (for some constants used as auxiliary
points): an accepted instance of the right length is one with which the circuit can be satisfied. -/
def SnarkSound (env : Env) (t n : ℕ) : Prop := ∃ (auxG1 : G1) (auxG2 : G2),
  ∀ proof pp, env.verifyProof proof pp = some true → pp.length = 7 * n + 14 →
    ∃ ins, pp = wordsOf ins ∧ DkgCircuit.synthesize ⟨t, n⟩ auxG1 auxG2 ins

/-- The proof system is complete for the DKG circuit (with auxiliary points for which the tables can
be assigned): every instance with which the circuit can be satisfied has an accepted proof. -/
def SnarkComplete (env : Env) (t n : ℕ) : Prop := ∃ (auxG1 : G1) (auxG2 : G2),
  TableFits 3 g1 auxG1 ∧ r • auxG2 = 0 ∧ TableFits 3 g2 auxG2 ∧
  ∀ ins, DkgCircuit.synthesize ⟨t, n⟩ auxG1 auxG2 ins →
    ∃ proof, env.verifyProof proof (wordsOf ins) = some true

/-- The coordinates of the `n + 1` G1 points at the start of an instance are reduced modulo `q`. -/
def Reduced (n : ℕ) (w : List Word) : Prop := ∀ k < 2 * (n + 1),
  (w.getD (2 * k) 0).toNat + 2 ^ 136 * (w.getD (2 * k + 1) 0).toNat < q

end Verif.Spec
