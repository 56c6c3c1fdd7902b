import Verif.Model.ZkdvrfPre
import Verif.Spec.Contract

/-! Vocabulary for statements about contracts/zkdvrf_pre.sol, as in `Verif.Spec.Contract`. -/

namespace Verif.ZkdvrfPre
open Zkdvrf (Tx)

/-- `s'` comes after `s`. -/
inductive Later (env : Env) (s : State) : State → Prop
  | refl : Later env s s
  | step {s'} (tx : Tx) (hv : tx.valid) (h : Later env s s') : Later env s (step env s' tx)

/-- Position of a phase in the life of the contract. -/
def Phase.rank : Phase → ℕ
  | .Unregistered => 0
  | .Registered => 1
  | .Nidkg => 2
  | .NidkgComplete => 3
  | .Ready => 4

/-- The owner has added this address. -/
def Added (s : State) (a : Address) : Prop := (s.addrToNode a).nodeAddress ≠ 0

/-- This address has registered. -/
def Registered (s : State) (a : Address) : Prop := (s.addrToNode a).status = true

/-- Index of a registered node in the key list (0-based). -/
def indexOf (s : State) (a : Address) : ℕ := (s.addrToNode a).pkIndex

/-- A random is stored for round `k`. -/
def Completed (s : State) (k : ℕ) : Prop := (s.roundToRandom k).value ≠ 0

/-- A partial evaluation is stored for round `k` and index `i`. -/
def Submitted (s : State) (k i : ℕ) : Prop := (s.roundToEval k i).indexPlus ≠ 0

/-- State after a list of events. -/
noncomputable def run (env : Env) (s : State) (txs : List Tx) : State := txs.foldl (step env) s

end Verif.ZkdvrfPre
