import Mathlib.LinearAlgebra.Matrix.Determinant.Basic
import Verif.Lemmas.Primes

/-!
Specification of a Poseidon permutation of width 3 in the words of the Poseidon paper: in round `k`
add the `k`-th row of constants, raise to the fifth power (all words in the first and last
`rf / 2` rounds, only the first word in the `rp` rounds between), multiply by the matrix.
-/

namespace Verif.Spec.Poseidon

/-- One round. -/
def round (m : Matrix (Fin 3) (Fin 3) Fr) (full : Bool) (c : Fin 3 → Fr) (s : Fin 3 → Fr) :
    Fin 3 → Fr :=
  m.mulVec (fun i => if full ∨ i = 0 then (s i + c i) ^ 5 else s i + c i)

/-- The state after `k` rounds out of `rf + rp`. -/
def after (m : Matrix (Fin 3) (Fin 3) Fr) (rf rp : ℕ) (c : ℕ → Fin 3 → Fr) :
    ℕ → (Fin 3 → Fr) → Fin 3 → Fr
  | 0, s => s
  | k + 1, s =>
    round m (decide (k < rf / 2 ∨ rf / 2 + rp ≤ k)) (c k) (after m rf rp c k s)

end Verif.Spec.Poseidon
