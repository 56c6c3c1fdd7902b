import Verif.Model.ClientDkg
import Verif.Spec.Contract

/-! What it means that a vector of words was made by the client from a stream of random values. -/

namespace Verif.Spec
open Verif Zkdvrf

/-- The words are those that the services submit from the instance file of `dkg prove`, run with some
prover and any index on the file of the keys, with the random stream `draw`. -/
def ProvedBy (t n : ℕ) (keys : List GrumpkinSol.Point) (draw : ℕ → Fr) (w : List Word) : Prop :=
  ∃ (prover : List Fr → Option (List Byte)) (infPanics : Bool) (index : ℕ) (proof : List Byte)
    (file : List (List Char)),
    Client.prove prover infPanics ⟨t, n⟩ index (Client.mpksFile keys) draw = .ok (proof, file) ∧
    Client.ppSubmission file = some w

end Verif.Spec
