import Verif.Model.Dkg

/-! Vocabulary for statements about the client's `rand combine` command. -/

namespace Verif.Spec

/-- The partial evaluation passes the library's check under the verification key of its own index. -/
def Verifies (keccak : Keccak) (h2c : List Byte → G1) (cfg : DkgConfig) (input : List Byte)
    (vks : List G1) (e : PartialEval) : Prop :=
  ∃ vk, vks[e.index - 1]? = some vk ∧ e.verify keccak h2c cfg input vk = .ok ()

open Classical in
/-- The evaluations that pass, in the order given. -/
noncomputable def verifying (keccak : Keccak) (h2c : List Byte → G1) (cfg : DkgConfig)
    (input : List Byte) (vks : List G1) (evals : List PartialEval) : List PartialEval :=
  evals.filter (fun e => decide (Verifies keccak h2c cfg input vks e))

end Verif.Spec
