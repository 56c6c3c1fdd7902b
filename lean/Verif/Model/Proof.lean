import Verif.Model.ClientFiles

/-!
# Model of bin/proof.rs

`create_proof` and `verify_proof` of halo2 are external: `create` gives the bytes of the transcript after
`create_proof` (`none` if it returns an error, which `unwrap` turns into a panic), `verify` says whether
`verify_proof` returns `Ok`.  The parameters and keys are those loaded from `params_dir` and are fixed.
-/

namespace Verif.ProofTools

/-- `verify_single`, bin/proof.rs:47-66: a panic unless `verify_proof` returns `Ok`. -/
def verifySingle (verify : List Byte → List Fr → Bool) (proof : List Byte) (ins : List Fr) : Option Unit :=
  if verify proof ins then some () else none

/-- `create_proof_checked`, bin/proof.rs:16-45: the proof, after it has been verified with the same
instance. -/
def createProofChecked (create : List Fr → Option (List Byte)) (verify : List Byte → List Fr → Bool)
    (ins : List Fr) : Option (List Byte) := do
  let proof ← create ins
  verifySingle verify proof ins
  return proof

/-- The client's tools with the prover and verifier of bin/proof.rs, bin/client.rs:444-445, 506. -/
def checked (T : ClientFiles.Tools) (create : List Fr → Option (List Byte)) : ClientFiles.Tools :=
  { T with prover := createProofChecked create T.verifier }

end Verif.ProofTools
