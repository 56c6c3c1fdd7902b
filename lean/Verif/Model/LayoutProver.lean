import Verif.Model.LayoutChips

/-!
The honest prover up to the external `create_proof`: the secret inputs of the circuit, and the table it fills.
-/

namespace Verif.Layout
open Verif

/-- `DkgMemberParams::circuit`, src/lib.rs:294-312, with the assertions of `DkgCircuit::new`,
src/dkg_circuit.rs:113-130: the secret inputs of the circuit; `A` is the random auxiliary point. -/
def circuitOf (mp : DkgMemberParams) (A : Gk) : Option Input :=
  if mp.coeffs.length = mp.cfg.threshold ∧ mp.publicKeys.length = mp.cfg.numberOfMembers then
    some ⟨fun i => mp.coeffs.getD i 0, mp.rnd, fun i => coords (mp.publicKeys.getD i 0), coords A⟩
  else none

/-- The layout and the table of `DkgCircuit::synthesize`, src/dkg_circuit.rs:174-403, run by a prover with the inputs
`inp`, as the external `create_proof` and `MockProver` do; `w0` are the values of the cells that are not assigned
(external: zero, and random in the last rows), `range` the lookup table of the range chip. -/
noncomputable def honestTable (J : IntegerImpl) (cfg : DkgConfig) (auxG1 : G1) (auxG2 : G2) (inp : Input) (ins : List Fr)
    (range : Fr → Fr → Prop) (w0 : Cell → Fr) : Option (Shape × Table) :=
  (synthesize J cfg auxG1 auxG2 ⟨0, 0⟩).map fun o => (o.shape, ⟨o.fill inp w0, fun j => ins.getD j 0, range⟩)

end Verif.Layout
