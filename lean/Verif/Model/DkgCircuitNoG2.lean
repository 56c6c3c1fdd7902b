import Verif.Model.DkgCircuit

/-!
The library built without the default feature `g2chip` (Cargo.toml:46-47): the lines under
`#[cfg(feature = "g2chip")]` are absent, so `g2^a` is neither computed in the circuit nor part of the
instance.  `from_instance` (src/lib.rs:170) does not exist in this build; a verifier rebuilds the
instance from the published parameters and calls `check_public`.
-/

namespace Verif
open DkgCircuit FixedPoint

/-- `DkgConfig::instance_size` without the feature, src/dkg.rs:61-69. -/
def DkgConfig.instanceSizeNoG2 (c : DkgConfig) : ℕ := 7 * c.numberOfMembers + 6

/-- `DkgMemberPublicParams::instance` without the feature, src/lib.rs:133-163 less 144-147. -/
def DkgMemberPublicParams.toInstanceNoG2 (infPanics : Bool) (pp : DkgMemberPublicParams)
    (pks : List Gk) : Res (List Fr) := do
  let ga ← pointToPublic infPanics pp.ga
  let gs ← (List.range pks.length).mapM
    (fun i => do let P ← getOrPanic pp.publicShares i; pointToPublic infPanics P)
  return ga ++ gs.flatten ++ [(coords pp.gr).1, (coords pp.gr).2] ++ pp.ciphers ++
    pks.flatMap (fun pk => [(coords pk).1, (coords pk).2])

/-- `DkgCircuit::synthesize` without the feature, src/dkg_circuit.rs:174-403 less 185-189, 237-240
and 304-328.  The simplifications are those of `DkgCircuit.synthesize`. -/
def DkgCircuit.synthesizeNoG2 (cfg : DkgConfig) (auxG1 : G1) (ins : List Fr) : Prop :=
  ∃ (coeffs shares : List Fr) (tab1 : List (List Pt1))
    (aux auxNeg : GrumpkinChip.Pt) (base : Fr) (cga : List Fr) (cgs : List (List Fr))
    (g gr : GrumpkinChip.Pt) (bits : List Fr) (pks : List GrumpkinChip.Pt)
    (ciphers : List Fr),
    coeffs.length = cfg.threshold ∧
    sharesRegion cfg coeffs shares ∧
    assignTable ops1 windowSize g1 auxG1 tab1 ∧
    GrumpkinChip.assignPoint aux ∧ GrumpkinChip.neg aux auxNeg ∧
    MainGate.assignConstant ((2 ^ bitLenLimb : ℕ) : Fr) base ∧
    exposeG1 tab1 base (coeffs.getD 0 0) cga ∧
    List.Forall₂ (exposeG1 tab1 base) (shares.take cfg.numberOfMembers) cgs ∧
    GrumpkinChip.assignConstant (coords gk) g ∧
    GrumpkinChip.toBitsUnsafe bits ∧
    GrumpkinChip.mulBits aux auxNeg g bits gr ∧
    pks.length = cfg.numberOfMembers ∧ ciphers.length = cfg.numberOfMembers ∧
    (∀ i < cfg.numberOfMembers, memberRegion aux auxNeg bits (shares.getD i 0)
      (pks.getD i (0, 0)) (ciphers.getD i 0)) ∧
    ins = cga ++ cgs.flatten ++ [gr.1, gr.2] ++ ciphers ++
      pks.flatMap (fun pk => [pk.1, pk.2])

end Verif
