import Verif.Model.FixedPoint
import Verif.Model.GrumpkinChip
import Verif.Model.Poseidon
import Verif.Model.Lib

/-!
Model of `DkgCircuit::synthesize`, src/dkg_circuit.rs:174-403, with the default feature `g2chip`, and
of the chip functions that expose public inputs.

The circuit is a relation between the public instance and the cells: the cells are existentially
quantified, as a (malicious) prover may put any values in them.  `instance_offset` is incremented by
one after each exposed cell, so the instance is the list of the exposed cells in order.  The columns,
regions and the copy constraints between cells are not modelled: a cell is the value it holds.
-/

namespace Verif.DkgCircuit
open Verif FixedPoint

/-- `WINDOW_SIZE`, src/lib.rs:51. -/
def windowSize : ℕ := 3

/-- A chain of `mul_add` with a fixed multiplier, `s ↦ s * x + c`, src/dkg_circuit.rs:222-226 and
src/ecc_chip/point_base_chip.rs:104-112. -/
def hornerChain (x : Fr) : List Fr → Fr → Fr → Prop
  | [], s, s' => s' = s
  | c :: cs, s, s' => ∃ u, MainGate.mulAdd s x c u ∧ hornerChain x cs u s'

/-- A chain of `add`, src/dkg_circuit.rs:212-215. -/
def addChain : List Fr → Fr → Fr → Prop
  | [], s, s' => s' = s
  | c :: cs, s, s' => ∃ u, MainGate.add s c u ∧ addChain cs u s'

/-- The first region: shares from coefficients, src/dkg_circuit.rs:195-231.  The length of `coeffs`
is asserted by `DkgCircuit::new`, src/dkg_circuit.rs:121. -/
def sharesRegion (cfg : DkgConfig) (coeffs shares : List Fr) : Prop :=
  ∃ s0 rest, addChain ((coeffs.drop 1).take (cfg.threshold - 1)) (coeffs.getD 0 0) s0 ∧
    List.Forall₂ (fun (i : ℕ) s => ∃ x, MainGate.assignConstant (i : Fr) x ∧
      hornerChain x (coeffs.take (cfg.threshold - 1)).reverse (coeffs.getD (cfg.threshold - 1) 0) s)
      (List.range' 2 (cfg.numberOfMembers - 1)) rest ∧
    shares = s0 :: rest

/-- `normalize` of a coordinate (external `IntegerChip::reduce`): fresh limbs in the ranges of a
remainder (three of 68 bits and one of 50 bits), with the same value modulo `q`.  The integer is below
`2^254`, not necessarily below `q`: the circuit never calls `assert_in_field`. -/
def normalize (x : Fq) (limbs : List Fr) : Prop :=
  ∃ l0 l1 l2 l3 : Fr, limbs = [l0, l1, l2, l3] ∧
    l0.val < 2 ^ 68 ∧ l1.val < 2 ^ 68 ∧ l2.val < 2 ^ 68 ∧ l3.val < 2 ^ 50 ∧
    x = ((l0.val + 2 ^ 68 * l1.val + 2 ^ 136 * l2.val + 2 ^ 204 * l3.val : ℕ) : Fq)

/-- The wrapping loop of `expose_public_optimal` for one integer,
src/ecc_chip/point_base_chip.rs:101-115, src/ecc_chip/point2_base_chip.rs:133-147. -/
def wrapCells (base : Fr) (limbs cells : List Fr) : Prop :=
  List.Forall₂ (fun i s =>
      hornerChain base ((limbs.drop (i * wrapLen)).take (wrapLen - 1)).reverse
        (limbs.getD (i * wrapLen + wrapLen - 1) 0) s)
    (List.range (numberOfLimbs / wrapLen)) cells

/-- The exposed cells of `expose_public_optimal` for the integers of a point, in order,
src/ecc_chip/point_base_chip.rs:72-127, src/ecc_chip/point2_base_chip.rs:99-159. -/
def exposeOptimal (base : Fr) : List (List Fr) → List Fr → Prop
  | [], cells => cells = []
  | limbs :: ls, cells => ∃ c cs, wrapCells base limbs c ∧ exposeOptimal base ls cs ∧ cells = c ++ cs

/-- Multiplication of the G1 generator by a cell, normalisation and exposure,
src/dkg_circuit.rs:257-302. -/
def exposeG1 (tab : List (List Pt1)) (base s : Fr) (cells : List Fr) : Prop :=
  ∃ p lx ly, FixedPoint.mul ops1 windowSize tab s p ∧ normalize p.1 lx ∧ normalize p.2 ly ∧
    exposeOptimal base [lx, ly] cells

/-- Multiplication of the G2 generator by a cell, normalisation and exposure,
src/dkg_circuit.rs:304-328. -/
def exposeG2 (tab : List (List Pt2)) (base s : Fr) (cells : List Fr) : Prop :=
  ∃ p lx0 lx1 ly0 ly1, FixedPoint.mul ops2 windowSize tab s p ∧
    normalize p.1.1 lx0 ∧ normalize p.1.2 lx1 ∧ normalize p.2.1 ly0 ∧ normalize p.2.2 ly1 ∧
    exposeOptimal base [lx0, lx1, ly0, ly1] cells

/-- `PoseidonHash::hash` of two cells, src/dkg_circuit.rs:366-380 (external sponge over `Pow5Chip`):
the initial state has the inputs in the rate and the capacity `2 << 64`. -/
def poseidonHash (x y key : Fr) : Prop :=
  ∃ final, Poseidon.PermuteRows ![x, y, ((2 * 2 ^ 64 : ℕ) : Fr)] final ∧ key = final 0

/-- One member: its key, the encryption of its share, and the exposed cipher,
src/dkg_circuit.rs:350-396. -/
def memberRegion (aux auxNeg : GrumpkinChip.Pt) (bits : List Fr) (share : Fr)
    (pk : GrumpkinChip.Pt) (cipher : Fr) : Prop :=
  GrumpkinChip.assignPoint pk ∧ ∃ pkr key, GrumpkinChip.mulBits aux auxNeg pk bits pkr ∧
    poseidonHash pkr.1 pkr.2 key ∧ MainGate.add share key cipher

/-- `DkgCircuit::synthesize`, src/dkg_circuit.rs:174-403: the circuit is satisfied by some cells with
the instance `ins`.  The auxiliary points of the two fixed-base chips are constants of the circuit
(the G1 one is a hash of the base, src/ecc_chip/point_base_chip/fix_mul.rs:81-91; the G2 one is
hardwired); the one of the Grumpkin chip is a free cell. -/
def synthesize (cfg : DkgConfig) (auxG1 : G1) (auxG2 : G2) (ins : List Fr) : Prop :=
  ∃ (coeffs shares : List Fr) (tab1 : List (List Pt1)) (tab2 : List (List Pt2))
    (aux auxNeg : GrumpkinChip.Pt) (base : Fr) (cga : List Fr) (cgs : List (List Fr))
    (cg2a : List Fr) (g gr : GrumpkinChip.Pt) (bits : List Fr) (pks : List GrumpkinChip.Pt)
    (ciphers : List Fr),
    coeffs.length = cfg.threshold ∧
    sharesRegion cfg coeffs shares ∧
    assignTable ops1 windowSize g1 auxG1 tab1 ∧
    assignTable ops2 windowSize g2 auxG2 tab2 ∧
    GrumpkinChip.assignPoint aux ∧ GrumpkinChip.neg aux auxNeg ∧
    MainGate.assignConstant ((2 ^ bitLenLimb : ℕ) : Fr) base ∧
    exposeG1 tab1 base (coeffs.getD 0 0) cga ∧
    List.Forall₂ (exposeG1 tab1 base) (shares.take cfg.numberOfMembers) cgs ∧
    exposeG2 tab2 base (coeffs.getD 0 0) cg2a ∧
    GrumpkinChip.assignConstant (coords gk) g ∧
    GrumpkinChip.toBitsUnsafe bits ∧
    GrumpkinChip.mulBits aux auxNeg g bits gr ∧
    pks.length = cfg.numberOfMembers ∧ ciphers.length = cfg.numberOfMembers ∧
    (∀ i < cfg.numberOfMembers, memberRegion aux auxNeg bits (shares.getD i 0)
      (pks.getD i (0, 0)) (ciphers.getD i 0)) ∧
    ins = cga ++ cgs.flatten ++ cg2a ++ [gr.1, gr.2] ++ ciphers ++
      pks.flatMap (fun pk => [pk.1, pk.2])

end Verif.DkgCircuit
