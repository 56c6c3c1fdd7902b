import Verif.Spec.Circuit
import Verif.Spec.Dkg
import Verif.Model.Poseidon

/-!
The instance of a dealing as the circuit sees it, and the scalars the circuit can handle.
-/

namespace Verif.Spec

/-- Two instance elements giving a coordinate: the low 136 bits and the rest of an integer below
`2^254` that is congruent to the coordinate modulo `q`. -/
def CoordCells (x : Fq) (d : List Fr) : Prop :=
  ∃ V : ℕ, V < 2 ^ 254 ∧ ((V : ℕ) : Fq) = x ∧
    d = [((V % 2 ^ 136 : ℕ) : Fr), ((V / 2 ^ 136 : ℕ) : Fr)]

/-- Four instance elements giving a finite point of G1. -/
def PointCells (P : G1) (d : List Fr) : Prop :=
  P ≠ 0 ∧ ∃ dx dy, CoordCells (coords P).1 dx ∧ CoordCells (coords P).2 dy ∧ d = dx ++ dy

/-- Eight instance elements giving a finite point of G2. -/
def Point2Cells (P : G2) (d : List Fr) : Prop :=
  P ≠ 0 ∧ ∃ d0 d1 d2 d3, CoordCells (coords P).1.re d0 ∧ CoordCells (coords P).1.im d1 ∧
    CoordCells (coords P).2.re d2 ∧ CoordCells (coords P).2.im d3 ∧ d = d0 ++ d1 ++ d2 ++ d3

/-- `ins` is the instance of the dealing with the polynomial `coeffs` and the encryption randomness
`R` to the members with keys `pks`. -/
def DealingCells (n : ℕ) (coeffs : List Fr) (R : ℕ) (pks : List Gk) (ins : List Fr) : Prop :=
  ∃ cga cgs cg2a,
    PointCells (poly coeffs 0 • g1) cga ∧
    List.Forall₂ (fun (i : ℕ) d => PointCells (poly coeffs (i : Fr) • g1) d) (List.range' 1 n) cgs ∧
    Point2Cells (smul2 (poly coeffs 0) g2) cg2a ∧
    ins = cga ++ cgs.flatten ++ cg2a ++ [(coords (R • gk)).1, (coords (R • gk)).2] ++
      (List.range n).map (fun i => poly coeffs ((i + 1 : ℕ) : Fr) +
        Poseidon.hash2 (coords (R • pks.getD i 0)).1 (coords (R • pks.getD i 0)).2) ++
      pks.flatMap (fun pk => [(coords pk).1, (coords pk).2])

/-- As `DealingCells`, without the public value in G2 (the build without the feature `g2chip`). -/
def DealingCellsNoG2 (n : ℕ) (coeffs : List Fr) (R : ℕ) (pks : List Gk) (ins : List Fr) : Prop :=
  ∃ cga cgs,
    PointCells (poly coeffs 0 • g1) cga ∧
    List.Forall₂ (fun (i : ℕ) d => PointCells (poly coeffs (i : Fr) • g1) d) (List.range' 1 n) cgs ∧
    ins = cga ++ cgs.flatten ++ [(coords (R • gk)).1, (coords (R • gk)).2] ++
      (List.range n).map (fun i => poly coeffs ((i + 1 : ℕ) : Fr) +
        Poseidon.hash2 (coords (R • pks.getD i 0)).1 (coords (R • pks.getD i 0)).2) ++
      pks.flatMap (fun pk => [(coords pk).1, (coords pk).2])

/-- Scalars that the windowed multiplication (window size 3) of `P` can handle with the auxiliary
point `aux`: some 254-bit representative avoids the bad positions. -/
def Usable {G : Type} [AddCommGroup G] (P aux : G) (s : Fr) : Prop :=
  ∃ K : ℕ, K < 2 ^ 254 ∧ ((K : ℕ) : Fr) = s ∧ AuxFits 3 K P aux

end Verif.Spec
