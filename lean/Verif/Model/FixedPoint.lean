import Verif.Model.Integer2
import Verif.Model.Curve

/-!
Model of the windowed fixed-base multiplication in the circuit, for G1
(src/ecc_chip/point_base_chip.rs, src/ecc_chip/point_base_chip/fix_mul.rs) and for G2
(src/ecc_chip/point2_base_chip.rs, src/ecc_chip/point2_base_chip/add.rs,
src/ecc_chip/point2_base_chip/fix_mul.rs).  The two copies of the algorithm in the code are the same
text up to the point operations, so there is one definition here, over the operations.
-/

namespace Verif.FixedPoint
open Verif MainGate

/-- The point operations of a chip: `assign_constant`, `add_incomplete`, `add`, `select` (condition,
value if one, value if zero, result). -/
structure Ops (G Pt : Type) where
  assignConstant : G → Pt → Prop
  addIncomplete : Pt → Pt → Pt → Prop
  add : Pt → Pt → Pt → Prop
  select : Fr → Pt → Pt → Pt → Prop

/-- `C::Scalar::NUM_BITS` (external). -/
def numBits : ℕ := 254

/-- `number_of_windows`, src/ecc_chip/point_base_chip/fix_mul.rs:18,
src/ecc_chip/point2_base_chip/fix_mul.rs:24. -/
def numberOfWindows (w : ℕ) : ℕ := (numBits + w - 1) / w

/-- `last`, src/ecc_chip/point_base_chip/fix_mul.rs:19-22,
src/ecc_chip/point2_base_chip/fix_mul.rs:25-28. -/
def lastBits (w : ℕ) : ℕ := if numBits % w = 0 then w else numBits % w

section table
variable {G : Type} [AddCommGroup G]

/-- The first row, src/ecc_chip/point_base_chip/fix_mul.rs:27-33,
src/ecc_chip/point2_base_chip/fix_mul.rs:33-39.  Multiplication by the scalar `k + 2` of the field is
written as the multiple in the group (the base has order `r`). -/
def row0 (w : ℕ) (P : G) : List G := (List.range (2 ^ w)).map fun k => (k + 2) • P

/-- The next row: `window_size` doublings of the entries of the row before,
src/ecc_chip/point_base_chip/fix_mul.rs:43-50, src/ecc_chip/point2_base_chip/fix_mul.rs:48-56. -/
def nextRow (w : ℕ) (prev : List G) (len : ℕ) : List G :=
  (List.range len).map fun k => (fun p => p + p)^[w] (prev.getD k 0)

/-- The rows before correction, src/ecc_chip/point_base_chip/fix_mul.rs:35-52,
src/ecc_chip/point2_base_chip/fix_mul.rs:41-58. -/
def plainRow (w : ℕ) (P : G) : ℕ → List G
  | 0 => row0 w P
  | i + 1 => nextRow w (plainRow w P i)
      (if i + 1 = numberOfWindows w - 1 then 2 ^ lastBits w else 2 ^ w)

/-- `correction`, src/ecc_chip/point_base_chip/fix_mul.rs:60-65,
src/ecc_chip/point2_base_chip/fix_mul.rs:65-70. -/
def correction (w : ℕ) (P aux : G) : G :=
  -(((List.range' 1 (numberOfWindows w - 1)).foldl
      (fun acc i => acc + (plainRow w P i).getD 0 0) ((plainRow w P 0).getD 0 0)) + aux)

/-- `prepare_fixed_point_table`, src/ecc_chip/point_base_chip/fix_mul.rs:13-78,
src/ecc_chip/point2_base_chip/fix_mul.rs:19-87.  The assertion `window_size > 1` and the shift
`1 << window_size` on `usize` (64 bits) restrict the window size to `2..63`, see `validWindow`. -/
def table (w : ℕ) (P aux : G) : List (List G) :=
  (List.range (numberOfWindows w)).map fun i =>
    if i = numberOfWindows w - 2 then (plainRow w P i).map (· + aux)
    else if i = numberOfWindows w - 1 then (plainRow w P i).map (· + correction w P aux)
    else plainRow w P i

/-- Window sizes for which the table is computed without panic: `assert!(window_size > 1)` and
`1usize << window_size`, src/ecc_chip/point_base_chip/fix_mul.rs:16 and 23. -/
def validWindow (w : ℕ) : Prop := 1 < w ∧ w < 64

variable {Pt : Type}

/-- `assign_fixed_point`, src/ecc_chip/point_base_chip/fix_mul.rs:80-109,
src/ecc_chip/point2_base_chip/fix_mul.rs:89-117: every entry is assigned as a constant. -/
def assignTable (O : Ops G Pt) (w : ℕ) (P aux : G) (t : List (List Pt)) : Prop :=
  validWindow w ∧ List.Forall₂ (List.Forall₂ O.assignConstant) (table w P aux) t

end table

/-- `window`, src/ecc_chip/point_base_chip/fix_mul.rs:111-131,
src/ecc_chip/point2_base_chip/fix_mul.rs:119-139. -/
def window {α : Type} (bits : List α) (w : ℕ) : List (List α) :=
  let last := bits.length % w
  let num := bits.length / w
  (List.range num).map (fun i => (bits.drop (i * w)).take w) ++
    if last ≠ 0 then [bits.drop (bits.length - last)] else []

section mul
variable {G Pt : Type} [Inhabited Pt] (O : Ops G Pt)

/-- The inner loop of `select_multi`: in place, entry `j` is chosen between the entries `2j + 1` and
`2j`, src/ecc_chip/point_base_chip/fix_mul.rs:147-152, src/ecc_chip/point2_base_chip/fix_mul.rs:154-157.
The vector is a function of the index. -/
def selectLayer (s : Fr) : List ℕ → (ℕ → Pt) → (ℕ → Pt) → Prop
  | [], red, red' => red' = red
  | j :: js, red, red' => ∃ v, O.select s (red (2 * j + 1)) (red (2 * j)) v ∧
      selectLayer s js (Function.update red j v) red'

/-- The outer loop of `select_multi`; `n = 1 << (number_of_selectors - 1 - i)`,
src/ecc_chip/point_base_chip/fix_mul.rs:145-153, src/ecc_chip/point2_base_chip/fix_mul.rs:152-158. -/
def selectLayers : List Fr → (ℕ → Pt) → (ℕ → Pt) → Prop
  | [], red, red' => red' = red
  | s :: ss, red, red' => ∃ red1, selectLayer O s (List.range (2 ^ ss.length)) red red1 ∧
      selectLayers ss red1 red'

/-- `select_multi`, src/ecc_chip/point_base_chip/fix_mul.rs:134-155,
src/ecc_chip/point2_base_chip/fix_mul.rs:141-160 (the assertion keeps all the indices in range). -/
def selectMulti (sel : List Fr) (tab : List Pt) (c : Pt) : Prop :=
  tab.length = 2 ^ sel.length ∧
    ∃ red', selectLayers O sel (fun i => tab.getD i default) red' ∧ c = red' 0

/-- A loop of `mul` over rows: select the entry of the row and add it to the accumulator,
src/ecc_chip/point_base_chip/fix_mul.rs:184-195, src/ecc_chip/point2_base_chip/fix_mul.rs:189-200. -/
def addRows (addOp : Pt → Pt → Pt → Prop) (windowed : List (List Fr)) (tab : List (List Pt)) :
    List ℕ → Pt → Pt → Prop
  | [], acc, c => c = acc
  | i :: is, acc, c => ∃ q acc', selectMulti O (windowed.getD i []) (tab.getD i []) q ∧
      addOp acc q acc' ∧ addRows addOp windowed tab is acc' c

/-- `mul`, src/ecc_chip/point_base_chip/fix_mul.rs:157-198,
src/ecc_chip/point2_base_chip/fix_mul.rs:162-203. -/
def mul (w : ℕ) (tab : List (List Pt)) (scalar : Fr) (c : Pt) : Prop :=
  numberOfWindows w = tab.length ∧
  2 ^ lastBits w = (tab.getD (numberOfWindows w - 1) []).length ∧
  ∃ bits acc0 acc1, toBits scalar numBits bits ∧
    selectMulti O ((window bits w).getD 0 []) (tab.getD 0 []) acc0 ∧
    addRows O O.addIncomplete (window bits w) tab
      (List.range' 1 (numberOfWindows w - 2 - 1)) acc0 acc1 ∧
    addRows O O.add (window bits w) tab (List.range' (numberOfWindows w - 2) 2) acc1 c

end mul

/-! ### G1 -/

/-- `AssignedPoint` on G1: the values modulo `q` of its coordinates. -/
abbrev Pt1 : Type := Fq × Fq

/-- `add_incomplete`, src/ecc_chip/point_base_chip.rs:140-167. -/
def addIncomplete1 (a b c : Pt1) : Prop :=
  ∃ num den l l2 t t',
    IntegerChip.sub b.2 a.2 num ∧
    IntegerChip.sub b.1 a.1 den ∧
    IntegerChip.divIncomplete num den l ∧
    IntegerChip.square l l2 ∧
    IntegerChip.subSub l2 a.1 b.1 c.1 ∧
    IntegerChip.sub a.1 c.1 t ∧
    IntegerChip.mul t l t' ∧
    IntegerChip.sub t' a.2 c.2

/-- `BaseFieldEccChip::add` (external): the abscissas are asserted different, then the incomplete
formula. -/
def add1 (a b c : Pt1) : Prop := IntegerChip.assertNotEqual a.1 b.1 ∧ addIncomplete1 a b c

/-- `BaseFieldEccChip::select` (external). -/
def select1 (cond : Fr) (p1 p2 c : Pt1) : Prop :=
  IntegerChip.select p1.1 p2.1 cond c.1 ∧ IntegerChip.select p1.2 p2.2 cond c.2

/-- `BaseFieldEccChip::assign_constant` (external): infinity is refused. -/
def assignConstant1 (P : G1) (c : Pt1) : Prop :=
  P ≠ 0 ∧ IntegerChip.assignConstant (coords P).1 c.1 ∧ IntegerChip.assignConstant (coords P).2 c.2

/-- The operations of `FixedPointChip`, src/ecc_chip/point_base_chip.rs. -/
def ops1 : Ops G1 Pt1 := ⟨assignConstant1, addIncomplete1, add1, select1⟩

/-! ### G2 -/

/-- `AssignedPoint2`, src/ecc_chip/point2.rs:54-64. -/
abbrev Pt2 : Type := Integer2Chip.I2 × Integer2Chip.I2

/-- `add_incomplete`, src/ecc_chip/point2_base_chip/add.rs:27-48. -/
def addIncomplete2 (a b c : Pt2) : Prop :=
  ∃ num den l l2 t t',
    Integer2Chip.sub b.2 a.2 num ∧
    Integer2Chip.sub b.1 a.1 den ∧
    Integer2Chip.divIncomplete num den l ∧
    Integer2Chip.square l l2 ∧
    Integer2Chip.subSub l2 a.1 b.1 c.1 ∧
    Integer2Chip.sub a.1 c.1 t ∧
    Integer2Chip.mul t l t' ∧
    Integer2Chip.sub t' a.2 c.2

/-- `add`, src/ecc_chip/point2_base_chip/add.rs:16-25. -/
def add2 (a b c : Pt2) : Prop := Integer2Chip.assertNotEqual a.1 b.1 ∧ addIncomplete2 a b c

/-- `double_incomplete`, src/ecc_chip/point2_base_chip/add.rs:62-85. -/
def doubleIncomplete2 (a c : Pt2) : Prop :=
  ∃ x2 num den l l2 t t',
    Integer2Chip.square a.1 x2 ∧
    Integer2Chip.mul3 x2 num ∧
    Integer2Chip.mul2 a.2 den ∧
    Integer2Chip.divIncomplete num den l ∧
    Integer2Chip.square l l2 ∧
    Integer2Chip.subSub l2 a.1 a.1 c.1 ∧
    Integer2Chip.sub a.1 c.1 t ∧
    Integer2Chip.mul l t t' ∧
    Integer2Chip.sub t' a.2 c.2

/-- `double`, src/ecc_chip/point2_base_chip/add.rs:52-60 (the abscissa is asserted nonzero, although
the formula divides by the ordinate). -/
def double2 (a c : Pt2) : Prop := Integer2Chip.assertNotZero a.1 ∧ doubleIncomplete2 a c

/-- `select`, src/ecc_chip/point2_base_chip.rs:196-207. -/
def select2 (cond : Fr) (p1 p2 c : Pt2) : Prop :=
  Integer2Chip.select p1.1 p2.1 cond c.1 ∧ Integer2Chip.select p1.2 p2.2 cond c.2

/-- `split_base`, src/ecc_chip/bn256.rs:40-44. -/
def splitBase (x : Fq2) : Integer2Chip.I2 := (x.re, x.im)

/-- `assign_constant`, src/ecc_chip/point2_base_chip.rs:163-182: the point is asserted in the
subgroup of order `r`, and infinity is refused. -/
def assignConstant2 (P : G2) (c : Pt2) : Prop :=
  r • P = 0 ∧ P ≠ 0 ∧ Integer2Chip.assignConstant (splitBase (coords P).1) c.1 ∧
    Integer2Chip.assignConstant (splitBase (coords P).2) c.2

/-- The operations of `FixedPoint2Chip`, src/ecc_chip/point2_base_chip.rs. -/
def ops2 : Ops G2 Pt2 := ⟨assignConstant2, addIncomplete2, add2, select2⟩

/-- `AUX_GENERATOR`, src/ecc_chip/bn256.rs:4-37: coordinates of the auxiliary point of G2, four 64-bit
limbs each, least significant first. -/
def limbs64 (a b c d : ℕ) : ℕ := a + 2 ^ 64 * (b + 2 ^ 64 * (c + 2 ^ 64 * d))
/-- Abscissa, src/ecc_chip/bn256.rs:4-17. -/
def aux2X : ℕ × ℕ :=
  (limbs64 0x52ae1752bfef0341 0x3eafccb9064851de 0x4254ea57f4d42897 0x09f8420d06b98979,
   limbs64 0x2539ba3aaf68dd60 0xcb7cb3129ef4c5be 0x9af0f58f79fa917f 0x0abc3efe977fbc31)
/-- Ordinate, src/ecc_chip/bn256.rs:19-32. -/
def aux2Y : ℕ × ℕ :=
  (limbs64 0x52d06d3250ae0d77 0x2d1f603c5980314e 0x65df3370b88dfe83 0x08f5aa2b908fe1da,
   limbs64 0x62c32645e3efa47d 0x643b45c796efc026 0x7a82d7da0d30c5d7 0x0532943195a597e4)

end Verif.FixedPoint
