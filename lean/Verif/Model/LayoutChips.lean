import Verif.Model.Layout
import Verif.Model.DkgCircuit

/-!
The chips of zkdvrf and `DkgCircuit::synthesize` as layouts: the same functions as in
`Model/GrumpkinChip`, `Model/Integer2`, `Model/FixedPoint` and `Model/DkgCircuit`, with their cells, gates
and copy constraints, and with the witness of an honest prover.

The external integer chip (limbs and range checks) is a parameter, `IntegerImpl`.
-/

namespace Verif.Layout
open Verif MainGate

/-! ### src/grumpkin_chip.rs -/

/-- `AssignedPoint`, src/grumpkin_chip.rs:15-20. -/
abbrev PtCell : Type := Cell × Cell

/-- `mul_sub`, src/grumpkin_chip/add.rs:18-44. -/
def mulSub (a b c : Cell) : Synth Cell := do
  let l ← apply [am a, am b, as c, us fun _ w => w a * w b - w c] 0 .oneLinerMul
  nth l 3

/-- `mul_sub_sub`, src/grumpkin_chip/add.rs:47-82. -/
def mulSubSub (a b c d : Cell) : Synth Cell := do
  let l ← apply [am a, am b, as c, as d, us fun _ w => w a * w b - w c - w d] 0 .oneLinerMul
  nth l 4

/-- `sub_invert_unsafe`, src/grumpkin_chip/add.rs:85-115 (the inverse of zero is zero). -/
def subInvertUnsafe (a b : Cell) : Synth Cell := do
  let c : Input → (Cell → Fr) → Fr := fun _ w => (w a - w b)⁻¹
  let l ← apply [am a, um c, am b, um c] (-1) (.oneLinerDoubleMul (-1))
  let c1 ← nth l 1
  let c3 ← nth l 3
  constrainEqual c1 c3
  pure c1

/-- `sub_mul`, src/grumpkin_chip/add.rs:119-152. -/
def subMul (a b c : Cell) : Synth Cell := do
  let l ← apply [am a, am c, am b, am c, us fun _ w => (w a - w b) * w c] 0 (.oneLinerDoubleMul (-1))
  nth l 4

/-- `mul`, src/grumpkin_chip/add.rs:155-182. -/
def scaleMul (s : Fr) (a b : Cell) : Synth Cell := do
  let l ← apply [am a, am b, us fun _ w => s * w a * w b] 0 (.combineToNextScaleMul 0 s)
  nth l 2

/-- `lambda_double_unsafe`, src/grumpkin_chip/add.rs:184-213. -/
def lambdaDoubleUnsafe (a : PtCell) : Synth Cell := do
  let l ← apply [um fun _ w => (w a.2)⁻¹ * w a.1 * w a.1 * GrumpkinChip.THREE_OVER_TWO, am a.2, am a.1, am a.1] 0
    (.oneLinerDoubleMul (-GrumpkinChip.THREE_OVER_TWO))
  nth l 0

/-- `add_incomplete`, src/grumpkin_chip/add.rs:224-315. -/
def addIncompleteGk (a b : PtCell) : Synth PtCell := do
  let lam : Input → (Cell → Fr) → Fr := fun _ w => (w a.1 - w b.1)⁻¹ * (w a.2 - w b.2)
  let l ← apply [um lam, um lam, as a.1, as b.1, us fun i w => lam i w * lam i w - w a.1 - w b.1] 0 .oneLinerMul
  let l0 ← nth l 0
  let l1 ← nth l 1
  constrainEqual l0 l1
  let xc ← nth l 4
  let t ← mulSub l0 a.1 a.2
  let _ ← apply [am l0, am b.1, as b.2, as t] 0 .oneLinerMul
  let l' ← apply [am l0, am xc, ua fun i w => w t - lam i w * w xc, as t] 0 .oneLinerMul
  let yc ← nth l' 2
  pure (xc, yc)

/-- `add`, src/grumpkin_chip/add.rs:318-339. -/
def addGk (a b : PtCell) : Synth PtCell := do
  let inv ← subInvertUnsafe a.1 b.1
  let lam ← subMul a.2 b.2 inv
  let x ← mulSubSub lam lam a.1 b.1
  let s ← sub a.1 x
  let y ← mulSub lam s a.2
  pure (x, y)

/-- `double_incomplete`, src/grumpkin_chip/add.rs:344-363. -/
def doubleIncompleteGk (a : PtCell) : Synth PtCell := do
  let lam ← lambdaDoubleUnsafe a
  let x ← mulSubSub lam lam a.1 a.1
  let s ← sub a.1 x
  let y ← mulSub lam s a.2
  pure (x, y)

/-- `double`, src/grumpkin_chip/add.rs:366-387. -/
def doubleGk (a : PtCell) : Synth PtCell := do
  let num ← scaleMul GrumpkinChip.THREE_OVER_TWO a.1 a.1
  let inv ← invertUnsafe a.2
  let lam ← mul num inv
  let x ← mulSubSub lam lam a.1 a.1
  let s ← sub a.1 x
  let y ← mulSub lam s a.2
  pure (x, y)

/-- `assert_is_on_curve`, src/grumpkin_chip.rs:143-159. -/
def assertIsOnCurve (p : PtCell) : Synth Unit := do
  let y2 ← mul p.2 p.2
  let x2 ← mul p.1 p.1
  let x3 ← mul x2 p.1
  let x3b ← addConstant x3 GrumpkinChip.curveB
  assertEqual y2 x3b

/-- `assign_point`, src/grumpkin_chip.rs:128-141. -/
def assignPoint (f : Input → Fr × Fr) : Synth PtCell := do
  let x ← assignValue fun i => (f i).1
  let y ← assignValue fun i => (f i).2
  assertIsOnCurve (x, y)
  pure (x, y)

/-- `assign_constant`, src/grumpkin_chip.rs:87-101. -/
def assignConstantGk (k : Fr × Fr) : Synth PtCell := do
  let x ← assignConstant k.1
  let y ← assignConstant k.2
  pure (x, y)

/-- `neg`, src/grumpkin_chip.rs:172-180. -/
def negGk (p : PtCell) : Synth PtCell := do
  let y ← negWithConstant p.2 0
  pure (p.1, y)

/-- `select`, src/grumpkin_chip.rs:183-195. -/
def selectGk (cond : Cell) (p1 p2 : PtCell) : Synth PtCell := do
  let x ← select p1.1 p2.1 cond
  let y ← select p1.2 p2.2 cond
  pure (x, y)

/-- The loop of `mul_bits`, src/grumpkin_chip/mul.rs:36-41. -/
def mulBitsLoop : List Cell → PtCell → PtCell → Synth PtCell
  | [], res, _ => pure res
  | bit :: bits, res, dbl => do
    let t ← addGk res dbl
    let res' ← selectGk bit t res
    let dbl' ← doubleIncompleteGk dbl
    mulBitsLoop bits res' dbl'

/-- `mul_bits`, src/grumpkin_chip/mul.rs:20-45. -/
def mulBits (aux auxNeg point : PtCell) (bits : List Cell) : Synth PtCell := do
  let res ← mulBitsLoop bits aux point
  addGk res auxNeg

/-- `mul`, src/grumpkin_chip/mul.rs:8-18. -/
def mulScalar (aux auxNeg point : PtCell) (scalar : Cell) : Synth PtCell := do
  let bits ← toBits scalar 254
  mulBits aux auxNeg point bits

/-- `to_bits_unsafe`, src/grumpkin_chip.rs:222-241. -/
def toBitsUnsafe (f : Input → Fr) : Synth (List Cell) :=
  mapS (fun i => assignBit fun inp _ => bitOf (f inp) i) (List.range 254)

/-- `expose_public`, src/grumpkin_chip.rs:68-85: the next free public input is returned. -/
def exposePoint (p : PtCell) (offset : ℕ) : Synth ℕ := do
  exposePublic p.1 offset
  exposePublic p.2 (offset + 1)
  pure (offset + 2)

/-! ### The integer chip (external) -/

/-- `IntegerChip` of halo2wrong (external), as used by the chips of zkdvrf: an assigned integer, the cells
of its limbs, and the operations. -/
structure IntegerImpl where
  I : Type
  limbs : I → List Cell
  assignConstant : Fq → Synth I
  add : I → I → Synth I
  sub : I → I → Synth I
  subSub : I → I → I → Synth I
  neg : I → Synth I
  mul : I → I → Synth I
  mul2 : I → Synth I
  square : I → Synth I
  divIncomplete : I → I → Synth I
  invertIncomplete : I → Synth I
  assertNotZero : I → Synth Unit
  assertNotEqual : I → I → Synth Unit
  select : I → I → Cell → Synth I
  reduce : I → Synth I

variable (J : IntegerImpl)

/-- `AssignedInteger2`, src/ecc_chip/integer2.rs:45-54. -/
abbrev I2 : Type := J.I × J.I

variable {J}

/-- `reduce`, src/ecc_chip/integer2.rs:84-93. -/
def reduce2 (a : I2 J) : Synth (I2 J) := do
  let i0 ← J.reduce a.1
  let i1 ← J.reduce a.2
  pure (i0, i1)

/-- `assign_constant`, src/ecc_chip/integer2.rs:95-104. -/
def assignConstantI2 (k : Fq × Fq) : Synth (I2 J) := do
  let i0 ← J.assignConstant k.1
  let i1 ← J.assignConstant k.2
  pure (i0, i1)

/-- `sub`, src/ecc_chip/integer2.rs:166-176. -/
def sub2 (a b : I2 J) : Synth (I2 J) := do
  let i0 ← J.sub a.1 b.1
  let i1 ← J.sub a.2 b.2
  pure (i0, i1)

/-- `sub_sub`, src/ecc_chip/integer2.rs:178-189. -/
def subSub2 (a b c : I2 J) : Synth (I2 J) := do
  let i0 ← J.subSub a.1 b.1 c.1
  let i1 ← J.subSub a.2 b.2 c.2
  pure (i0, i1)

/-- `mul`, src/ecc_chip/integer2.rs:202-218. -/
def mulI2 (a b : I2 J) : Synth (I2 J) := do
  let t1 ← J.mul a.1 b.1
  let t0 ← J.add a.1 a.2
  let t2 ← J.mul a.2 b.2
  let t3 ← J.add b.1 b.2
  let i0 ← J.sub t1 t2
  let t1 ← J.add t1 t2
  let t0 ← J.mul t0 t3
  let i1 ← J.sub t0 t1
  pure (i0, i1)

/-- `square`, src/ecc_chip/integer2.rs:242-255. -/
def square2 (a : I2 J) : Synth (I2 J) := do
  let t0 ← J.square a.1
  let t1 ← J.square a.2
  let i0 ← J.sub t0 t1
  let t2 ← J.mul a.1 a.2
  let i1 ← J.mul2 t2
  pure (i0, i1)

/-- `norm`, src/ecc_chip/integer2.rs:257-265. -/
def norm (a : I2 J) : Synth J.I := do
  let t0 ← J.square a.1
  let t1 ← J.square a.2
  J.add t0 t1

/-- `div_incomplete`, src/ecc_chip/integer2.rs:267-282. -/
def divIncomplete2 (a b : I2 J) : Synth (I2 J) := do
  let n ← norm b
  let ninv ← J.invertIncomplete n
  let i0 ← J.mul b.1 ninv
  let i1 ← J.mul b.2 ninv
  let i1' ← J.neg i1
  mulI2 a (i0, i1')

/-- `select`, src/ecc_chip/integer2.rs:284-295. -/
def selectI2 (a b : I2 J) (cond : Cell) : Synth (I2 J) := do
  let i0 ← J.select a.1 b.1 cond
  let i1 ← J.select a.2 b.2 cond
  pure (i0, i1)

/-- `assert_not_zero`, src/ecc_chip/integer2.rs:142-152. -/
def assertNotZero2 (a : I2 J) : Synth Unit := do
  let n ← norm a
  J.assertNotZero n

/-- `assert_not_equal`, src/ecc_chip/integer2.rs:131-140. -/
def assertNotEqual2 (a b : I2 J) : Synth Unit := do
  let c ← sub2 a b
  assertNotZero2 c

/-! ### Points of G1 and G2 -/

/-- The point operations of a fixed-base chip (as `FixedPoint.Ops`). -/
structure LOps (G P : Type) where
  assignConstant : G → Synth P
  addIncomplete : P → P → Synth P
  add : P → P → Synth P
  select : Cell → P → P → Synth P

variable (J)

/-- `AssignedPoint` of `FixedPointChip`: the two coordinates. -/
abbrev P1 : Type := J.I × J.I

/-- `AssignedPoint2`, src/ecc_chip/point2.rs:54-64. -/
abbrev P2 : Type := I2 J × I2 J

variable {J}

open Classical in
/-- `BaseFieldEccChip::assign_constant` (external): infinity is refused. -/
noncomputable def assignConstant1 (P : G1) : Synth (P1 J) := do
  check (P ≠ 0)
  let x ← J.assignConstant (coords P).1
  let y ← J.assignConstant (coords P).2
  pure (x, y)

/-- `add_incomplete`, src/ecc_chip/point_base_chip.rs:140-167. -/
def addIncomplete1 (a b : P1 J) : Synth (P1 J) := do
  let num ← J.sub b.2 a.2
  let den ← J.sub b.1 a.1
  let lam ← J.divIncomplete num den
  let l2 ← J.square lam
  let x ← J.subSub l2 a.1 b.1
  let t ← J.sub a.1 x
  let t' ← J.mul t lam
  let y ← J.sub t' a.2
  pure (x, y)

/-- `BaseFieldEccChip::add` (external). -/
def add1 (a b : P1 J) : Synth (P1 J) := do
  J.assertNotEqual a.1 b.1
  addIncomplete1 a b

/-- `BaseFieldEccChip::select` (external). -/
def select1 (cond : Cell) (p1 p2 : P1 J) : Synth (P1 J) := do
  let x ← J.select p1.1 p2.1 cond
  let y ← J.select p1.2 p2.2 cond
  pure (x, y)

/-- The operations of `FixedPointChip`, src/ecc_chip/point_base_chip.rs. -/
noncomputable def lops1 : LOps G1 (P1 J) := ⟨assignConstant1, addIncomplete1, add1, select1⟩

open Classical in
/-- `assign_constant`, src/ecc_chip/point2_base_chip.rs:163-182. -/
noncomputable def assignConstant2 (P : G2) : Synth (P2 J) := do
  check (r • P = 0)
  check (P ≠ 0)
  let x ← assignConstantI2 (FixedPoint.splitBase (coords P).1)
  let y ← assignConstantI2 (FixedPoint.splitBase (coords P).2)
  pure (x, y)

/-- `add_incomplete`, src/ecc_chip/point2_base_chip/add.rs:27-48. -/
def addIncomplete2 (a b : P2 J) : Synth (P2 J) := do
  let num ← sub2 b.2 a.2
  let den ← sub2 b.1 a.1
  let lam ← divIncomplete2 num den
  let l2 ← square2 lam
  let x ← subSub2 l2 a.1 b.1
  let t ← sub2 a.1 x
  let t' ← mulI2 t lam
  let y ← sub2 t' a.2
  pure (x, y)

/-- `add`, src/ecc_chip/point2_base_chip/add.rs:16-25. -/
def add2 (a b : P2 J) : Synth (P2 J) := do
  assertNotEqual2 a.1 b.1
  addIncomplete2 a b

/-- `select`, src/ecc_chip/point2_base_chip.rs:196-207. -/
def select2 (cond : Cell) (p1 p2 : P2 J) : Synth (P2 J) := do
  let x ← selectI2 p1.1 p2.1 cond
  let y ← selectI2 p1.2 p2.2 cond
  pure (x, y)

/-- The operations of `FixedPoint2Chip`, src/ecc_chip/point2_base_chip.rs. -/
noncomputable def lops2 : LOps G2 (P2 J) := ⟨assignConstant2, addIncomplete2, add2, select2⟩

/-! ### Multiplication of a fixed base -/

section fixed
variable {G P : Type} (O : LOps G P)

/-- The table of `assign_fixed_point`, src/ecc_chip/point_base_chip/fix_mul.rs:90-100,
src/ecc_chip/point2_base_chip/fix_mul.rs:101-111; `window_size > 1` is asserted, and `1 << window_size` is
computed on 64 bits. -/
def assignTable [AddCommGroup G] (w : ℕ) (base aux : G) : Synth (List (List P)) := do
  check (1 < w ∧ w < 64)
  mapS (mapS O.assignConstant) (FixedPoint.table w base aux)

/-- The inner loop of `select_multi`, src/ecc_chip/point_base_chip/fix_mul.rs:147-152,
src/ecc_chip/point2_base_chip/fix_mul.rs:154-157. -/
def selectLayer (s : Cell) (js : List ℕ) (red : List P) : Synth (List P) :=
  foldS (fun red j => do
    let p1 ← nth red (2 * j + 1)
    let p0 ← nth red (2 * j)
    let v ← O.select s p1 p0
    pure (red.set j v)) js red

/-- The outer loop of `select_multi`, src/ecc_chip/point_base_chip/fix_mul.rs:145-153,
src/ecc_chip/point2_base_chip/fix_mul.rs:152-158. -/
def selectLayers : List Cell → List P → Synth (List P)
  | [], red => pure red
  | s :: ss, red => do
    let red1 ← selectLayer O s (List.range (2 ^ ss.length)) red
    selectLayers ss red1

/-- `select_multi`, src/ecc_chip/point_base_chip/fix_mul.rs:134-155,
src/ecc_chip/point2_base_chip/fix_mul.rs:141-160. -/
def selectMulti (sel : List Cell) (tab : List P) : Synth P := do
  check (tab.length = 2 ^ sel.length)
  let red ← selectLayers O sel tab
  nth red 0

/-- A loop of `mul`, src/ecc_chip/point_base_chip/fix_mul.rs:184-195,
src/ecc_chip/point2_base_chip/fix_mul.rs:189-200. -/
def addRows (addOp : P → P → Synth P) (windowed : List (List Cell)) (tab : List (List P)) (is : List ℕ)
    (acc : P) : Synth P :=
  foldS (fun acc i => do
    let sel ← nth windowed i
    let row ← nth tab i
    let q ← selectMulti O sel row
    addOp acc q) is acc

/-- `mul`, src/ecc_chip/point_base_chip/fix_mul.rs:157-198,
src/ecc_chip/point2_base_chip/fix_mul.rs:162-203. -/
def mulFixed (w : ℕ) (tab : List (List P)) (scalar : Cell) : Synth P := do
  check (FixedPoint.numberOfWindows w = tab.length)
  let lastRow ← nth tab (FixedPoint.numberOfWindows w - 1)
  check (2 ^ FixedPoint.lastBits w = lastRow.length)
  let bits ← toBits scalar FixedPoint.numBits
  let windowed := FixedPoint.window bits w
  let sel0 ← nth windowed 0
  let row0 ← nth tab 0
  let acc0 ← selectMulti O sel0 row0
  let acc1 ← addRows O O.addIncomplete windowed tab (List.range' 1 (FixedPoint.numberOfWindows w - 2 - 1)) acc0
  addRows O O.add windowed tab (List.range' (FixedPoint.numberOfWindows w - 2) 2) acc1

end fixed

/-! ### Public inputs of points -/

/-- One wrapped cell of `expose_public_optimal`, src/ecc_chip/point_base_chip.rs:103-113,
src/ecc_chip/point2_base_chip.rs:135-145. -/
def wrapCell (base : Cell) (limbs : List Cell) (i : ℕ) : Synth Cell := do
  let s ← nth limbs (i * wrapLen + wrapLen - 1)
  foldS (fun s j => do
    let l ← nth limbs (i * wrapLen + j)
    mulAdd s base l) (List.range (wrapLen - 1)).reverse s

/-- `main_gate.expose_public` for consecutive public inputs, src/ecc_chip/point_base_chip.rs:121-124,
src/ecc_chip/point2_base_chip.rs:153-156. -/
def exposeAll (cells : List Cell) (offset : ℕ) : Synth ℕ :=
  foldS (fun o c => do
    exposePublic c o
    pure (o + 1)) cells offset

/-- The cell of the base in `expose_public_optimal`, src/ecc_chip/point_base_chip.rs:93-99,
src/ecc_chip/point2_base_chip.rs:120-126: the given one, or a new constant. -/
def baseCell : Option Cell → Synth Cell
  | some x => pure x
  | none => assignConstant ((2 ^ bitLenLimb : ℕ) : Fr)

/-- `expose_public_optimal`, src/ecc_chip/point_base_chip.rs:72-127,
src/ecc_chip/point2_base_chip.rs:99-159: the cell of the base, and the next free public input.  The region
starts at the row of the number of the first public input.  The assertions are about constants. -/
def exposeOptimal (b : Option Cell) (ints : List (List Cell)) (offset : ℕ) : Synth (Cell × ℕ) := do
  check (bitLenLimb < 128)
  check (bitLenLimb * wrapLen < FixedPoint.numBits)
  check (numberOfLimbs % wrapLen = 0)
  let out ← assignRegion offset (do
    let base ← baseCell b
    let wrapped ← mapS (fun limbs => mapS (wrapCell base limbs) (List.range (numberOfLimbs / wrapLen))) ints
    pure (base, wrapped.flatten))
  let o ← exposeAll out.2 offset
  pure (out.1, o)

/-- A region with the multiplication of the G1 generator by a cell and the reduction of its coordinates, and
`expose_public_optimal`, src/dkg_circuit.rs:257-277 and 280-302. -/
noncomputable def exposeG1 (tab : List (List (P1 J))) (b : Option Cell) (s : Cell) (offset : ℕ) : Synth (Cell × ℕ) := do
  let p ← assignRegion 0 (do
    let p ← mulFixed lops1 DkgCircuit.windowSize tab s
    let x ← J.reduce p.1
    let y ← J.reduce p.2
    pure (x, y))
  exposeOptimal b [J.limbs p.1, J.limbs p.2] offset

/-- The same for G2, src/dkg_circuit.rs:304-328; `normalize`, src/ecc_chip/point2_base_chip.rs:209-219. -/
noncomputable def exposeG2 (tab : List (List (P2 J))) (b : Option Cell) (s : Cell) (offset : ℕ) : Synth (Cell × ℕ) := do
  let p ← assignRegion 0 (do
    let p ← mulFixed lops2 DkgCircuit.windowSize tab s
    let x ← reduce2 p.1
    let y ← reduce2 p.2
    pure (x, y))
  exposeOptimal b [J.limbs p.1.1, J.limbs p.1.2, J.limbs p.2.1, J.limbs p.2.2] offset

/-! ### Poseidon, `Pow5Chip` (external) -/

/-- Three cells of a state. -/
abbrev StCell : Type := Fin 3 → Cell

/-- Columns of the state. -/
def stCol (i : Fin 3) : Fin 5 := i.castLE (by decide)

/-- Assigns the state of the current row. -/
def assignState (f : Input → (Cell → Fr) → Poseidon.St) : Synth StCell := do
  let a ← assignAdvice 0 (fun inp w => f inp w 0)
  let b ← assignAdvice 1 (fun inp w => f inp w 1)
  let c ← assignAdvice 2 (fun inp w => f inp w 2)
  pure ![a, b, c]

/-- Copies a state to the current row. -/
def copyState (s : StCell) : Synth StCell := do
  let a ← copyAdvice 0 (s 0)
  let b ← copyAdvice 1 (s 1)
  let c ← copyAdvice 2 (s 2)
  pure ![a, b, c]

/-- Values of the cells of a state. -/
def stVal (w : Cell → Fr) (s : StCell) : Poseidon.St := fun i => w (s i)

/-- `initial_state`: a region with the constants of an empty sponge; the capacity word of
`ConstantLength<2>` is `2 << 64`. -/
def poseidonInit : Synth StCell := assignRegion 0 (do
  let a ← assignFromConstant 0 0
  let b ← assignFromConstant 1 0
  let c ← assignFromConstant 2 ((2 * 2 ^ 64 : ℕ) : Fr)
  pure ![a, b, c])

/-- `add_input`: a region of three rows, the state, the two words of the message, and the sum. -/
def poseidonAbsorb (s : StCell) (x y : Cell) : Synth StCell := assignRegion 0 (do
  let _ ← copyState s
  next
  enable .absorb
  let _ ← copyAdvice 0 x
  let _ ← copyAdvice 1 y
  next
  assignState fun _ w => ![w (s 0) + w x, w (s 1) + w y, w (s 2)])

/-- Rows of full rounds; the argument is the state in the current row. -/
def fullRows : List Poseidon.St → StCell → Synth StCell
  | [], s => pure s
  | rc :: rcs, s => do
    enable (.full rc)
    next
    let s' ← assignState fun _ w => Poseidon.fullRound rc (stVal w s)
    fullRows rcs s'

/-- Rows of pairs of partial rounds; the fourth cell of a row has the power of the first word. -/
def partialRows : List Poseidon.St → StCell → Synth StCell
  | rcA :: rcB :: rcs, s => do
    enable (.partials rcA rcB)
    let _ ← assignAdvice 3 fun _ w => (w (s 0) + rcA 0) ^ 5
    next
    let s' ← assignState fun _ w => Poseidon.partialRound rcB (Poseidon.partialRound rcA (stVal w s))
    partialRows rcs s'
  | _, s => pure s

/-- `permute`: a region with 4 full rounds, 28 pairs of partial rounds, 4 full rounds. -/
def poseidonPermute (s : StCell) : Synth StCell := assignRegion 0 (do
  let s0 ← copyState s
  let s1 ← fullRows (Poseidon.ROUND_CONSTANTS.take 4) s0
  let s2 ← partialRows ((Poseidon.ROUND_CONSTANTS.drop 4).take 56) s1
  fullRows ((Poseidon.ROUND_CONSTANTS.drop 60).take 4) s2)

/-- `PoseidonHash::init` and `hash` of two cells, src/dkg_circuit.rs:366-380 (external). -/
def poseidonHash (x y : Cell) : Synth Cell := do
  let s ← poseidonInit
  let s ← poseidonAbsorb s x y
  let s ← poseidonPermute s
  pure (s 0)

/-! ### The circuit -/

/-- The first region, src/dkg_circuit.rs:195-231: the cells of the shares and of `coeffs[0]`. -/
def sharesRegion (cfg : DkgConfig) : Synth (List Cell × Cell) := assignRegion 0 (do
  let coeffs ← mapS (fun i => assignValue fun inp => inp.coeffs i) (List.range cfg.threshold)
  let a ← nth coeffs 0
  let s0 ← foldS (fun s j => do
    let c ← nth coeffs j
    add s c) (List.range' 1 (cfg.threshold - 1)) a
  let rest ← mapS (fun i : ℕ => do
    let x ← assignConstant (i : Fr)
    let top ← nth coeffs (cfg.threshold - 1)
    foldS (fun s j => do
      let c ← nth coeffs j
      mulAdd s x c) (List.range (cfg.threshold - 1)).reverse top) (List.range' 2 (cfg.numberOfMembers - 1))
  pure (s0 :: rest, a))

/-- The region of the tables, src/dkg_circuit.rs:233-244; the G1 chip also assigns the base itself,
src/ecc_chip/point_base_chip/fix_mul.rs:102. -/
noncomputable def tablesRegion (auxG1 : G1) (auxG2 : G2) : Synth (List (List (P1 J)) × List (List (P2 J))) :=
  assignRegion 0 (do
    let tab1 ← assignTable lops1 DkgCircuit.windowSize g1 auxG1
    let _ ← assignConstant1 (J := J) g1
    let tab2 ← assignTable lops2 DkgCircuit.windowSize g2 auxG2
    pure (tab1, tab2))

/-- The region of the auxiliary point of the Grumpkin chip, src/dkg_circuit.rs:246-255;
src/grumpkin_chip.rs:103-126. -/
def auxRegion : Synth (PtCell × PtCell) := assignRegion 0 (do
  let aux ← assignPoint fun inp => inp.aux
  let neg ← negGk aux
  pure (aux, neg))

/-- The region with `g^r`, src/dkg_circuit.rs:330-345: the bits and the point. -/
def grRegion (aux auxNeg : PtCell) : Synth (List Cell × PtCell) := assignRegion 0 (do
  let g ← assignConstantGk (coords gk)
  let bits ← toBitsUnsafe fun inp => inp.random
  let gr ← mulBits aux auxNeg g bits
  pure (bits, gr))

/-- One member, src/dkg_circuit.rs:352-396: the cells of the public key, and the next free public input. -/
def memberRegion (aux auxNeg : PtCell) (bits shares : List Cell) (i offset : ℕ) : Synth (PtCell × ℕ) := do
  let p ← assignRegion 0 (do
    let pk ← assignPoint fun inp => inp.publicKeys i
    let pkr ← mulBits aux auxNeg pk bits
    pure (pkr, pk))
  let key ← poseidonHash p.1.1 p.1.2
  let cipher ← assignRegion 0 (do
    let s ← nth shares i
    add s key)
  exposePublic cipher offset
  pure (p.2, offset + 1)

/-- The loop over the shares, src/dkg_circuit.rs:279-302: `g^s` of every member. -/
noncomputable def sharesLoop (tab : List (List (P1 J))) (base : Cell) (shares : List Cell) (n offset : ℕ) : Synth ℕ :=
  foldS (fun o i => do
    let s ← nth shares i
    let e ← exposeG1 tab (some base) s o
    pure e.2) (List.range n) offset

/-- The loop over the members, src/dkg_circuit.rs:347-396: the cells of the public keys, and the next free public
input. -/
def membersLoop (aux auxNeg : PtCell) (bits shares : List Cell) (n offset : ℕ) : Synth (List PtCell × ℕ) :=
  foldS (fun st i => do
    let m ← memberRegion aux auxNeg bits shares i st.2
    pure (st.1 ++ [m.1], m.2)) (List.range n) ([], offset)

/-- `DkgCircuit::synthesize`, src/dkg_circuit.rs:174-403, with the default feature `g2chip`; the result is the
number of public inputs.  The table of the range chip (`config_range`) is a part of `Table`. -/
noncomputable def synthesize (J : IntegerImpl) (cfg : DkgConfig) (auxG1 : G1) (auxG2 : G2) : Synth ℕ := do
  let sh ← sharesRegion cfg
  let tabs ← tablesRegion (J := J) auxG1 auxG2
  let aux ← auxRegion
  let e0 ← exposeG1 tabs.1 none sh.2 0
  let o1 ← sharesLoop tabs.1 e0.1 sh.1 cfg.numberOfMembers e0.2
  let e2 ← exposeG2 tabs.2 (some e0.1) sh.2 o1
  let gr ← grRegion aux.1 aux.2
  let o3 ← exposePoint gr.2 e2.2
  let ms ← membersLoop aux.1 aux.2 gr.1 sh.1 cfg.numberOfMembers o3
  foldS (fun o pk => exposePoint pk o) ms.1 ms.2

/-- The layout of the circuit, if it can be computed, and the number of its public inputs. -/
noncomputable def layout (J : IntegerImpl) (cfg : DkgConfig) (auxG1 : G1) (auxG2 : G2) : Option (Shape × ℕ) :=
  (synthesize J cfg auxG1 auxG2 ⟨0, 0⟩).map fun o => (o.shape, o.val)

end Verif.Layout
