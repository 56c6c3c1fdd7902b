import Verif.Model.MainGate

/-!
Model of src/grumpkin_chip.rs, src/grumpkin_chip/add.rs and src/grumpkin_chip/mul.rs: Grumpkin
arithmetic in the circuit, in the native field.
-/

namespace Verif.GrumpkinChip
open Verif.MainGate

/-- `AssignedPoint`: values of the two coordinate cells, src/grumpkin_chip.rs:15-20. -/
abbrev Pt : Type := Fr × Fr

/-- `THREE_OVER_TWO`, src/grumpkin_chip/add.rs:9-15 (four 64-bit limbs, least significant first). -/
def THREE_OVER_TWO : Fr :=
  ((0xa1f0fac9f8000002 + 2 ^ 64 * (0x9419f4243cdcb848 + 2 ^ 64 *
    (0xdc2822db40c0ac2e + 2 ^ 64 * 0x183227397098d014)) : ℕ) : Fr)

/-- `GrumpkinChip::curve_b`, src/grumpkin_chip.rs:64-66. -/
def curveB : Fr := -17

/-- `mul_sub`: `d = a * b - c`, src/grumpkin_chip/add.rs:18-44. -/
def mulSub (a b c d : Fr) : Prop := apply [toMul a, toMul b, toSub c, toSub d] 0 .oneLinerMul 0

/-- `mul_sub_sub`: `e = a * b - c - d`, src/grumpkin_chip/add.rs:47-82. -/
def mulSubSub (a b c d e : Fr) : Prop :=
  apply [toMul a, toMul b, toSub c, toSub d, toSub e] 0 .oneLinerMul 0

/-- `sub_invert_unsafe`: `c = 1 / (a - b)`, src/grumpkin_chip/add.rs:85-115; the cells 1 and 3 of the
row are separate and constrained equal. -/
def subInvertUnsafe (a b c : Fr) : Prop :=
  ∃ c', apply [toMul a, toMul c, toMul b, toMul c'] (-1) (.oneLinerDoubleMul (-1)) 0 ∧ c = c'

/-- `sub_mul`: `d = (a - b) * c`, src/grumpkin_chip/add.rs:119-152. -/
def subMul (a b c d : Fr) : Prop :=
  apply [toMul a, toMul c, toMul b, toMul c, toSub d] 0 (.oneLinerDoubleMul (-1)) 0

/-- `mul`: `c = s * a * b`, src/grumpkin_chip/add.rs:155-182 (the coefficient of the next row is
zero, so its value `e` does not matter). -/
def scaleMul (s a b c e : Fr) : Prop :=
  apply [toMul a, toMul b, toSub c] 0 (.combineToNextScaleMul 0 s) e

/-- `lambda_double_unsafe`: `lambda * y = 3/2 x * x`, src/grumpkin_chip/add.rs:184-213. -/
def lambdaDoubleUnsafe (a : Pt) (l : Fr) : Prop :=
  apply [toMul l, toMul a.2, toMul a.1, toMul a.1] 0 (.oneLinerDoubleMul (-THREE_OVER_TWO)) 0

/-- `add_incomplete`, src/grumpkin_chip/add.rs:224-315. -/
def addIncomplete (a b c : Pt) : Prop :=
  ∃ l l' t,
    apply [toMul l, toMul l', toSub a.1, toSub b.1, toSub c.1] 0 .oneLinerMul 0 ∧ l = l' ∧
    mulSub l a.1 a.2 t ∧
    apply [toMul l, toMul b.1, toSub b.2, toSub t] 0 .oneLinerMul 0 ∧
    apply [toMul l, toMul c.1, toAdd c.2, toSub t] 0 .oneLinerMul 0

/-- `add`, src/grumpkin_chip/add.rs:318-339. -/
def add (a b c : Pt) : Prop :=
  ∃ inv l s,
    subInvertUnsafe a.1 b.1 inv ∧
    subMul a.2 b.2 inv l ∧
    mulSubSub l l a.1 b.1 c.1 ∧
    sub a.1 c.1 s ∧
    mulSub l s a.2 c.2

/-- `double_incomplete`, src/grumpkin_chip/add.rs:344-363. -/
def doubleIncomplete (a c : Pt) : Prop :=
  ∃ l s,
    lambdaDoubleUnsafe a l ∧
    mulSubSub l l a.1 a.1 c.1 ∧
    sub a.1 c.1 s ∧
    mulSub l s a.2 c.2

/-- `double`, src/grumpkin_chip/add.rs:366-387. -/
def double (a c : Pt) : Prop :=
  ∃ num inv l s e,
    scaleMul THREE_OVER_TWO a.1 a.1 num e ∧
    invertUnsafe a.2 inv ∧
    mul num inv l ∧
    mulSubSub l l a.1 a.1 c.1 ∧
    sub a.1 c.1 s ∧
    mulSub l s a.2 c.2

/-- `assert_is_on_curve`, src/grumpkin_chip.rs:143-159. -/
def assertIsOnCurve (p : Pt) : Prop :=
  ∃ y2 x2 x3 x3b,
    mul p.2 p.2 y2 ∧ mul p.1 p.1 x2 ∧ mul x2 p.1 x3 ∧ addConstant x3 curveB x3b ∧ y2 = x3b

/-- `assign_point`, src/grumpkin_chip.rs:128-141: free cells, constrained to the curve. -/
def assignPoint (p : Pt) : Prop := assertIsOnCurve p

/-- `assign_constant`, src/grumpkin_chip.rs:87-101. -/
def assignConstant (k p : Pt) : Prop :=
  MainGate.assignConstant k.1 p.1 ∧ MainGate.assignConstant k.2 p.2

/-- `assert_equal`, src/grumpkin_chip.rs:161-170. -/
def assertEqual (p0 p1 : Pt) : Prop := p0.1 = p1.1 ∧ p0.2 = p1.2

/-- `neg`, src/grumpkin_chip.rs:172-180: the abscissa cell is shared. -/
def neg (p c : Pt) : Prop := negWithConstant p.2 0 c.2 ∧ c.1 = p.1

/-- `select`: `p1` if the condition is one, `p2` if it is zero, src/grumpkin_chip.rs:183-195. -/
def select (cond : Fr) (p1 p2 c : Pt) : Prop :=
  MainGate.select p1.1 p2.1 cond c.1 ∧ MainGate.select p1.2 p2.2 cond c.2

/-- The loop of `mul_bits`, src/grumpkin_chip/mul.rs:36-41, from the pair `(res, double)`. -/
def mulBitsLoop : List Fr → Pt → Pt → Pt → Prop
  | [], res, _, final => final = res
  | bit :: bits, res, dbl, final =>
    ∃ t res' dbl', add res dbl t ∧ select bit t res res' ∧ doubleIncomplete dbl dbl' ∧
      mulBitsLoop bits res' dbl' final

/-- `mul_bits`, src/grumpkin_chip/mul.rs:20-45, with the assigned auxiliary point and its negation
(both present, since `synthesize` assigns them first, src/dkg_circuit.rs:246-255). -/
def mulBits (aux auxNeg point : Pt) (bits : List Fr) (c : Pt) : Prop :=
  ∃ res, mulBitsLoop bits aux point res ∧ add res auxNeg c

/-- `to_bits_unsafe`, src/grumpkin_chip.rs:222-241: `NUM_BITS = 254` boolean cells, not compared with
any value. -/
def toBitsUnsafe (bits : List Fr) : Prop := bits.length = 254 ∧ ∀ b ∈ bits, assignBit b

/-- `mul`, src/grumpkin_chip/mul.rs:8-18: `to_bits` of the scalar, then `mul_bits`. -/
def mulScalar (aux auxNeg point : Pt) (scalar : Fr) (c : Pt) : Prop :=
  ∃ bits, toBits scalar 254 bits ∧ mulBits aux auxNeg point bits c

end Verif.GrumpkinChip
