import Verif.Model.Twist
import Verif.Model.MainGate

/-!
Model of src/ecc_chip/integer2.rs: arithmetic of pairs of `Fq` elements in the circuit.

The chip for one `Fq` element inside a circuit over `Fr` is the external `IntegerChip` of halo2wrong
(limbs of 68 bits, range checks).  It is trusted: an assigned integer is modelled by its value modulo
`q`, and each operation by the equation modulo `q` that it enforces.
-/

namespace Verif.IntegerChip

/-- `IntegerChip::add(a, b) = c` (external). -/
def add (a b c : Fq) : Prop := c = a + b
/-- `IntegerChip::sub(a, b) = c` (external). -/
def sub (a b c : Fq) : Prop := c = a - b
/-- `IntegerChip::sub_sub(a, b, c) = d` (external). -/
def subSub (a b c d : Fq) : Prop := d = a - b - c
/-- `IntegerChip::neg(a) = c` (external). -/
def neg (a c : Fq) : Prop := c = -a
/-- `IntegerChip::mul(a, b) = c` (external). -/
def mul (a b c : Fq) : Prop := c = a * b
/-- `IntegerChip::mul2(a) = c` (external). -/
def mul2 (a c : Fq) : Prop := c = 2 * a
/-- `IntegerChip::mul3(a) = c` (external). -/
def mul3 (a c : Fq) : Prop := c = 3 * a
/-- `IntegerChip::square(a) = c` (external). -/
def square (a c : Fq) : Prop := c = a * a
/-- `IntegerChip::div_incomplete(a, b) = c` (external): only `c * b = a` is enforced. -/
def divIncomplete (a b c : Fq) : Prop := c * b = a
/-- `IntegerChip::invert_incomplete(a) = c` (external): `c * a = 1`. -/
def invertIncomplete (a c : Fq) : Prop := c * a = 1
/-- `IntegerChip::assert_not_zero(a)` (external). -/
def assertNotZero (a : Fq) : Prop := a ≠ 0
/-- `IntegerChip::assert_not_equal(a, b)` (external). -/
def assertNotEqual (a b : Fq) : Prop := a ≠ b
/-- `IntegerChip::assert_zero(a)` (external). -/
def assertZero (a : Fq) : Prop := a = 0
/-- `IntegerChip::assert_equal(a, b)` (external). -/
def assertEqual (a b : Fq) : Prop := a = b
/-- `IntegerChip::assign_constant(k) = c` (external). -/
def assignConstant (k c : Fq) : Prop := c = k
/-- `IntegerChip::reduce(a) = c` (external): new limbs for the same value. -/
def reduce (a c : Fq) : Prop := c = a
/-- `IntegerChip::select(a, b, cond) = c` (external): `a` if the condition cell is one, `b` if it is
zero; only called with boolean cells. -/
def select (a b : Fq) (cond : Fr) (c : Fq) : Prop := (cond = 1 ∧ c = a) ∨ (cond = 0 ∧ c = b)

end Verif.IntegerChip

namespace Verif.Integer2Chip

/-- `AssignedInteger2`: the pair `(i0, i1)`, src/ecc_chip/integer2.rs:45-54. -/
abbrev I2 : Type := Fq × Fq

/-- `reduce`, src/ecc_chip/integer2.rs:84-93. -/
def reduce (a c : I2) : Prop := IntegerChip.reduce a.1 c.1 ∧ IntegerChip.reduce a.2 c.2

/-- `assign_constant`, src/ecc_chip/integer2.rs:95-104. -/
def assignConstant (k c : I2) : Prop :=
  IntegerChip.assignConstant k.1 c.1 ∧ IntegerChip.assignConstant k.2 c.2

/-- `assert_equal`, src/ecc_chip/integer2.rs:106-116. -/
def assertEqual (a b : I2) : Prop :=
  IntegerChip.assertEqual a.1 b.1 ∧ IntegerChip.assertEqual a.2 b.2

/-- `assert_zero`, src/ecc_chip/integer2.rs:118-129. -/
def assertZero (a : I2) : Prop :=
  ∃ a', reduce a a' ∧ IntegerChip.assertZero a'.1 ∧ IntegerChip.assertZero a'.2

/-- `add`, src/ecc_chip/integer2.rs:154-164. -/
def add (a b c : I2) : Prop := IntegerChip.add a.1 b.1 c.1 ∧ IntegerChip.add a.2 b.2 c.2

/-- `sub`, src/ecc_chip/integer2.rs:166-176. -/
def sub (a b c : I2) : Prop := IntegerChip.sub a.1 b.1 c.1 ∧ IntegerChip.sub a.2 b.2 c.2

/-- `sub_sub`, src/ecc_chip/integer2.rs:178-189. -/
def subSub (a b c d : I2) : Prop :=
  IntegerChip.subSub a.1 b.1 c.1 d.1 ∧ IntegerChip.subSub a.2 b.2 c.2 d.2

/-- `neg`, src/ecc_chip/integer2.rs:191-200. -/
def neg (a c : I2) : Prop := IntegerChip.neg a.1 c.1 ∧ IntegerChip.neg a.2 c.2

/-- `mul`, src/ecc_chip/integer2.rs:202-218 (three multiplications). -/
def mul (a b c : I2) : Prop :=
  ∃ t1 t0 t2 t3 t1' t0',
    IntegerChip.mul a.1 b.1 t1 ∧
    IntegerChip.add a.1 a.2 t0 ∧
    IntegerChip.mul a.2 b.2 t2 ∧
    IntegerChip.add b.1 b.2 t3 ∧
    IntegerChip.sub t1 t2 c.1 ∧
    IntegerChip.add t1 t2 t1' ∧
    IntegerChip.mul t0 t3 t0' ∧
    IntegerChip.sub t0' t1' c.2

/-- `mul2`, src/ecc_chip/integer2.rs:220-229. -/
def mul2 (a c : I2) : Prop := IntegerChip.mul2 a.1 c.1 ∧ IntegerChip.mul2 a.2 c.2

/-- `mul3`, src/ecc_chip/integer2.rs:231-240. -/
def mul3 (a c : I2) : Prop := IntegerChip.mul3 a.1 c.1 ∧ IntegerChip.mul3 a.2 c.2

/-- `square`, src/ecc_chip/integer2.rs:242-255. -/
def square (a c : I2) : Prop :=
  ∃ t0 t1 t2,
    IntegerChip.square a.1 t0 ∧
    IntegerChip.square a.2 t1 ∧
    IntegerChip.sub t0 t1 c.1 ∧
    IntegerChip.mul a.1 a.2 t2 ∧
    IntegerChip.mul2 t2 c.2

/-- `norm`, src/ecc_chip/integer2.rs:257-265. -/
def norm (a : I2) (n : Fq) : Prop :=
  ∃ t0 t1, IntegerChip.square a.1 t0 ∧ IntegerChip.square a.2 t1 ∧ IntegerChip.add t0 t1 n

/-- `div_incomplete`, src/ecc_chip/integer2.rs:267-282. -/
def divIncomplete (a b c : I2) : Prop :=
  ∃ n ninv i0 i1 i1',
    norm b n ∧
    IntegerChip.invertIncomplete n ninv ∧
    IntegerChip.mul b.1 ninv i0 ∧
    IntegerChip.mul b.2 ninv i1 ∧
    IntegerChip.neg i1 i1' ∧
    mul a (i0, i1') c

/-- `select`, src/ecc_chip/integer2.rs:284-295. -/
def select (a b : I2) (cond : Fr) (c : I2) : Prop :=
  IntegerChip.select a.1 b.1 cond c.1 ∧ IntegerChip.select a.2 b.2 cond c.2

/-- `assert_not_zero`, src/ecc_chip/integer2.rs:142-152. -/
def assertNotZero (a : I2) : Prop := ∃ n, norm a n ∧ IntegerChip.assertNotZero n

/-- `assert_not_equal`, src/ecc_chip/integer2.rs:131-140. -/
def assertNotEqual (a b : I2) : Prop := ∃ c, sub a b c ∧ assertNotZero c

end Verif.Integer2Chip
