import Verif.Lemmas.Primes

/-!
The main gate of halo2wrong (external crate `halo2_maingate`) as used by the chips of zkdvrf: one
row holds up to five cells and one polynomial equation.  A chip function is modelled by the relation
between the values of its input and output cells: there are values of the cells it assigns
satisfying the equations it adds.  Which value the honest prover computes plays no part (it is used in
completeness theorems only).
-/

namespace Verif.MainGate

/-- `Term`, a cell with its linear coefficient (external; src/grumpkin_chip/add.rs:36-39). -/
structure Term where
  val : Fr
  coeff : Fr

/-- `Term::assigned_to_mul`, `Term::unassigned_to_mul`: no linear part. -/
def toMul (v : Fr) : Term := ⟨v, 0⟩
/-- `Term::assigned_to_add`, `Term::unassigned_to_add`. -/
def toAdd (v : Fr) : Term := ⟨v, 1⟩
/-- `Term::assigned_to_sub`, `Term::unassigned_to_sub`. -/
def toSub (v : Fr) : Term := ⟨v, -1⟩

/-- `CombinationOption` (external): the coefficients of `a*b`, `c*d` and of the fifth cell of the
next row. -/
inductive Comb where
  | oneLinerMul
  | oneLinerAdd
  | oneLinerDoubleMul (s : Fr)
  | combineToNextScaleMul (next s : Fr)

/-- Coefficient of the product of the first two cells. -/
def Comb.ab : Comb → Fr
  | .oneLinerMul => 1
  | .oneLinerAdd => 0
  | .oneLinerDoubleMul _ => 1
  | .combineToNextScaleMul _ s => s

/-- Coefficient of the product of the third and fourth cell. -/
def Comb.cd : Comb → Fr
  | .oneLinerDoubleMul s => s
  | _ => 0

/-- Coefficient of the fifth cell of the next row. -/
def Comb.next : Comb → Fr
  | .combineToNextScaleMul n _ => n
  | _ => 0

/-- Value of the cell at a position (unused cells are zero). -/
def cell (ts : List Term) (i : ℕ) : Fr := (ts.getD i ⟨0, 0⟩).val

/-- `MainGate::apply` (external): the equation of one row; `nextE` is the value of the fifth cell of
the next row. -/
def apply (ts : List Term) (const : Fr) (o : Comb) (nextE : Fr) : Prop :=
  (ts.map fun t => t.coeff * t.val).sum + o.ab * (cell ts 0 * cell ts 1) +
    o.cd * (cell ts 2 * cell ts 3) + o.next * nextE + const = 0

/-- `main_gate.add(a, b) = c` (external; src/dkg_circuit.rs:211 and 387). -/
def add (a b c : Fr) : Prop := apply [toAdd a, toAdd b, toSub c] 0 .oneLinerAdd 0
/-- `main_gate.sub(a, b) = c` (external; src/grumpkin_chip/add.rs:328). -/
def sub (a b c : Fr) : Prop := apply [toAdd a, toSub b, toSub c] 0 .oneLinerAdd 0
/-- `main_gate.mul(a, b) = c` (external; src/grumpkin_chip.rs:150). -/
def mul (a b c : Fr) : Prop := apply [toMul a, toMul b, toSub c] 0 .oneLinerMul 0
/-- `main_gate.mul_add(a, b, c) = d` (external; src/dkg_circuit.rs:220). -/
def mulAdd (a b c d : Fr) : Prop := apply [toMul a, toMul b, toAdd c, toSub d] 0 .oneLinerMul 0
/-- `main_gate.add_constant(a, k) = c` (external; src/grumpkin_chip.rs:153). -/
def addConstant (a k c : Fr) : Prop := apply [toAdd a, toSub c] k .oneLinerAdd 0
/-- `main_gate.neg_with_constant(a, k) = c`: `c = k - a` (external; src/grumpkin_chip.rs:176). -/
def negWithConstant (a k c : Fr) : Prop := apply [toSub a, toSub c] k .oneLinerAdd 0
/-- `main_gate.assign_constant(k)` (external). -/
def assignConstant (k c : Fr) : Prop := apply [toSub c] k .oneLinerAdd 0
/-- `main_gate.invert_unsafe(a) = c` (external; src/grumpkin_chip/add.rs:369): `a * c = 1`. -/
def invertUnsafe (a c : Fr) : Prop := apply [toMul a, toMul c] (-1) .oneLinerMul 0
/-- `main_gate.select(a, b, cond) = c` (external; src/grumpkin_chip.rs:189):
`cond * a - cond * b + b - c = 0`. -/
def select (a b cond c : Fr) : Prop :=
  apply [toMul cond, toMul a, toMul cond, toAdd b, toSub c] 0 (.oneLinerDoubleMul (-1)) 0
/-- `main_gate.assign_bit` (external; src/grumpkin_chip.rs:237): `bit * bit' - bit = 0` with the
three cells constrained equal. -/
def assignBit (b : Fr) : Prop :=
  ∃ b' b'', apply [toMul b', toMul b'', toSub b] 0 .oneLinerMul 0 ∧ b' = b ∧ b'' = b

/-- `main_gate.to_bits(v, n) = bits` (external; src/ecc_chip/point_base_chip/fix_mul.rs:181):
little-endian boolean cells whose weighted sum is `v` in the field. -/
def toBits (v : Fr) (n : ℕ) (bits : List Fr) : Prop :=
  bits.length = n ∧ (∀ b ∈ bits, assignBit b) ∧
    bits.foldr (fun b acc => b + 2 * acc) 0 = v

end Verif.MainGate
