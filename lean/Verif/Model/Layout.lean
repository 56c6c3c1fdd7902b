import Verif.Model.MainGate
import Verif.Model.Poseidon

/-!
The circuit as a table: which cells a chip function assigns, which gates it enables in which rows, and
which copy constraints it adds, together with the values the prover puts in the cells.  The other model
of the circuit (`GrumpkinChip`, `FixedPoint`, `DkgCircuit`) sees only the values of the cells.

As in halo2, a cell is named by its region, its row in the region and its column, and the chip
functions cannot look at values (`Value<..>` of halo2 is opaque): they produce the layout without the
witness, and a function that fills in the witness.  So the layout is the same in key generation
(`DkgCircuit::dummy`, src/dkg_circuit.rs:132-150) and in proving.

External (halo2, halo2wrong `maingate`, `halo2_gadgets`), rendered from their documentation: `RegionCtx`,
`MainGate`, `Pow5Chip`.
-/

namespace Verif.Layout
open Verif MainGate

/-- A cell of the five advice columns (halo2 `Cell`). -/
structure Cell where
  region : ℕ
  offset : ℕ
  col : Fin 5
deriving DecidableEq

/-- The fixed cells of a row of the main gate. -/
structure MainRow where
  coeff : Fin 5 → Fr
  ab : Fr
  cd : Fr
  next : Fr
  const : Fr

/-- What a chip function may enable in a row: the main gate, the lookups of the range chip (the first
four cells with the composition tag, or the first cell with some tag), the gates of `Pow5Chip`;
src/dkg_circuit.rs:40-81. -/
inductive Gate where
  | main (m : MainRow)
  | comp
  | tagged (t : Fr)
  | full (rc : Poseidon.St)
  | partials (rcA rcB : Poseidon.St)
  | absorb

/-- The layout: gates with region and row, copy constraints, cells constrained to constants (halo2
`assign_advice_from_constant`, the constants column of src/dkg_circuit.rs:66), cells constrained to
public inputs. -/
structure Shape where
  gates : List (ℕ × ℕ × Gate)
  copies : List (Cell × Cell)
  constants : List (Cell × Fr)
  publics : List (Cell × ℕ)

/-- Values of all cells, the public inputs, and the pairs in the table of the range chip. -/
structure Table where
  cell : Cell → Fr
  inst : ℕ → Fr
  range : Fr → Fr → Prop

/-- Values of the first three columns of a row. -/
def Table.state (T : Table) (k i : ℕ) : Poseidon.St := ![T.cell ⟨k, i, 0⟩, T.cell ⟨k, i, 1⟩, T.cell ⟨k, i, 2⟩]

/-- A gate is satisfied in row `i` of region `k`. -/
def Gate.holds (T : Table) (k i : ℕ) : Gate → Prop
  | .main m =>
      T.cell ⟨k, i, 0⟩ * m.coeff 0 + T.cell ⟨k, i, 1⟩ * m.coeff 1 + T.cell ⟨k, i, 2⟩ * m.coeff 2 +
        T.cell ⟨k, i, 3⟩ * m.coeff 3 + T.cell ⟨k, i, 4⟩ * m.coeff 4 +
        T.cell ⟨k, i, 0⟩ * T.cell ⟨k, i, 1⟩ * m.ab + T.cell ⟨k, i, 2⟩ * T.cell ⟨k, i, 3⟩ * m.cd +
        m.next * T.cell ⟨k, i + 1, 4⟩ + m.const = 0
  | .comp => T.range 5 (T.cell ⟨k, i, 0⟩) ∧ T.range 5 (T.cell ⟨k, i, 1⟩) ∧ T.range 5 (T.cell ⟨k, i, 2⟩) ∧
      T.range 5 (T.cell ⟨k, i, 3⟩)
  | .tagged t => T.range t (T.cell ⟨k, i, 0⟩)
  | .full rc => Poseidon.FullGate rc (T.state k i) (T.state k (i + 1))
  | .partials rcA rcB =>
      Poseidon.PartialGate rcA rcB (T.state k i) (T.cell ⟨k, i, 3⟩) (T.state k (i + 1))
  | .absorb => ∀ p, i = p + 1 → T.state k (i + 1) =
      ![T.state k p 0 + T.state k i 0, T.state k p 1 + T.state k i 1, T.state k p 2]

/-- The table satisfies the layout. -/
structure Holds (S : Shape) (T : Table) : Prop where
  gates : ∀ k i g, (k, i, g) ∈ S.gates → g.holds T k i
  copies : ∀ c c', (c, c') ∈ S.copies → T.cell c = T.cell c'
  constants : ∀ c x, (c, x) ∈ S.constants → T.cell c = x
  publics : ∀ c j, (c, j) ∈ S.publics → T.cell c = T.inst j

/-- The secret inputs of the circuit, src/dkg_circuit.rs:102-109: coefficients, `random`, coordinates of
the public keys and of the auxiliary point of the Grumpkin chip. -/
structure Input where
  coeffs : ℕ → Fr
  random : Fr
  publicKeys : ℕ → Fr × Fr
  aux : Fr × Fr

/-- The current region and row (halo2wrong `RegionCtx`). -/
structure Ctx where
  region : ℕ
  offset : ℕ

/-- No gates and no constraints. -/
def Shape.empty : Shape := ⟨[], [], [], []⟩

/-- Two layouts together. -/
def Shape.append (S S' : Shape) : Shape :=
  ⟨S.gates ++ S'.gates, S.copies ++ S'.copies, S.constants ++ S'.constants, S.publics ++ S'.publics⟩

/-- The result of a chip function: its value, the new position, what it adds to the layout, and how the prover
fills the new cells. -/
structure Out (α : Type) where
  val : α
  ctx : Ctx
  shape : Shape
  fill : Input → (Cell → Fr) → (Cell → Fr)

/-- Chip functions; `none` is an error or a failed assertion. -/
def Synth (α : Type) : Type := Ctx → Option (Out α)

instance : Monad Synth where
  pure a := fun c => some ⟨a, c, .empty, fun _ w => w⟩
  bind m f := fun c => match m c with
    | none => none
    | some o => match f o.val o.ctx with
      | none => none
      | some o' => some ⟨o'.val, o'.ctx, o.shape.append o'.shape, fun inp w => o'.fill inp (o.fill inp w)⟩

/-- A failed assertion. -/
def fail {α : Type} : Synth α := fun _ => none

/-- An assertion. -/
def check (p : Prop) [Decidable p] : Synth Unit := if p then pure () else fail

/-- A loop that collects the results. -/
def mapS {α β : Type} (f : α → Synth β) : List α → Synth (List β)
  | [] => pure []
  | x :: xs => do
    let y ← f x
    let ys ← mapS f xs
    pure (y :: ys)

/-- A loop with an accumulator. -/
def foldS {α β : Type} (f : β → α → Synth β) : List α → β → Synth β
  | [], b => pure b
  | x :: xs, b => do
    let b' ← f b x
    foldS f xs b'

/-- `layouter.assign_region`, with the initial row of its `RegionCtx` (external). -/
def assignRegion {α : Type} (offset : ℕ) (m : Synth α) : Synth α :=
  fun c => m ⟨c.region + 1, offset⟩

/-- `ctx.constrain_equal` (external). -/
def constrainEqual (a b : Cell) : Synth Unit := fun c =>
  some ⟨(), c, ⟨[], [(a, b)], [], []⟩, fun _ w => w⟩

/-- `main_gate.expose_public` (external): `layouter.constrain_instance`. -/
def exposePublic (a : Cell) (j : ℕ) : Synth Unit := fun c =>
  some ⟨(), c, ⟨[], [], [], [(a, j)]⟩, fun _ w => w⟩

/-- Enables a gate in the current row. -/
def enable (g : Gate) : Synth Unit := fun c =>
  some ⟨(), c, ⟨[(c.region, c.offset, g)], [], [], []⟩, fun _ w => w⟩

/-- `ctx.next()` (external). -/
def next : Synth Unit := fun c => some ⟨(), ⟨c.region, c.offset + 1⟩, .empty, fun _ w => w⟩

/-- `region.assign_advice` in the current row (external). -/
def assignAdvice (col : Fin 5) (f : Input → (Cell → Fr) → Fr) : Synth Cell := fun c =>
  some ⟨⟨c.region, c.offset, col⟩, c, .empty,
    fun inp w => Function.update w ⟨c.region, c.offset, col⟩ (f inp w)⟩

/-- Assigns a cell of the current row with the value of another cell and constrains the two to be equal
(`copy_advice`, external). -/
def copyAdvice (col : Fin 5) (a : Cell) : Synth Cell := do
  let x ← assignAdvice col (fun _ w => w a)
  constrainEqual a x
  pure x

/-- `assign_advice_from_constant` (external). -/
def assignFromConstant (col : Fin 5) (x : Fr) : Synth Cell := do
  let a ← assignAdvice col (fun _ _ => x)
  fun c => some ⟨a, c, ⟨[], [], [(a, x)], []⟩, fun _ w => w⟩

/-! ### The main gate (external) -/

/-- `Term`: an assigned cell, or a value to be assigned, with its linear coefficient. -/
inductive Arg where
  | assigned (a : Cell) (coeff : Fr)
  | unassigned (f : Input → (Cell → Fr) → Fr) (coeff : Fr)

/-- The linear coefficient of a term. -/
def Arg.coeff : Arg → Fr
  | .assigned _ k => k
  | .unassigned _ k => k

/-- `Term::assigned_to_mul`. -/
def am (a : Cell) : Arg := .assigned a 0
/-- `Term::assigned_to_add`. -/
def aa (a : Cell) : Arg := .assigned a 1
/-- `Term::assigned_to_sub`. -/
def as (a : Cell) : Arg := .assigned a (-1)
/-- `Term::unassigned_to_mul`. -/
def um (f : Input → (Cell → Fr) → Fr) : Arg := .unassigned f 0
/-- `Term::unassigned_to_add`. -/
def ua (f : Input → (Cell → Fr) → Fr) : Arg := .unassigned f 1
/-- `Term::unassigned_to_sub`. -/
def us (f : Input → (Cell → Fr) → Fr) : Arg := .unassigned f (-1)

/-- Assigns one term of a row. -/
def assignArg (col : Fin 5) : Arg → Synth Cell
  | .assigned a _ => copyAdvice col a
  | .unassigned f _ => assignAdvice col f

/-- `MainGate::apply` (external): the terms go to the columns in order, the row gets the coefficients
of the combination.  At most five terms. -/
def apply (ts : List Arg) (const : Fr) (o : Comb) : Synth (List Cell) := do
  check (ts.length ≤ 5)
  let cells ← mapS (fun p : Fin 5 × Arg => assignArg p.1 p.2) ((List.finRange 5).zip ts)
  enable (.main ⟨fun j => (ts.map Arg.coeff).getD j 0, o.ab, o.cd, o.next, const⟩)
  next
  pure cells

/-- Indexing of a vector (`xs[i]`, `swap_remove(i)`), which panics out of bounds. -/
def nth {α : Type} (xs : List α) (i : ℕ) : Synth α := fun c => match xs[i]? with
  | some a => some ⟨a, c, .empty, fun _ w => w⟩
  | none => none

/-- `main_gate.assign_value` (external): a row without gate. -/
def assignValue (f : Input → Fr) : Synth Cell := do
  let a ← assignAdvice 0 (fun inp _ => f inp)
  next
  pure a

/-- `main_gate.add` (external). -/
def add (a b : Cell) : Synth Cell := do
  let l ← apply [aa a, aa b, us fun _ w => w a + w b] 0 .oneLinerAdd
  nth l 2
/-- `main_gate.sub` (external). -/
def sub (a b : Cell) : Synth Cell := do
  let l ← apply [aa a, as b, us fun _ w => w a - w b] 0 .oneLinerAdd
  nth l 2
/-- `main_gate.mul` (external). -/
def mul (a b : Cell) : Synth Cell := do
  let l ← apply [am a, am b, us fun _ w => w a * w b] 0 .oneLinerMul
  nth l 2
/-- `main_gate.mul_add` (external). -/
def mulAdd (a b c : Cell) : Synth Cell := do
  let l ← apply [am a, am b, aa c, us fun _ w => w a * w b + w c] 0 .oneLinerMul
  nth l 3
/-- `main_gate.add_constant` (external). -/
def addConstant (a : Cell) (k : Fr) : Synth Cell := do
  let l ← apply [aa a, us fun _ w => w a + k] k .oneLinerAdd
  nth l 1
/-- `main_gate.neg_with_constant` (external). -/
def negWithConstant (a : Cell) (k : Fr) : Synth Cell := do
  let l ← apply [as a, us fun _ w => k - w a] k .oneLinerAdd
  nth l 1
/-- `main_gate.assign_constant` (external). -/
def assignConstant (k : Fr) : Synth Cell := do
  let l ← apply [us fun _ _ => k] k .oneLinerAdd
  nth l 0
/-- `main_gate.invert_unsafe` (external). -/
def invertUnsafe (a : Cell) : Synth Cell := do
  let l ← apply [am a, um fun _ w => (w a)⁻¹] (-1) .oneLinerMul
  nth l 1
/-- `main_gate.select` (external): `a` if the condition is one, `b` if it is zero. -/
def select (a b cond : Cell) : Synth Cell := do
  let l ← apply [am cond, am a, am cond, aa b, us fun _ w => w cond * w a - w cond * w b + w b] 0
    (.oneLinerDoubleMul (-1))
  nth l 4
/-- `main_gate.assign_bit` (external). -/
def assignBit (f : Input → (Cell → Fr) → Fr) : Synth Cell := do
  let l ← apply [um f, um f, us f] 0 .oneLinerMul
  let b' ← nth l 0
  let b'' ← nth l 1
  let b ← nth l 2
  constrainEqual b' b
  constrainEqual b'' b
  pure b
/-- `main_gate.assert_equal` (external). -/
def assertEqual (a b : Cell) : Synth Unit := constrainEqual a b

/-- Single rows of `main_gate.compose` (external) for the last bits: `(i, acc)` is the index of the first bit and the
sum so far. -/
def composeTail : List Cell → ℕ × Cell → Synth (ℕ × Cell)
  | [], p => pure p
  | b :: bits, p => do
    let k : Fr := 2 ^ p.1
    let l ← apply [.assigned b k, aa p.2, us fun _ w => k * w b + w p.2] 0 .oneLinerAdd
    let a ← nth l 2
    composeTail bits (p.1 + 1, a)

/-- The rows of `main_gate.compose` (external) over the bits of a number, four in a row: the fifth cell
of each row is the sum of the rows before.  `i` is the index of the first bit. -/
def composeRows : ℕ → ℕ → List Cell → Cell → Synth Cell
  | 0, _, _, acc => pure acc
  | fuel + 1, i, bits, acc => match bits with
    | b0 :: b1 :: b2 :: b3 :: rest => do
        let k0 : Fr := 2 ^ i
        let k1 : Fr := 2 ^ (i + 1)
        let k2 : Fr := 2 ^ (i + 2)
        let k3 : Fr := 2 ^ (i + 3)
        let _ ← apply [.assigned b0 k0, .assigned b1 k1, .assigned b2 k2, .assigned b3 k3, aa acc] 0
          (.combineToNextScaleMul (-1) 0)
        let acc' ← assignAdvice 4 (fun _ w => k0 * w b0 + k1 * w b1 + k2 * w b2 + k3 * w b3 + w acc)
        composeRows fuel (i + 4) rest acc'
    | [] => do
        next
        pure acc
    | _ => do
        let p ← composeTail bits (i, acc)
        pure p.2

/-- Bit `i` of a field element (`decompose` of halo2wrong, external). -/
def bitOf (x : Fr) (i : ℕ) : Fr := if x.val.testBit i then 1 else 0

/-- `main_gate.to_bits` (external): boolean cells, least significant first, whose weighted sum is
constrained to the value. -/
def toBits (a : Cell) (n : ℕ) : Synth (List Cell) := do
  let bits ← mapS (fun i => assignBit fun _ w => bitOf (w a) i) (List.range n)
  let zero ← assignConstant 0
  let sum ← composeRows n 0 bits zero
  assertEqual sum a
  pure bits

end Verif.Layout
