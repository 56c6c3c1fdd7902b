import Verif.Spec.Layout

/-!
What the honest prover does: the chip functions run, and the cells they fill satisfy what they add to the layout.
-/

namespace Verif.Layout
open Verif

/-- What is fixed in a run of the prover: the secret inputs, the public inputs, the pairs in the range table. -/
structure Setting where
  inp : Input
  inst : ℕ → Fr
  range : Fr → Fr → Prop

/-- The cells filled so far, and the values of all cells; cells outside `cells` may still change. -/
structure Known where
  cells : Set Cell
  val : Cell → Fr

/-- More cells have been filled, and those filled before keep their values. -/
def Known.Before (s s' : Known) : Prop := s.cells ⊆ s'.cells ∧ ∀ a ∈ s.cells, s'.val a = s.val a

/-- A cell has been filled with this value. -/
def Has (s : Known) (a : Cell) (v : Fr) : Prop := a ∈ s.cells ∧ s.val a = v

/-- A valuation keeps the filled cells. -/
def Keeps (s : Known) (w : Cell → Fr) : Prop := ∀ a ∈ s.cells, w a = s.val a

/-- From the position `c`, with the cells `s`, the chip function succeeds, keeps the filled cells, ends in a state with
the property `Q`, and what it has added to the layout is satisfied, whatever is put in the cells not yet filled. -/
def RunsAt (X : Setting) {α : Type} (m : Synth α) (c : Ctx) (s : Known) (Q : α → Ctx → Known → Prop) : Prop :=
  ∃ (o : Out α) (s' : Known), m c = some o ∧ s'.val = o.fill X.inp s.val ∧ s.Before s' ∧ Q o.val o.ctx s' ∧
    ∀ w, Keeps s' w → Holds o.shape ⟨w, X.inst, X.range⟩

/-- All filled cells are in earlier rows or earlier regions. -/
def Fresh (s : Known) (c : Ctx) : Prop :=
  ∀ x ∈ s.cells, x.region < c.region ∨ (x.region = c.region ∧ x.offset < c.offset)

/-- From any position after the filled cells, the chip function runs, ends after the filled cells, and its result has
the property `R`. -/
def Runs (X : Setting) {α : Type} (m : Synth α) (s : Known) (R : α → Known → Prop) : Prop :=
  ∀ c, Fresh s c → RunsAt X m c s fun a c' s' => Fresh s' c' ∧ R a s'

/-- The external integer chip is complete: `Is s i x` says that the integer `i` has been assigned with the value `x`;
the operations succeed whenever their operands allow it (nonzero denominators, unequal values in assertions), with
the value of the operation; `reduce` fills the limbs with those of the remainder. -/
structure IntegerImpl.Complete (J : IntegerImpl) (X : Setting) (Is : Known → J.I → Fq → Prop) : Prop where
  mono : ∀ s s' i x, s.Before s' → Is s i x → Is s' i x
  assignConstant : ∀ s k, Runs X (J.assignConstant k) s fun c s' => Is s' c k
  add : ∀ s a b x y, Is s a x → Is s b y → Runs X (J.add a b) s fun c s' => Is s' c (x + y)
  sub : ∀ s a b x y, Is s a x → Is s b y → Runs X (J.sub a b) s fun c s' => Is s' c (x - y)
  subSub : ∀ s a b c x y z, Is s a x → Is s b y → Is s c z →
    Runs X (J.subSub a b c) s fun d s' => Is s' d (x - y - z)
  neg : ∀ s a x, Is s a x → Runs X (J.neg a) s fun c s' => Is s' c (-x)
  mul : ∀ s a b x y, Is s a x → Is s b y → Runs X (J.mul a b) s fun c s' => Is s' c (x * y)
  mul2 : ∀ s a x, Is s a x → Runs X (J.mul2 a) s fun c s' => Is s' c (2 * x)
  square : ∀ s a x, Is s a x → Runs X (J.square a) s fun c s' => Is s' c (x * x)
  divIncomplete : ∀ s a b x y, Is s a x → Is s b y → y ≠ 0 →
    Runs X (J.divIncomplete a b) s fun c s' => Is s' c (x / y)
  invertIncomplete : ∀ s a x, Is s a x → x ≠ 0 → Runs X (J.invertIncomplete a) s fun c s' => Is s' c x⁻¹
  assertNotZero : ∀ s a x, Is s a x → x ≠ 0 → Runs X (J.assertNotZero a) s fun _ _ => True
  assertNotEqual : ∀ s a b x y, Is s a x → Is s b y → x ≠ y → Runs X (J.assertNotEqual a b) s fun _ _ => True
  select : ∀ s a b cond x y (bit : Bool), Is s a x → Is s b y → Has s cond (if bit then 1 else 0) →
    Runs X (J.select a b cond) s fun c s' => Is s' c (if bit then x else y)
  reduce : ∀ s a x, Is s a x → Runs X (J.reduce a) s fun c s' => Is s' c x ∧
    List.Forall₂ (Has s') (J.limbs c) ((List.range numberOfLimbs).map fun i => ((x.val / 2 ^ (68 * i) % 2 ^ 68 : ℕ) : Fr))

end Verif.Layout
