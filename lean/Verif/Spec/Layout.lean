import Verif.Model.LayoutChips

/-!
What a chip function guarantees about tables, and what is required of the external integer chip.
-/

namespace Verif.Layout
open Verif

/-- Whenever the chip function succeeds, its result has the property `R` (which may speak about the values of cells
in the table `T`) if the table satisfies what the function has added to the layout. -/
def Ensures (T : Table) {α : Type} (m : Synth α) (R : α → Prop) : Prop :=
  ∀ c o, m c = some o → Holds o.shape T → R o.val

/-- The external integer chip is correct on the table `T`: an assigned integer that is in range (`good`) has a
value modulo `q`, and the operations constrain the value of the result as in `Verif.IntegerChip`; `reduce` gives
limbs in the ranges of a remainder. -/
structure IntegerImpl.Correct (J : IntegerImpl) (T : Table) (good : J.I → Prop) (val : J.I → Fq) : Prop where
  assignConstant : ∀ k, Ensures T (J.assignConstant k) fun c => good c ∧ IntegerChip.assignConstant k (val c)
  add : ∀ a b, good a → good b → Ensures T (J.add a b) fun c => good c ∧ IntegerChip.add (val a) (val b) (val c)
  sub : ∀ a b, good a → good b → Ensures T (J.sub a b) fun c => good c ∧ IntegerChip.sub (val a) (val b) (val c)
  subSub : ∀ a b c, good a → good b → good c →
    Ensures T (J.subSub a b c) fun d => good d ∧ IntegerChip.subSub (val a) (val b) (val c) (val d)
  neg : ∀ a, good a → Ensures T (J.neg a) fun c => good c ∧ IntegerChip.neg (val a) (val c)
  mul : ∀ a b, good a → good b → Ensures T (J.mul a b) fun c => good c ∧ IntegerChip.mul (val a) (val b) (val c)
  mul2 : ∀ a, good a → Ensures T (J.mul2 a) fun c => good c ∧ IntegerChip.mul2 (val a) (val c)
  square : ∀ a, good a → Ensures T (J.square a) fun c => good c ∧ IntegerChip.square (val a) (val c)
  divIncomplete : ∀ a b, good a → good b →
    Ensures T (J.divIncomplete a b) fun c => good c ∧ IntegerChip.divIncomplete (val a) (val b) (val c)
  invertIncomplete : ∀ a, good a →
    Ensures T (J.invertIncomplete a) fun c => good c ∧ IntegerChip.invertIncomplete (val a) (val c)
  assertNotZero : ∀ a, good a → Ensures T (J.assertNotZero a) fun _ => IntegerChip.assertNotZero (val a)
  assertNotEqual : ∀ a b, good a → good b →
    Ensures T (J.assertNotEqual a b) fun _ => IntegerChip.assertNotEqual (val a) (val b)
  select : ∀ a b cond, good a → good b → T.cell cond = 0 ∨ T.cell cond = 1 →
    Ensures T (J.select a b cond) fun c => good c ∧ IntegerChip.select (val a) (val b) (T.cell cond) (val c)
  reduce : ∀ a, good a → Ensures T (J.reduce a) fun c => good c ∧ IntegerChip.reduce (val a) (val c) ∧
    DkgCircuit.normalize (val a) ((J.limbs c).map T.cell)

end Verif.Layout
