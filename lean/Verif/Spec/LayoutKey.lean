import Mathlib.Logic.Relation
import Verif.Spec.Layout
import Verif.Spec.Halo2Poly

/-!
When a verifying key belongs to a layout: the regions are placed in the rows of the domain, the fixed columns contain
what the gates need, and the permutation links the cells of copy constraints.  Key generation (`keygen_vk`, external,
src/lib.rs and src/dkg_proof.rs) is assumed to produce such keys.
-/

namespace Verif.Layout
open Verif Polynomial Spec.Halo2

/-- A fixed column in a row. -/
noncomputable def fixedAt (V : Key) (K : KeyPolys) (j : Fin 23) (i : ℕ) : Fr := (K.fixed j).eval (V.omega ^ i)

/-- What the fixed columns of row `i` must be for a gate. -/
def Gate.placed (V : Key) (K : KeyPolys) (i : ℕ) : Gate → Prop
  | .main m => (fixedAt V K 0 i = m.coeff 0 ∧ fixedAt V K 1 i = m.coeff 1 ∧ fixedAt V K 2 i = m.coeff 2 ∧
      fixedAt V K 3 i = m.coeff 3 ∧ fixedAt V K 4 i = m.coeff 4) ∧
      fixedAt V K 5 i = m.ab ∧ fixedAt V K 6 i = m.cd ∧ fixedAt V K 7 i = m.next ∧ fixedAt V K 8 i = m.const
  | .comp => fixedAt V K 18 i = 1
  | .tagged t => fixedAt V K 11 i = t ∧ fixedAt V K 19 i = 1
  | .full rc => fixedAt V K 20 i ≠ 0 ∧ rc = ![fixedAt V K 12 i, fixedAt V K 13 i, fixedAt V K 14 i]
  | .partials rcA rcB => fixedAt V K 21 i ≠ 0 ∧ rcA = ![fixedAt V K 12 i, fixedAt V K 13 i, fixedAt V K 14 i] ∧
      rcB = ![fixedAt V K 15 i, fixedAt V K 16 i, fixedAt V K 17 i]
  | .absorb => fixedAt V K 22 i ≠ 0

/-- One step of the permutation: from the cell in column `a.1` and row `a.2` to the cell `b`. -/
def permStep (V : Key) (K : KeyPolys) (a b : Fin 9 × ℕ) : Prop :=
  a.2 < V.usable ∧ b.2 < V.usable ∧ (K.perm a.1).eval (V.omega ^ a.2) = delta ^ (b.1 : ℕ) * V.omega ^ b.2

/-- The permutation links two cells: there is a chain of steps. -/
def Linked (V : Key) (K : KeyPolys) : Fin 9 × ℕ → Fin 9 × ℕ → Prop := Relation.EqvGen (permStep V K)

/-- Column and row of a cell, if region `k` begins in row `start k`. -/
def place (start : ℕ → ℕ) (c : Cell) : Fin 9 × ℕ := (c.col.castLE (by decide), start c.region + c.offset)

/-- The key belongs to the layout: column 5 of the permutation is the column of the public inputs, and column 6 is the
first fixed column of the second round constants of Poseidon, which contains the constants as well
(src/dkg_circuit.rs:66). -/
structure Realizes (V : Key) (K : KeyPolys) (S : Shape) (start : ℕ → ℕ) : Prop where
  gates : ∀ k i g, (k, i, g) ∈ S.gates → start k + i < V.usable ∧ g.placed V K (start k + i)
  copies : ∀ c c', (c, c') ∈ S.copies → Linked V K (place start c) (place start c')
  constants : ∀ c x, (c, x) ∈ S.constants → ∃ i, fixedAt V K 15 i = x ∧ Linked V K (place start c) (6, i)
  publics : ∀ c j, (c, j) ∈ S.publics → Linked V K (place start c) (5, j)

/-- The table of columns of field elements; the range table is in the fixed columns 9 and 10. -/
noncomputable def tableOf (V : Key) (K : KeyPolys) (start : ℕ → ℕ) (advice : Fin 5 → Fr[X]) (inst : List Fr) : Table where
  cell c := (advice c.col).eval (V.omega ^ (start c.region + c.offset))
  inst j := inst.getD j 0
  range t x := ∃ i < V.usable, fixedAt V K 9 i = t ∧ fixedAt V K 10 i = x

end Verif.Layout
