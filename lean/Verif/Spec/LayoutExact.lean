import Verif.Spec.LayoutKey

/-!
When a verifying key belongs to a layout and contains nothing else: no other gates, no other copy constraints.
`keygen_vk` (external) is assumed to produce such keys; needed for proofs of honest provers to be accepted.
-/

namespace Verif.Layout
open Verif Spec.Halo2

/-- A gate in row `i` of region `k` looks at this cell. -/
def Gate.Reads (k i : ℕ) (c : Cell) : Gate → Prop
  | .main m => c.region = k ∧ (c.offset = i ∨ (m.next ≠ 0 ∧ c.offset = i + 1 ∧ c.col = 4))
  | .comp => c.region = k ∧ c.offset = i ∧ c.col ≠ 4
  | .tagged _ => c = ⟨k, i, 0⟩
  | .full _ => c.region = k ∧ (c.offset = i ∨ c.offset = i + 1) ∧ (c.col : ℕ) < 3
  | .partials _ _ => c.region = k ∧ (c.offset = i ∨ c.offset = i + 1) ∧ (c.col : ℕ) < 3 ∨ c = ⟨k, i, 3⟩
  | .absorb => c.region = k ∧ (c.offset + 1 = i ∨ c.offset = i ∨ c.offset = i + 1) ∧ (c.col : ℕ) < 3

/-- Some gate or constraint of the layout looks at this cell. -/
def Shape.Reads (S : Shape) (c : Cell) : Prop :=
  (∃ k i g, (k, i, g) ∈ S.gates ∧ g.Reads k i c) ∨ (∃ c', (c, c') ∈ S.copies ∨ (c', c) ∈ S.copies) ∨
    (∃ x, (c, x) ∈ S.constants) ∨ ∃ j, (c, j) ∈ S.publics

/-- The layout asks for these two cells to be equal. -/
inductive Shape.Ties (S : Shape) (V : Key) (K : KeyPolys) (start : ℕ → ℕ) : Fin 9 × ℕ → Fin 9 × ℕ → Prop
  | copy {c c'} (h : (c, c') ∈ S.copies) : Ties S V K start (place start c) (place start c')
  | constant {c x i} (h : (c, x) ∈ S.constants) (hx : fixedAt V K 15 i = x) : Ties S V K start (place start c) (6, i)
  | publicInput {c j} (h : (c, j) ∈ S.publics) : Ties S V K start (place start c) (5, j)

/-- The key belongs to the layout and to nothing more: regions do not overlap and are in the usable rows; where the
layout has no gate, the selectors are zero; the range table contains the pair of two zeroes, which is looked up where
the layout has no lookup; the permutation links no cells that the layout does not link. -/
structure RealizesExactly (V : Key) (K : KeyPolys) (S : Shape) (start : ℕ → ℕ) : Prop extends Realizes V K S start where
  rows : ∀ c, S.Reads c → start c.region + c.offset < V.usable
  apart : ∀ c c', S.Reads c → S.Reads c' → place start c = place start c' → c = c'
  main : ∀ i < V.n, (∀ j : Fin 9, fixedAt V K (j.castLE (by decide)) i = 0) ∨
    ∃ k o m, (k, o, .main m) ∈ S.gates ∧ start k + o = i
  comp : ∀ i < V.usable, fixedAt V K 18 i = 0 ∨ ∃ k o, (k, o, .comp) ∈ S.gates ∧ start k + o = i
  tagged : ∀ i < V.usable, (fixedAt V K 11 i = 0 ∧ fixedAt V K 19 i = 0) ∨
    ∃ k o t, (k, o, .tagged t) ∈ S.gates ∧ start k + o = i
  full : ∀ i < V.n, fixedAt V K 20 i = 0 ∨ ∃ k o rc, (k, o, .full rc) ∈ S.gates ∧ start k + o = i
  partials : ∀ i < V.n, fixedAt V K 21 i = 0 ∨ ∃ k o rcA rcB, (k, o, .partials rcA rcB) ∈ S.gates ∧ start k + o = i
  absorb : ∀ i < V.n, fixedAt V K 22 i = 0 ∨ ∃ k o, (k, o + 1, .absorb) ∈ S.gates ∧ start k + (o + 1) = i
  zero : ∃ i < V.usable, fixedAt V K 9 i = 0 ∧ fixedAt V K 10 i = 0
  links : ∀ a b, permStep V K a b → Relation.EqvGen (S.Ties V K start) a b

/-- The pairs in the range table of the key. -/
noncomputable def keyRange (V : Key) (K : KeyPolys) (t x : Fr) : Prop :=
  ∃ i < V.usable, fixedAt V K 9 i = t ∧ fixedAt V K 10 i = x

/-- Gates of the same kind use the same fixed columns. -/
def Gate.kind : Gate → ℕ
  | .main _ => 0
  | .comp => 1
  | .tagged _ => 2
  | .full _ => 3
  | .partials _ _ => 3
  | .absorb => 4

/-- The layout fits into a domain with this number of usable rows, if the constant `x` is put in row `crow x`, and the
range table has these pairs. -/
structure Shape.Fits (S : Shape) (usable : ℕ) (start : ℕ → ℕ) (crow : Fr → ℕ) (table : List (Fr × Fr)) : Prop where
  rows : ∀ c, S.Reads c → start c.region + c.offset < usable
  apart : ∀ c c', S.Reads c → S.Reads c' → place start c = place start c' → c = c'
  single : ∀ k i g g', (k, i, g) ∈ S.gates → (k, i, g') ∈ S.gates → g.kind = g'.kind → g = g'
  absorb : ∀ k i, (k, i, .absorb) ∈ S.gates → i ≠ 0
  publics : ∀ c j, (c, j) ∈ S.publics → j < usable
  constants : ∀ c x, (c, x) ∈ S.constants → crow x < usable ∧
    ∀ k i rcA rcB, (k, i, .partials rcA rcB) ∈ S.gates → start k + i ≠ crow x
  constantsApart : ∀ c x c' x', (c, x) ∈ S.constants → (c', x') ∈ S.constants → crow x = crow x' → x = x'
  table : table.length ≤ usable ∧ (0, 0) ∈ table

end Verif.Layout
