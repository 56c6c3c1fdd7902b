import Verif.Lemmas.LayoutExact
import Verif.Lemmas.PermOrbits

/-! Every layout that fits has a key. -/

namespace Verif.Layout
open Verif Polynomial Spec.Halo2

variable {S : Shape} {usable : ℕ} {start : ℕ → ℕ} {crow : Fr → ℕ} {table : List (Fr × Fr)}

theorem reads_first {k i : ℕ} {g : Gate} : g.Reads k i ⟨k, i, 0⟩ := by
  cases g with
  | main m => exact ⟨rfl, Or.inl rfl⟩
  | comp => exact ⟨rfl, rfl, (by decide : (0 : Fin 5) ≠ 4)⟩
  | tagged t => rfl
  | full rc => exact ⟨rfl, Or.inl rfl, (by decide : ((0 : Fin 5) : ℕ) < 3)⟩
  | partials a b => exact Or.inl ⟨rfl, Or.inl rfl, (by decide : ((0 : Fin 5) : ℕ) < 3)⟩
  | absorb => exact ⟨rfl, Or.inr (Or.inl rfl), (by decide : ((0 : Fin 5) : ℕ) < 3)⟩

/-- A gate of the layout in this row. -/
def At (S : Shape) (start : ℕ → ℕ) (i : ℕ) (g : Gate) : Prop := ∃ k o, (k, o, g) ∈ S.gates ∧ start k + o = i

theorem at_unique (h : S.Fits usable start crow table) {i : ℕ} {g g' : Gate} (hg : At S start i g)
    (hg' : At S start i g') (hk : g.kind = g'.kind) : g = g' := by
  obtain ⟨k, o, h1, h2⟩ := hg
  obtain ⟨k', o', h1', h2'⟩ := hg'
  have e := h.apart ⟨k, o, 0⟩ ⟨k', o', 0⟩ (Or.inl ⟨k, o, g, h1, reads_first⟩) (Or.inl ⟨k', o', g', h1', reads_first⟩)
    (Prod.ext rfl (h2.trans h2'.symm))
  have e1 : k = k' := congrArg Cell.region e
  have e2 : o = o' := congrArg Cell.offset e
  subst e1
  subst e2
  exact h.single _ _ _ _ h1 h1' hk

theorem at_lt (h : S.Fits usable start crow table) {i : ℕ} {g : Gate} (hg : At S start i g) : i < usable := by
  obtain ⟨k, o, h1, rfl⟩ := hg
  exact h.rows ⟨k, o, 0⟩ (Or.inl ⟨k, o, g, h1, reads_first⟩)

open Classical in
/-- The gate of some kind in a row. -/
noncomputable def pick (S : Shape) (start : ℕ → ℕ) (i n : ℕ) : Option Gate :=
  if h : ∃ g, At S start i g ∧ g.kind = n then some h.choose else none

theorem pick_some (h : S.Fits usable start crow table) {i n : ℕ} {g : Gate} (hg : At S start i g) (hn : g.kind = n) :
    pick S start i n = some g := by
  have hex : ∃ g, At S start i g ∧ g.kind = n := ⟨g, hg, hn⟩
  unfold pick
  rw [dif_pos hex]
  exact congrArg some (at_unique h hex.choose_spec.1 hg (hex.choose_spec.2.trans hn.symm))

theorem pick_at {i n : ℕ} {g : Gate} (hg : pick S start i n = some g) : At S start i g ∧ g.kind = n := by
  unfold pick at hg
  split at hg
  · rename_i hex
    cases hg
    exact hex.choose_spec
  · cases hg

open Classical in
/-- The constant in a row. -/
noncomputable def constAt (S : Shape) (crow : Fr → ℕ) (i : ℕ) : Fr :=
  if h : ∃ x, (∃ c, (c, x) ∈ S.constants) ∧ crow x = i then h.choose else 0

theorem constAt_eq (h : S.Fits usable start crow table) {c : Cell} {x : Fr} (hx : (c, x) ∈ S.constants) :
    constAt S crow (crow x) = x := by
  have hex : ∃ y, (∃ c, (c, y) ∈ S.constants) ∧ crow y = crow x := ⟨x, ⟨c, hx⟩, rfl⟩
  unfold constAt
  rw [dif_pos hex]
  obtain ⟨⟨c', h1⟩, h2⟩ := hex.choose_spec
  exact h.constantsApart _ _ _ _ h1 hx h2

/-- Cells of the main gate. -/
def mainCol (g : Option Gate) : Fin 9 → Fr :=
  match g with
  | some (.main m) => ![m.coeff 0, m.coeff 1, m.coeff 2, m.coeff 3, m.coeff 4, m.ab, m.cd, m.next, m.const]
  | _ => 0

/-- First round constants. -/
def rcACol (g : Option Gate) : Fin 3 → Fr :=
  match g with
  | some (.full rc) => rc
  | some (.partials rc _) => rc
  | _ => 0

/-- Second round constants, or a constant. -/
def rcBCol (g : Option Gate) (x : Fr) : Fin 3 → Fr :=
  match g with
  | some (.partials _ rc) => rc
  | _ => ![x, 0, 0]

/-- A selector. -/
def selCol (g : Option Gate) (p : Gate → Bool) : Fr :=
  match g with
  | some g => if p g then 1 else 0
  | none => 0

/-- The tag of a lookup. -/
def tagCol (g : Option Gate) : Fr :=
  match g with
  | some (.tagged t) => t
  | _ => 0

/-- A full round. -/
def Gate.isFull : Gate → Bool
  | .full _ => true
  | _ => false

/-- The fixed columns. -/
noncomputable def fixedCol (S : Shape) (start : ℕ → ℕ) (crow : Fr → ℕ) (table : List (Fr × Fr)) (i : ℕ) : Fin 23 → Fr :=
  let m := mainCol (pick S start i 0)
  let a := rcACol (pick S start i 3)
  let b := rcBCol (pick S start i 3) (constAt S crow i)
  ![m 0, m 1, m 2, m 3, m 4, m 5, m 6, m 7, m 8, (table.getD i (0, 0)).1, (table.getD i (0, 0)).2,
    tagCol (pick S start i 2), a 0, a 1, a 2, b 0, b 1, b 2, selCol (pick S start i 1) fun _ => true,
    selCol (pick S start i 2) fun _ => true, selCol (pick S start i 3) Gate.isFull,
    selCol (pick S start i 3) fun g => !g.isFull, selCol (pick S start i 4) fun _ => true]

/-- Which cells are equal. -/
inductive Tie (S : Shape) (start : ℕ → ℕ) (crow : Fr → ℕ) : Fin 9 × ℕ → Fin 9 × ℕ → Prop
  | copy {c c'} (h : (c, c') ∈ S.copies) : Tie S start crow (place start c) (place start c')
  | constant {c x} (h : (c, x) ∈ S.constants) : Tie S start crow (place start c) (6, crow x)
  | publicInput {c j} (h : (c, j) ∈ S.publics) : Tie S start crow (place start c) (5, j)

/-- The cells in the usable rows. -/
def toCell {u : ℕ} (a : Fin u × Fin 9) : Fin 9 × ℕ := (a.2, a.1)

/-- Equal cells. -/
def tieSetoid (S : Shape) (start : ℕ → ℕ) (crow : Fr → ℕ) (u : ℕ) : Setoid (Fin u × Fin 9) where
  r a b := Relation.EqvGen (Tie S start crow) (toCell a) (toCell b)
  iseqv := ⟨fun _ => .refl _, fun h => .symm _ _ h, fun h h' => .trans _ _ _ h h'⟩

/-- The permutation polynomial of a column. -/
noncomputable def permCol (V : Key) (σ : Equiv.Perm (Fin V.usable × Fin 9)) (j : Fin 9) (i : ℕ) : Fr :=
  if h : i < V.usable then delta ^ ((σ (⟨i, h⟩, j)).2 : ℕ) * V.omega ^ ((σ (⟨i, h⟩, j)).1 : ℕ) else 0

/-- A key for the layout. -/
noncomputable def keyOf (V : Key) (S : Shape) (start : ℕ → ℕ) (crow : Fr → ℕ) (table : List (Fr × Fr))
    (σ : Equiv.Perm (Fin V.usable × Fin 9)) : KeyPolys where
  fixed j := interp V fun i => fixedCol S start crow table i j
  perm j := interp V (permCol V σ j)

variable {V : Key} {σ : Equiv.Perm (Fin V.usable × Fin 9)}

theorem keyOf_bound (hV : V.Valid) : (keyOf V S start crow table σ).Bound (V.n - 1) :=
  ⟨fun _ => interp_natDegree V hV _, fun _ => interp_natDegree V hV _⟩

theorem keyOf_fixed (hV : V.Valid) (j : Fin 23) {i : ℕ} (hi : i < V.n) :
    fixedAt V (keyOf V S start crow table σ) j i = fixedCol S start crow table i j := interp_row V hV _ hi

theorem keyOf_perm (hV : V.Valid) (a : Fin V.usable × Fin 9) :
    ((keyOf V S start crow table σ).perm a.2).eval (V.omega ^ (a.1 : ℕ)) =
      delta ^ ((σ a).2 : ℕ) * V.omega ^ ((σ a).1 : ℕ) := by
  refine (interp_row V hV _ (usable_lt a.1.2)).trans ?_
  unfold permCol
  rw [dif_pos a.1.2]

theorem keyOf_permutes (hV : V.Valid) : (keyOf V S start crow table σ).Permutes V := ⟨σ, keyOf_perm hV⟩

theorem permStep_keyOf (hV : V.Valid) {a b : Fin 9 × ℕ} (h : permStep V (keyOf V S start crow table σ) a b) :
    ∃ a' : Fin V.usable × Fin 9, a = toCell a' ∧ b = toCell (σ a') := by
  obtain ⟨h1, h2, h3⟩ := h
  refine ⟨(⟨a.2, h1⟩, a.1), rfl, ?_⟩
  rw [keyOf_perm hV (⟨a.2, h1⟩, a.1)] at h3
  obtain ⟨e1, e2⟩ := labels_inj V hV (usable_lt (σ (⟨a.2, h1⟩, a.1)).1.2) (usable_lt h2) h3
  exact (Prod.ext e1 e2).symm

theorem linked_step (hV : V.Valid) (a : Fin V.usable × Fin 9) :
    Linked V (keyOf V S start crow table σ) (toCell a) (toCell (σ a)) :=
  .rel _ _ ⟨a.1.2, (σ a).1.2, keyOf_perm hV a⟩

theorem linked_pow (hV : V.Valid) (n : ℕ) (a : Fin V.usable × Fin 9) :
    Linked V (keyOf V S start crow table σ) (toCell a) (toCell ((σ ^ n) a)) := by
  induction n with
  | zero => exact .refl _
  | succ n ih =>
    rw [pow_succ', Equiv.Perm.mul_apply]
    exact .trans _ _ _ ih (linked_step hV _)

theorem linked_of_tie (hV : V.Valid) (hσ : ∀ a b, tieSetoid S start crow V.usable a b → σ.SameCycle a b)
    {a b : Fin 9 × ℕ} (ha : a.2 < V.usable) (hb : b.2 < V.usable) (h : Tie S start crow a b) :
    Linked V (keyOf V S start crow table σ) a b := by
  obtain ⟨n, -, hn⟩ := (hσ (⟨a.2, ha⟩, a.1) (⟨b.2, hb⟩, b.1) (.rel _ _ h)).exists_pow_eq'
  have := linked_pow (S := S) (start := start) (crow := crow) (table := table) (σ := σ) hV n (⟨a.2, ha⟩, a.1)
  rw [hn] at this
  exact this

theorem keyOf_placed (hV : V.Valid) (h : S.Fits V.usable start crow table) {i : ℕ} {g : Gate} (hg : At S start i g) :
    g.placed V (keyOf V S start crow table σ) i := by
  have hi := usable_lt (at_lt h hg)
  have hf := fun j => keyOf_fixed (S := S) (start := start) (crow := crow) (table := table) (σ := σ) hV j hi
  cases g with
  | main m =>
    have hp := pick_some h hg rfl
    unfold fixedCol at hf
    rw [Gate.kind] at hp
    rw [hp] at hf
    exact ⟨⟨hf 0, hf 1, hf 2, hf 3, hf 4⟩, hf 5, hf 6, hf 7, hf 8⟩
  | comp =>
    have hp := pick_some h hg rfl
    unfold fixedCol at hf
    rw [Gate.kind] at hp
    rw [hp] at hf
    exact hf 18
  | tagged t =>
    have hp := pick_some h hg rfl
    unfold fixedCol at hf
    rw [Gate.kind] at hp
    rw [hp] at hf
    exact ⟨hf 11, hf 19⟩
  | full rc =>
    have hp := pick_some h hg rfl
    unfold fixedCol at hf
    rw [Gate.kind] at hp
    rw [hp] at hf
    refine ⟨?_, ?_⟩
    · rw [hf 20]; exact one_ne_zero
    · rw [hf 12, hf 13, hf 14]
      funext j
      fin_cases j <;> rfl
  | partials rcA rcB =>
    have hp := pick_some h hg rfl
    unfold fixedCol at hf
    rw [Gate.kind] at hp
    rw [hp] at hf
    refine ⟨?_, ?_, ?_⟩
    · rw [hf 21]; exact one_ne_zero
    · rw [hf 12, hf 13, hf 14]
      funext j
      fin_cases j <;> rfl
    · rw [hf 15, hf 16, hf 17]
      funext j
      fin_cases j <;> rfl
  | absorb =>
    have hp := pick_some h hg rfl
    unfold fixedCol at hf
    rw [Gate.kind] at hp
    rw [hp] at hf
    change fixedAt _ _ _ _ ≠ 0
    rw [hf 22]; exact one_ne_zero

theorem keyOf_const (hV : V.Valid) (h : S.Fits V.usable start crow table) {c : Cell} {x : Fr} (hx : (c, x) ∈ S.constants) :
    fixedAt V (keyOf V S start crow table σ) 15 (crow x) = x := by
  obtain ⟨h1, h2⟩ := h.constants c x hx
  rw [keyOf_fixed hV 15 (usable_lt h1)]
  change rcBCol (pick S start (crow x) 3) (constAt S crow (crow x)) 0 = x
  rw [constAt_eq h hx]
  cases hp : pick S start (crow x) 3 with
  | none => rfl
  | some g =>
    cases g with
    | partials a b =>
      obtain ⟨⟨k, o, h3, h4⟩, -⟩ := pick_at hp
      exact absurd h4 (h2 k o a b h3)
    | _ => rfl

theorem keyOf_realizes (hV : V.Valid) (h : S.Fits V.usable start crow table)
    (hσ : ∀ a b, tieSetoid S start crow V.usable a b → σ.SameCycle a b) :
    Realizes V (keyOf V S start crow table σ) S start where
  gates k i g hg := ⟨at_lt h ⟨k, i, hg, rfl⟩, keyOf_placed hV h ⟨k, i, hg, rfl⟩⟩
  copies c c' hc := linked_of_tie hV hσ (h.rows c (Or.inr (Or.inl ⟨c', Or.inl hc⟩)))
    (h.rows c' (Or.inr (Or.inl ⟨c, Or.inr hc⟩))) (.copy hc)
  constants c x hc := ⟨crow x, keyOf_const hV h hc, linked_of_tie hV hσ (h.rows c (Or.inr (Or.inr (Or.inl ⟨x, hc⟩))))
    (h.constants c x hc).1 (.constant hc)⟩
  publics c j hc := linked_of_tie hV hσ (h.rows c (Or.inr (Or.inr (Or.inr ⟨j, hc⟩)))) (h.publics c j hc) (.publicInput hc)

theorem keyOf_exact (hV : V.Valid) (h : S.Fits V.usable start crow table)
    (hσ : ∀ a b, tieSetoid S start crow V.usable a b → σ.SameCycle a b)
    (hσ' : ∀ a, tieSetoid S start crow V.usable (σ a) a) :
    RealizesExactly V (keyOf V S start crow table σ) S start where
  toRealizes := keyOf_realizes hV h hσ
  rows := h.rows
  apart := h.apart
  main i hi := by
    have hf := fun j => keyOf_fixed (S := S) (start := start) (crow := crow) (table := table) (σ := σ) hV j hi
    cases hp : pick S start i 0 with
    | none =>
      left
      intro j
      rw [hf]
      unfold fixedCol
      rw [hp]
      fin_cases j <;> rfl
    | some g =>
      right
      obtain ⟨⟨k, o, h1, h2⟩, h3⟩ := pick_at hp
      cases g with
      | main m => exact ⟨k, o, m, h1, h2⟩
      | _ => cases h3
  comp i hi := by
    have hf := keyOf_fixed (S := S) (start := start) (crow := crow) (table := table) (σ := σ) hV 18 (usable_lt hi)
    cases hp : pick S start i 1 with
    | none =>
      left
      rw [hf]
      change selCol (pick S start i 1) _ = 0
      rw [hp]
      rfl
    | some g =>
      right
      obtain ⟨⟨k, o, h1, h2⟩, h3⟩ := pick_at hp
      cases g with
      | comp => exact ⟨k, o, h1, h2⟩
      | _ => cases h3
  tagged i hi := by
    have hf := fun j => keyOf_fixed (S := S) (start := start) (crow := crow) (table := table) (σ := σ) hV j (usable_lt hi)
    cases hp : pick S start i 2 with
    | none =>
      left
      rw [hf, hf]
      change tagCol (pick S start i 2) = 0 ∧ selCol (pick S start i 2) _ = 0
      rw [hp]
      exact ⟨rfl, rfl⟩
    | some g =>
      right
      obtain ⟨⟨k, o, h1, h2⟩, h3⟩ := pick_at hp
      cases g with
      | tagged t => exact ⟨k, o, t, h1, h2⟩
      | _ => cases h3
  full i hi := by
    have hf := keyOf_fixed (S := S) (start := start) (crow := crow) (table := table) (σ := σ) hV 20 hi
    have hf : _ = selCol (pick S start i 3) Gate.isFull := hf
    cases hp : pick S start i 3 with
    | none =>
      left
      rw [hf, hp]
      rfl
    | some g =>
      obtain ⟨⟨k, o, h1, h2⟩, h3⟩ := pick_at hp
      cases g with
      | full rc => exact Or.inr ⟨k, o, rc, h1, h2⟩
      | partials a b => left; rw [hf, hp]; rfl
      | _ => cases h3
  partials i hi := by
    have hf := keyOf_fixed (S := S) (start := start) (crow := crow) (table := table) (σ := σ) hV 21 hi
    have hf : _ = selCol (pick S start i 3) (fun g => !g.isFull) := hf
    cases hp : pick S start i 3 with
    | none =>
      left
      rw [hf, hp]
      rfl
    | some g =>
      obtain ⟨⟨k, o, h1, h2⟩, h3⟩ := pick_at hp
      cases g with
      | full rc => left; rw [hf, hp]; rfl
      | partials a b => exact Or.inr ⟨k, o, a, b, h1, h2⟩
      | _ => cases h3
  absorb i hi := by
    have hf := keyOf_fixed (S := S) (start := start) (crow := crow) (table := table) (σ := σ) hV 22 hi
    cases hp : pick S start i 4 with
    | none =>
      left
      rw [hf]
      change selCol (pick S start i 4) _ = 0
      rw [hp]
      rfl
    | some g =>
      right
      obtain ⟨⟨k, o, h1, h2⟩, h3⟩ := pick_at hp
      cases g with
      | absorb =>
        obtain ⟨o', rfl⟩ := Nat.exists_eq_succ_of_ne_zero (h.absorb k o h1)
        exact ⟨k, o', h1, h2⟩
      | _ => cases h3
  zero := by
    obtain ⟨h1, h2⟩ := h.table
    obtain ⟨i, hi, he⟩ := List.getElem_of_mem h2
    have hf := fun j => keyOf_fixed (S := S) (start := start) (crow := crow) (table := table) (σ := σ) hV j
      (usable_lt (lt_of_lt_of_le hi h1))
    refine ⟨i, lt_of_lt_of_le hi h1, ?_⟩
    rw [hf, hf]
    change (table.getD i (0, 0)).1 = 0 ∧ (table.getD i (0, 0)).2 = 0
    rw [FixedPoint.getD_lt _ _ hi, he]
    exact ⟨rfl, rfl⟩
  links a b hab := by
    obtain ⟨a', rfl, rfl⟩ := permStep_keyOf hV hab
    have h1 : Relation.EqvGen (Tie S start crow) (toCell (σ a')) (toCell a') := hσ' a'
    refine .symm _ _ (Relation.EqvGen.mono ?_ _ _ h1)
    intro x y hxy
    cases hxy with
    | copy h' => exact .copy h'
    | constant h' => exact .constant h' (keyOf_const hV h h')
    | publicInput h' => exact .publicInput h'

theorem keyOf_range (hV : V.Valid) (h : S.Fits V.usable start crow table) (t x : Fr) :
    keyRange V (keyOf V S start crow table σ) t x ↔ (t, x) ∈ table := by
  obtain ⟨h1, h2⟩ := h.table
  have hf : ∀ i < V.usable, (fixedAt V (keyOf V S start crow table σ) 9 i,
      fixedAt V (keyOf V S start crow table σ) 10 i) = table.getD i (0, 0) := by
    intro i hi
    rw [keyOf_fixed hV 9 (usable_lt hi), keyOf_fixed hV 10 (usable_lt hi)]
    rfl
  constructor
  · rintro ⟨i, hi, e1, e2⟩
    have e := hf i hi
    rw [e1, e2] at e
    rw [e]
    by_cases hl : i < table.length
    · rw [FixedPoint.getD_lt _ _ hl]
      exact List.getElem_mem hl
    · rw [List.getD_eq_default _ _ (Nat.not_lt.1 hl)]
      exact h2
  · intro hm
    obtain ⟨i, hi, he⟩ := List.getElem_of_mem hm
    have e := hf i (lt_of_lt_of_le hi h1)
    rw [FixedPoint.getD_lt _ _ hi, he] at e
    exact ⟨i, lt_of_lt_of_le hi h1, congrArg Prod.fst e, congrArg Prod.snd e⟩

theorem exactly_congr {V V' : Key} {K : KeyPolys} (hk : V.k = V'.k) (hω : V.omega = V'.omega)
    (h : RealizesExactly V K S start) : RealizesExactly V' K S start := by
  obtain ⟨d, n, k, ω, x1, x2, x3, x4, x5⟩ := V
  obtain ⟨d', n', k', ω', y1, y2, y3, y4, y5⟩ := V'
  dsimp only at hk hω
  subst hk hω
  obtain ⟨⟨a1, a2, a3, a4⟩, a5, a6, a7, a8, a9, a10, a11, a12, a13, a14⟩ := h
  refine ⟨⟨a1, a2, a3, a4⟩, a5, a6, a7, a8, a9, a10, a11, a12, a13, fun a b hab => ?_⟩
  refine Relation.EqvGen.mono ?_ _ _ (a14 a b hab)
  intro x y hxy
  cases hxy with
  | copy h' => exact .copy h'
  | constant h' hx => exact .constant h' hx
  | publicInput h' => exact .publicInput h'

end Verif.Layout
