import Verif.Lemmas.LayoutRows
import Verif.Lemmas.FixedPoint

/-! The number of regions and rows of the circuit. -/

namespace Verif.Layout
open Verif MainGate

variable {α β : Type} {B K : ℕ}

/-! ### Integers and points -/

/-- Bounds for the rows of an integer chip: `C` for an operation, twice that for `subSub` and `assertNotEqual`, `D` for
constants and selection. -/
structure IntegerImpl.Small (J : IntegerImpl) (B K C D : ℕ) (InI : J.I → Prop) : Prop where
  limbs : ∀ a, InI a → ∀ c ∈ J.limbs a, Inside B K c
  assignConstant : ∀ k, Rows B K D (J.assignConstant k) InI
  add : ∀ a b, InI a → InI b → Rows B K C (J.add a b) InI
  sub : ∀ a b, InI a → InI b → Rows B K C (J.sub a b) InI
  subSub : ∀ a b c, InI a → InI b → InI c → Rows B K (2 * C) (J.subSub a b c) InI
  neg : ∀ a, InI a → Rows B K C (J.neg a) InI
  mul : ∀ a b, InI a → InI b → Rows B K C (J.mul a b) InI
  mul2 : ∀ a, InI a → Rows B K C (J.mul2 a) InI
  square : ∀ a, InI a → Rows B K C (J.square a) InI
  divIncomplete : ∀ a b, InI a → InI b → Rows B K C (J.divIncomplete a b) InI
  invertIncomplete : ∀ a, InI a → Rows B K C (J.invertIncomplete a) InI
  assertNotZero : ∀ a, InI a → Rows B K C (J.assertNotZero a) fun _ => True
  assertNotEqual : ∀ a b, InI a → InI b → Rows B K (2 * C) (J.assertNotEqual a b) fun _ => True
  select : ∀ a b cond, InI a → InI b → Inside B K cond → Rows B K D (J.select a b cond) InI
  reduce : ∀ a, InI a → Rows B K C (J.reduce a) InI

section ints
variable {J : IntegerImpl} {C D : ℕ} {InI : J.I → Prop}

/-- Both components. -/
def In2 (InI : J.I → Prop) (a : I2 J) : Prop := InI a.1 ∧ InI a.2

/-- All four components. -/
def In4 (InI : J.I → Prop) (a : P2 J) : Prop := In2 InI a.1 ∧ In2 InI a.2

variable (hJ : J.Small B K C D InI)
include hJ

theorem rows_reduce2 {a : I2 J} (h : In2 InI a) : Rows B K (2 * C) (reduce2 a) (In2 InI) :=
  rows_le (by omega) (rows_bind (hJ.reduce _ h.1) fun _ h1 => rows_bind (hJ.reduce _ h.2) fun _ h2 => rows_pure ⟨h1, h2⟩)

theorem rows_assignConstantI2 {k : Fq × Fq} : Rows B K (2 * D) (assignConstantI2 (J := J) k) (In2 InI) :=
  rows_le (by omega) (rows_bind (hJ.assignConstant _) fun _ h1 => rows_bind (hJ.assignConstant _) fun _ h2 => rows_pure ⟨h1, h2⟩)

theorem rows_sub2 {a b : I2 J} (ha : In2 InI a) (hb : In2 InI b) : Rows B K (2 * C) (sub2 a b) (In2 InI) :=
  rows_le (by omega) (rows_bind (hJ.sub _ _ ha.1 hb.1) fun _ h1 => rows_bind (hJ.sub _ _ ha.2 hb.2) fun _ h2 => rows_pure ⟨h1, h2⟩)

theorem rows_subSub2 {a b c : I2 J} (ha : In2 InI a) (hb : In2 InI b) (hc : In2 InI c) : Rows B K (4 * C) (subSub2 a b c) (In2 InI) :=
  rows_le (by omega) (rows_bind (hJ.subSub _ _ _ ha.1 hb.1 hc.1) fun _ h1 => rows_bind (hJ.subSub _ _ _ ha.2 hb.2 hc.2) fun _ h2 =>
    rows_pure ⟨h1, h2⟩)

theorem rows_mulI2 {a b : I2 J} (ha : In2 InI a) (hb : In2 InI b) : Rows B K (8 * C) (mulI2 a b) (In2 InI) :=
  rows_le (by omega) (rows_bind (hJ.mul _ _ ha.1 hb.1) fun _ h1 => rows_bind (hJ.add _ _ ha.1 ha.2) fun _ h0 =>
    rows_bind (hJ.mul _ _ ha.2 hb.2) fun _ h2 => rows_bind (hJ.add _ _ hb.1 hb.2) fun _ h3 => rows_bind (hJ.sub _ _ h1 h2) fun _ i0 =>
      rows_bind (hJ.add _ _ h1 h2) fun _ h1' => rows_bind (hJ.mul _ _ h0 h3) fun _ h0' => rows_bind (hJ.sub _ _ h0' h1') fun _ i1 =>
        rows_pure ⟨i0, i1⟩)

theorem rows_square2 {a : I2 J} (ha : In2 InI a) : Rows B K (5 * C) (square2 a) (In2 InI) :=
  rows_le (by omega) (rows_bind (hJ.square _ ha.1) fun _ h0 => rows_bind (hJ.square _ ha.2) fun _ h1 => rows_bind (hJ.sub _ _ h0 h1) fun _ i0 =>
    rows_bind (hJ.mul _ _ ha.1 ha.2) fun _ h2 => rows_bind (hJ.mul2 _ h2) fun _ i1 => rows_pure ⟨i0, i1⟩)

theorem rows_norm {a : I2 J} (ha : In2 InI a) : Rows B K (3 * C) (norm a) InI :=
  rows_le (by omega) (rows_bind (hJ.square _ ha.1) fun _ h0 => rows_bind (hJ.square _ ha.2) fun _ h1 => hJ.add _ _ h0 h1)

theorem rows_divIncomplete2 {a b : I2 J} (ha : In2 InI a) (hb : In2 InI b) : Rows B K (15 * C) (divIncomplete2 a b) (In2 InI) :=
  rows_le (by omega) (rows_bind (rows_norm hJ hb) fun _ h0 => rows_bind (hJ.invertIncomplete _ h0) fun _ h1 =>
    rows_bind (hJ.mul _ _ hb.1 h1) fun _ i0 => rows_bind (hJ.mul _ _ hb.2 h1) fun _ i1 => rows_bind (hJ.neg _ i1) fun _ i1' =>
      rows_mulI2 hJ ha ⟨i0, i1'⟩)

theorem rows_selectI2 {a b : I2 J} {cond : Cell} (ha : In2 InI a) (hb : In2 InI b) (hc : Inside B K cond) :
    Rows B K (2 * D) (selectI2 a b cond) (In2 InI) :=
  rows_le (by omega) (rows_bind (hJ.select _ _ _ ha.1 hb.1 hc) fun _ h1 => rows_bind (hJ.select _ _ _ ha.2 hb.2 hc) fun _ h2 =>
    rows_pure ⟨h1, h2⟩)

theorem rows_assertNotEqual2 {a b : I2 J} (ha : In2 InI a) (hb : In2 InI b) : Rows B K (6 * C) (assertNotEqual2 a b) fun _ => True :=
  rows_le (by omega) (rows_bind (rows_sub2 hJ ha hb) fun _ h => rows_bind (rows_norm hJ h) fun _ h' => hJ.assertNotZero _ h')

theorem rows_addIncomplete1 {a b : P1 J} (ha : In2 InI a) (hb : In2 InI b) : Rows B K (9 * C) (addIncomplete1 a b) (In2 InI) :=
  rows_le (by omega) (rows_bind (hJ.sub _ _ hb.2 ha.2) fun _ h1 => rows_bind (hJ.sub _ _ hb.1 ha.1) fun _ h2 =>
    rows_bind (hJ.divIncomplete _ _ h1 h2) fun _ h3 => rows_bind (hJ.square _ h3) fun _ h4 =>
      rows_bind (hJ.subSub _ _ _ h4 ha.1 hb.1) fun _ h5 => rows_bind (hJ.sub _ _ ha.1 h5) fun _ h6 =>
        rows_bind (hJ.mul _ _ h6 h3) fun _ h7 => rows_bind (hJ.sub _ _ h7 ha.2) fun _ h8 => rows_pure ⟨h5, h8⟩)

theorem rows_addIncomplete2 {a b : P2 J} (ha : In4 InI a) (hb : In4 InI b) : Rows B K (40 * C) (addIncomplete2 a b) (In4 InI) :=
  rows_le (by omega) (rows_bind (rows_sub2 hJ hb.2 ha.2) fun _ h1 => rows_bind (rows_sub2 hJ hb.1 ha.1) fun _ h2 =>
    rows_bind (rows_divIncomplete2 hJ h1 h2) fun _ h3 => rows_bind (rows_square2 hJ h3) fun _ h4 =>
      rows_bind (rows_subSub2 hJ h4 ha.1 hb.1) fun _ h5 => rows_bind (rows_sub2 hJ ha.1 h5) fun _ h6 =>
        rows_bind (rows_mulI2 hJ h6 h3) fun _ h7 => rows_bind (rows_sub2 hJ h7 ha.2) fun _ h8 => rows_pure ⟨h5, h8⟩)
end ints

/-! ### Multiplication of a fixed base -/

/-- Bounds for the rows of the point operations. -/
structure LOps.Small {G P : Type} (O : LOps G P) (B K A A' S : ℕ) (InP : P → Prop) : Prop where
  assignConstant : ∀ p, Rows B K S (O.assignConstant p) InP
  addIncomplete : ∀ a b, InP a → InP b → Rows B K A (O.addIncomplete a b) InP
  add : ∀ a b, InP a → InP b → Rows B K A' (O.add a b) InP
  select : ∀ c a b, Inside B K c → InP a → InP b → Rows B K S (O.select c a b) InP

theorem lops1_small {J : IntegerImpl} {C D : ℕ} {InI : J.I → Prop} (hJ : J.Small B K C D InI) :
    (lops1 (J := J)).Small B K (9 * C) (11 * C) (2 * D) (In2 InI) where
  assignConstant p := rows_le (N := 0 + (D + (D + 0))) (by omega) (rows_bind rows_check fun _ _ => rows_bind (hJ.assignConstant _) fun _ h1 =>
    rows_bind (hJ.assignConstant _) fun _ h2 => rows_pure ⟨h1, h2⟩)
  addIncomplete a b ha hb := rows_addIncomplete1 hJ ha hb
  add a b ha hb := rows_le (N := 2 * C + 9 * C) (by omega) (rows_bind (hJ.assertNotEqual _ _ ha.1 hb.1) fun _ _ => rows_addIncomplete1 hJ ha hb)
  select c a b hc ha hb := rows_le (N := D + (D + 0)) (by omega) (rows_bind (hJ.select _ _ _ ha.1 hb.1 hc) fun _ h1 =>
    rows_bind (hJ.select _ _ _ ha.2 hb.2 hc) fun _ h2 => rows_pure ⟨h1, h2⟩)

theorem lops2_small {J : IntegerImpl} {C D : ℕ} {InI : J.I → Prop} (hJ : J.Small B K C D InI) :
    (lops2 (J := J)).Small B K (40 * C) (46 * C) (4 * D) (In4 InI) where
  assignConstant p := rows_le (N := 0 + (0 + (2 * D + (2 * D + 0)))) (by omega) (rows_bind rows_check fun _ _ => rows_bind rows_check fun _ _ =>
    rows_bind (rows_assignConstantI2 hJ) fun _ h1 => rows_bind (rows_assignConstantI2 hJ) fun _ h2 => rows_pure ⟨h1, h2⟩)
  addIncomplete a b ha hb := rows_addIncomplete2 hJ ha hb
  add a b ha hb := rows_le (N := 6 * C + 40 * C) (by omega) (rows_bind (rows_assertNotEqual2 hJ ha.1 hb.1) fun _ _ => rows_addIncomplete2 hJ ha hb)
  select c a b hc ha hb := rows_le (N := 2 * D + (2 * D + 0)) (by omega) (rows_bind (rows_selectI2 hJ ha.1 hb.1 hc) fun _ h1 =>
    rows_bind (rows_selectI2 hJ ha.2 hb.2 hc) fun _ h2 => rows_pure ⟨h1, h2⟩)

section fixed
variable {G P : Type} {O : LOps G P} {A A' S : ℕ} {InP : P → Prop}

theorem rows_selectLayer (hO : O.Small B K A A' S InP) {s : Cell} (hs : Inside B K s) (js : List ℕ) {red : List P} (h : ∀ p ∈ red, InP p) :
    Rows B K (js.length * S) (selectLayer O s js red) fun red => ∀ p ∈ red, InP p :=
  rows_foldS (R := fun red : List P => ∀ p ∈ red, InP p) js red (fun red h j _ => rows_le (N := 0 + (0 + (S + 0))) (by omega)
    (rows_bind (rows_nth h) fun _ h1 => rows_bind (rows_nth h) fun _ h0 => rows_bind (hO.select _ _ _ hs h1 h0) fun _ hv =>
      rows_pure fun p hp => (List.mem_or_eq_of_mem_set hp).elim (h p) fun e => e ▸ hv)) h

theorem rows_selectLayers (hO : O.Small B K A A' S InP) : ∀ (sel : List Cell) (red : List P), (∀ c ∈ sel, Inside B K c) → (∀ p ∈ red, InP p) →
    Rows B K ((2 ^ sel.length - 1) * S) (selectLayers O sel red) fun red => ∀ p ∈ red, InP p
  | [], red, _, h => rows_le (Nat.zero_le _) (rows_pure h)
  | s :: ss, red, hs, h => rows_le (N := (List.range (2 ^ ss.length)).length * S + (2 ^ ss.length - 1) * S) (by
      rw [List.length_range, ← Nat.add_mul, List.length_cons, pow_succ]
      refine Nat.mul_le_mul_right _ ?_
      have := Nat.two_pow_pos ss.length
      omega) (rows_bind (rows_selectLayer hO (hs s List.mem_cons_self) _ h) fun red1 h1 =>
        rows_selectLayers hO ss red1 (fun c hc => hs c (List.mem_cons_of_mem _ hc)) h1)

theorem rows_selectMulti (hO : O.Small B K A A' S InP) {sel : List Cell} {tab : List P} (hs : ∀ c ∈ sel, Inside B K c) (hl : sel.length ≤ 3)
    (h : ∀ p ∈ tab, InP p) : Rows B K (7 * S) (selectMulti O sel tab) InP :=
  rows_le (N := 0 + ((2 ^ sel.length - 1) * S + 0)) (by
    have : 2 ^ sel.length ≤ 2 ^ 3 := Nat.pow_le_pow_right (by decide) hl
    rw [Nat.add_zero, Nat.zero_add]
    exact Nat.mul_le_mul_right _ (by omega)) (rows_bind rows_check fun _ _ => rows_bind (rows_selectLayers hO sel tab hs h) fun _ h1 => rows_nth h1)

theorem rows_addRows (hO : O.Small B K A A' S InP) {addOp : P → P → Synth P} {X : ℕ} (ha : ∀ a b, InP a → InP b → Rows B K X (addOp a b) InP)
    {windowed : List (List Cell)} {tab : List (List P)} (hw : ∀ sel ∈ windowed, (∀ c ∈ sel, Inside B K c) ∧ sel.length ≤ 3)
    (ht : ∀ row ∈ tab, ∀ p ∈ row, InP p) (is : List ℕ) {acc : P} (h : InP acc) :
    Rows B K (is.length * (7 * S + X)) (addRows O addOp windowed tab is acc) InP :=
  rows_foldS (R := InP) is acc (fun acc h i _ => rows_le (N := 0 + (0 + (7 * S + X))) (by omega)
    (rows_bind (rows_nth hw) fun sel hs => rows_bind (R := fun row : List P => ∀ p ∈ row, InP p) (rows_nth ht) fun row hr =>
      rows_bind (rows_selectMulti hO hs.1 hs.2 hr) fun _ hq => ha _ _ h hq)) h

theorem window_length_le {bits : List Cell} {w : ℕ} (hw : 0 < w) : ∀ sel ∈ FixedPoint.window bits w, sel.length ≤ w := by
  intro sel h
  unfold FixedPoint.window at h
  rcases List.mem_append.1 h with h | h
  · obtain ⟨i, -, rfl⟩ := List.mem_map.1 h
    rw [List.length_take]
    exact Nat.min_le_left _ _
  · split at h
    · rw [List.mem_singleton.1 h, List.length_drop]
      have := Nat.mod_lt bits.length hw
      omega
    · exact absurd h List.not_mem_nil

theorem rows_mulFixed (hO : O.Small B K A A' S InP) {tab : List (List P)} (ht : ∀ row ∈ tab, ∀ p ∈ row, InP p) {s : Cell} (hs : Inside B K s) :
    Rows B K (321 + 7 * S + 82 * (7 * S + A) + 2 * (7 * S + A')) (mulFixed O DkgCircuit.windowSize tab s) InP := by
  have e1 : (List.range' 1 (FixedPoint.numberOfWindows DkgCircuit.windowSize - 2 - 1)).length = 82 := by rw [List.length_range']; rfl
  have e2 : (List.range' (FixedPoint.numberOfWindows DkgCircuit.windowSize - 2) 2).length = 2 := List.length_range'
  unfold mulFixed
  refine rows_le (N := 0 + (0 + (0 + ((FixedPoint.numBits + FixedPoint.numBits / 4 + 4) + (0 + (0 + (7 * S +
    ((List.range' 1 (FixedPoint.numberOfWindows DkgCircuit.windowSize - 2 - 1)).length * (7 * S + A) +
      (List.range' (FixedPoint.numberOfWindows DkgCircuit.windowSize - 2) 2).length * (7 * S + A')))))))))
    (by rw [e1, e2]; unfold FixedPoint.numBits; omega) ?_
  refine rows_bind rows_check fun _ _ => rows_bind (R := fun row : List P => ∀ p ∈ row, InP p) (rows_nth ht) fun _ _ =>
    rows_bind rows_check fun _ _ => rows_bind (rows_toBits hs) fun bits hb => ?_
  have hw : ∀ sel ∈ FixedPoint.window bits DkgCircuit.windowSize, (∀ c ∈ sel, Inside B K c) ∧ sel.length ≤ 3 := fun sel hsel =>
    ⟨fun c hc => hb.2 c (window_mem hsel hc), window_length_le (w := DkgCircuit.windowSize) (by decide) sel hsel⟩
  exact rows_bind (rows_nth hw) fun _ h1 => rows_bind (R := fun row : List P => ∀ p ∈ row, InP p) (rows_nth ht) fun _ h2 =>
    rows_bind (rows_selectMulti hO h1.1 h1.2 h2) fun _ h3 => rows_bind (rows_addRows hO hO.addIncomplete hw ht _ h3) fun _ h4 =>
      rows_addRows hO hO.add hw ht _ h4

theorem table_row_length [AddCommGroup G] (base aux : G) : ∀ row ∈ FixedPoint.table DkgCircuit.windowSize base aux, row.length ≤ 8 := by
  have hp : ∀ i, (FixedPoint.plainRow DkgCircuit.windowSize base i).length ≤ 8 := fun i => by
    cases i with
    | zero =>
      rw [FixedPoint.plainRow, FixedPoint.row0, List.length_map, List.length_range]
      decide
    | succ i =>
      rw [FixedPoint.plainRow, FixedPoint.nextRow, List.length_map, List.length_range]
      split
      · decide
      · decide
  intro row h
  obtain ⟨i, -, rfl⟩ := List.mem_map.1 h
  split
  · rw [List.length_map]
    exact hp i
  · split
    · rw [List.length_map]
      exact hp i
    · exact hp i

theorem rows_assignTable [AddCommGroup G] (hO : O.Small B K A A' S InP) (base aux : G) :
    Rows B K (680 * S) (assignTable O DkgCircuit.windowSize base aux) fun tab => ∀ row ∈ tab, ∀ p ∈ row, InP p := by
  have hl := FixedPoint.table_length DkgCircuit.windowSize base aux
  unfold assignTable
  refine rows_le (N := 0 + (FixedPoint.table DkgCircuit.windowSize base aux).length * (8 * S)) (by
    rw [hl, show FixedPoint.numberOfWindows DkgCircuit.windowSize = 85 from rfl]
    omega) (rows_bind rows_check fun _ _ => ?_)
  refine rows_mono (rows_mapS (R := fun row : List P => ∀ p ∈ row, InP p) _ fun row hrow => ?_) fun _ h => h.2
  exact rows_mono (rows_le (Nat.mul_le_mul_right _ (table_row_length base aux row hrow))
    (rows_mapS (R := InP) row fun p _ => hO.assignConstant p)) fun _ h => h.2
end fixed

/-! ### Public inputs -/

theorem rows_wrapCell {base : Cell} {limbs : List Cell} {i : ℕ} (hb : Inside B K base) (h : ∀ c ∈ limbs, Inside B K c) :
    Rows B K 1 (wrapCell base limbs i) (Inside B K) :=
  rows_le (N := 0 + (List.range (wrapLen - 1)).reverse.length * 1) (by decide) (rows_bind (rows_nth h) fun _ hs =>
    rows_foldS (R := Inside B K) _ _ (fun _ hs _ _ => rows_le (N := 0 + 1) (by omega) (rows_bind (rows_nth h) fun _ hl => rows_mulAdd hs hb hl)) hs)

/-! ### Poseidon -/

/-- The cells of a state are inside. -/
def StIn (B K : ℕ) (s : StCell) : Prop := ∀ i, Inside B K (s i)

theorem stIn {a b c : Cell} (ha : Inside B K a) (hb : Inside B K b) (hc : Inside B K c) : StIn B K ![a, b, c] := fun i => by
  fin_cases i
  · exact ha
  · exact hb
  · exact hc

theorem rows_assignState {f : Input → (Cell → Fr) → Poseidon.St} : Rows B K 0 (assignState f) (StIn B K) :=
  rows_bind (N' := 0) rows_assignAdvice fun _ h0 => rows_bind (N' := 0) rows_assignAdvice fun _ h1 => rows_bind (N' := 0) rows_assignAdvice fun _ h2 =>
    rows_pure (stIn h0 h1 h2)

theorem rows_copyState {s : StCell} (h : StIn B K s) : Rows B K 0 (copyState s) (StIn B K) :=
  rows_bind (N' := 0) (rows_copyAdvice (h 0)) fun _ h0 => rows_bind (N' := 0) (rows_copyAdvice (h 1)) fun _ h1 =>
    rows_bind (N' := 0) (rows_copyAdvice (h 2)) fun _ h2 => rows_pure (stIn h0 h1 h2)

theorem rows_fullRows : ∀ (rcs : List Poseidon.St) (s : StCell), StIn B K s → Rows B K rcs.length (fullRows rcs s) (StIn B K)
  | [], _, h => rows_pure h
  | rc :: rcs, s, h => rows_le (N := 1 + (0 + rcs.length)) (by rw [List.length_cons]; omega)
      (rows_enableNext (fun h => nomatch h) (rows_bind rows_assignState fun _ h' => rows_fullRows rcs _ h'))

theorem rows_partialRows : ∀ (rcs : List Poseidon.St) (s : StCell), StIn B K s → Rows B K rcs.length (partialRows rcs s) (StIn B K)
  | [], _, h => rows_pure h
  | [_], _, h => rows_le (Nat.zero_le _) (rows_pure h)
  | rcA :: rcB :: rcs, s, h => rows_le (N := 1 + (0 + rcs.length)) (by rw [List.length_cons, List.length_cons]; omega)
      (rows_enable (fun h => nomatch h) rows_assignAdvice fun _ _ => rows_bind rows_assignState fun _ h' => rows_partialRows rcs _ h')

end Verif.Layout
