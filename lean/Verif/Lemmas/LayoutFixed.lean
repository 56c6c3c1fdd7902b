import Verif.Lemmas.Layout

/-! The fixed-base chips and the whole circuit as layouts. -/

namespace Verif.Layout
open Verif MainGate

variable {T : Table} {α β : Type}

section integers
variable {J : IntegerImpl} {good : J.I → Prop} {val : J.I → Fq}

/-- Both parts are in range. -/
def good2 (good : J.I → Prop) (a : I2 J) : Prop := good a.1 ∧ good a.2
/-- Values of both parts. -/
def val2 (val : J.I → Fq) (a : I2 J) : Integer2Chip.I2 := (val a.1, val a.2)
/-- Both coordinates are in range. -/
def goodP (good : J.I → Prop) (a : P2 J) : Prop := good2 good a.1 ∧ good2 good a.2
/-- Values of the coordinates. -/
def valP (val : J.I → Fq) (a : P2 J) : FixedPoint.Pt2 := (val2 val a.1, val2 val a.2)

variable (hJ : J.Correct T good val)
include hJ

theorem ens_assignConstantI2 (k : Fq × Fq) : Ensures T (assignConstantI2 (J := J) k) fun c =>
    good2 good c ∧ Integer2Chip.assignConstant k (val2 val c) :=
  ens_bind (hJ.assignConstant _) fun _ h1 => ens_bind (hJ.assignConstant _) fun _ h2 =>
    ens_pure ⟨⟨h1.1, h2.1⟩, h1.2, h2.2⟩

theorem ens_sub2 {a b : I2 J} (ha : good2 good a) (hb : good2 good b) : Ensures T (sub2 a b) fun c =>
    good2 good c ∧ Integer2Chip.sub (val2 val a) (val2 val b) (val2 val c) :=
  ens_bind (hJ.sub _ _ ha.1 hb.1) fun _ h1 => ens_bind (hJ.sub _ _ ha.2 hb.2) fun _ h2 =>
    ens_pure ⟨⟨h1.1, h2.1⟩, h1.2, h2.2⟩

theorem ens_subSub2 {a b d : I2 J} (ha : good2 good a) (hb : good2 good b) (hd : good2 good d) :
    Ensures T (subSub2 a b d) fun c =>
      good2 good c ∧ Integer2Chip.subSub (val2 val a) (val2 val b) (val2 val d) (val2 val c) :=
  ens_bind (hJ.subSub _ _ _ ha.1 hb.1 hd.1) fun _ h1 => ens_bind (hJ.subSub _ _ _ ha.2 hb.2 hd.2) fun _ h2 =>
    ens_pure ⟨⟨h1.1, h2.1⟩, h1.2, h2.2⟩

theorem ens_mulI2 {a b : I2 J} (ha : good2 good a) (hb : good2 good b) : Ensures T (mulI2 a b) fun c =>
    good2 good c ∧ Integer2Chip.mul (val2 val a) (val2 val b) (val2 val c) :=
  ens_bind (hJ.mul _ _ ha.1 hb.1) fun _ h1 => ens_bind (hJ.add _ _ ha.1 ha.2) fun _ h0 =>
  ens_bind (hJ.mul _ _ ha.2 hb.2) fun _ h2 => ens_bind (hJ.add _ _ hb.1 hb.2) fun _ h3 =>
  ens_bind (hJ.sub _ _ h1.1 h2.1) fun _ h4 => ens_bind (hJ.add _ _ h1.1 h2.1) fun _ h5 =>
  ens_bind (hJ.mul _ _ h0.1 h3.1) fun _ h6 => ens_bind (hJ.sub _ _ h6.1 h5.1) fun _ h7 =>
    ens_pure ⟨⟨h4.1, h7.1⟩, _, _, _, _, _, _, h1.2, h0.2, h2.2, h3.2, h4.2, h5.2, h6.2, h7.2⟩

theorem ens_square2 {a : I2 J} (ha : good2 good a) : Ensures T (square2 a) fun c =>
    good2 good c ∧ Integer2Chip.square (val2 val a) (val2 val c) :=
  ens_bind (hJ.square _ ha.1) fun _ h1 => ens_bind (hJ.square _ ha.2) fun _ h2 =>
  ens_bind (hJ.sub _ _ h1.1 h2.1) fun _ h3 => ens_bind (hJ.mul _ _ ha.1 ha.2) fun _ h4 =>
  ens_bind (hJ.mul2 _ h4.1) fun _ h5 => ens_pure ⟨⟨h3.1, h5.1⟩, _, _, _, h1.2, h2.2, h3.2, h4.2, h5.2⟩

theorem ens_norm {a : I2 J} (ha : good2 good a) : Ensures T (norm a) fun c =>
    good c ∧ Integer2Chip.norm (val2 val a) (val c) :=
  ens_bind (hJ.square _ ha.1) fun _ h1 => ens_bind (hJ.square _ ha.2) fun _ h2 =>
  ens_mono (hJ.add _ _ h1.1 h2.1) fun _ h3 => ⟨h3.1, _, _, h1.2, h2.2, h3.2⟩

theorem ens_divIncomplete2 {a b : I2 J} (ha : good2 good a) (hb : good2 good b) : Ensures T (divIncomplete2 a b) fun c =>
    good2 good c ∧ Integer2Chip.divIncomplete (val2 val a) (val2 val b) (val2 val c) :=
  ens_bind (ens_norm hJ hb) fun _ h1 => ens_bind (hJ.invertIncomplete _ h1.1) fun _ h2 =>
  ens_bind (hJ.mul _ _ hb.1 h2.1) fun _ h3 => ens_bind (hJ.mul _ _ hb.2 h2.1) fun _ h4 =>
  ens_bind (hJ.neg _ h4.1) fun _ h5 => ens_mono (ens_mulI2 hJ ha ⟨h3.1, h5.1⟩) fun _ h6 =>
    ⟨h6.1, _, _, _, _, _, h1.2, h2.2, h3.2, h4.2, h5.2, h6.2⟩

theorem ens_selectI2 {a b : I2 J} {cond : Cell} (ha : good2 good a) (hb : good2 good b)
    (hc : T.cell cond = 0 ∨ T.cell cond = 1) : Ensures T (selectI2 a b cond) fun c =>
    good2 good c ∧ Integer2Chip.select (val2 val a) (val2 val b) (T.cell cond) (val2 val c) :=
  ens_bind (hJ.select _ _ _ ha.1 hb.1 hc) fun _ h1 => ens_bind (hJ.select _ _ _ ha.2 hb.2 hc) fun _ h2 =>
    ens_pure ⟨⟨h1.1, h2.1⟩, h1.2, h2.2⟩

theorem ens_assertNotEqual2 {a b : I2 J} (ha : good2 good a) (hb : good2 good b) : Ensures T (assertNotEqual2 a b) fun _ =>
    Integer2Chip.assertNotEqual (val2 val a) (val2 val b) :=
  ens_bind (ens_sub2 hJ ha hb) fun _ h1 => ens_bind (ens_norm hJ h1.1) fun _ h2 =>
  ens_mono (hJ.assertNotZero _ h2.1) fun _ h3 => ⟨_, h1.2, _, h2.2, h3⟩

/-- Reduced coordinates of a point of G2. -/
theorem ens_reduce2 {a : I2 J} (ha : good2 good a) : Ensures T (reduce2 a) fun c =>
    DkgCircuit.normalize (val a.1) ((J.limbs c.1).map T.cell) ∧ DkgCircuit.normalize (val a.2) ((J.limbs c.2).map T.cell) :=
  ens_bind (hJ.reduce _ ha.1) fun _ h1 => ens_bind (hJ.reduce _ ha.2) fun _ h2 => ens_pure ⟨h1.2.2, h2.2.2⟩

end integers

/-- A chip of point operations is correct. -/
structure OpsCorrect (T : Table) {G P Pt : Type} (O : LOps G P) (O' : FixedPoint.Ops G Pt) (good : P → Prop)
    (val : P → Pt) : Prop where
  assignConstant : ∀ g, Ensures T (O.assignConstant g) fun p => good p ∧ O'.assignConstant g (val p)
  addIncomplete : ∀ a b, good a → good b →
    Ensures T (O.addIncomplete a b) fun c => good c ∧ O'.addIncomplete (val a) (val b) (val c)
  add : ∀ a b, good a → good b → Ensures T (O.add a b) fun c => good c ∧ O'.add (val a) (val b) (val c)
  select : ∀ cond a b, T.cell cond = 0 ∨ T.cell cond = 1 → good a → good b →
    Ensures T (O.select cond a b) fun c => good c ∧ O'.select (T.cell cond) (val a) (val b) (val c)

section points
variable {J : IntegerImpl} {good : J.I → Prop} {val : J.I → Fq} (hJ : J.Correct T good val)
include hJ

theorem ens_addIncomplete1 {a b : P1 J} (ha : good2 good a) (hb : good2 good b) : Ensures T (addIncomplete1 a b) fun c =>
    good2 good c ∧ FixedPoint.addIncomplete1 (val2 val a) (val2 val b) (val2 val c) :=
  ens_bind (hJ.sub _ _ hb.2 ha.2) fun _ h1 => ens_bind (hJ.sub _ _ hb.1 ha.1) fun _ h2 =>
  ens_bind (hJ.divIncomplete _ _ h1.1 h2.1) fun _ h3 => ens_bind (hJ.square _ h3.1) fun _ h4 =>
  ens_bind (hJ.subSub _ _ _ h4.1 ha.1 hb.1) fun _ h5 => ens_bind (hJ.sub _ _ ha.1 h5.1) fun _ h6 =>
  ens_bind (hJ.mul _ _ h6.1 h3.1) fun _ h7 => ens_bind (hJ.sub _ _ h7.1 ha.2) fun _ h8 =>
    ens_pure ⟨⟨h5.1, h8.1⟩, _, _, _, _, _, _, h1.2, h2.2, h3.2, h4.2, h5.2, h6.2, h7.2, h8.2⟩

theorem ops1_correct : OpsCorrect T (lops1 (J := J)) FixedPoint.ops1 (good2 good) (val2 val) where
  assignConstant _ := ens_bind ens_check fun _ h0 => ens_bind (hJ.assignConstant _) fun _ h1 =>
    ens_bind (hJ.assignConstant _) fun _ h2 => ens_pure ⟨⟨h1.1, h2.1⟩, h0, h1.2, h2.2⟩
  addIncomplete _ _ ha hb := ens_addIncomplete1 hJ ha hb
  add _ _ ha hb := ens_bind (hJ.assertNotEqual _ _ ha.1 hb.1) fun _ h0 => ens_mono (ens_addIncomplete1 hJ ha hb) fun _ h =>
    ⟨h.1, h0, h.2⟩
  select _ _ _ hc ha hb := ens_bind (hJ.select _ _ _ ha.1 hb.1 hc) fun _ h1 =>
    ens_bind (hJ.select _ _ _ ha.2 hb.2 hc) fun _ h2 => ens_pure ⟨⟨h1.1, h2.1⟩, h1.2, h2.2⟩

theorem ens_addIncomplete2 {a b : P2 J} (ha : goodP good a) (hb : goodP good b) : Ensures T (addIncomplete2 a b) fun c =>
    goodP good c ∧ FixedPoint.addIncomplete2 (valP val a) (valP val b) (valP val c) :=
  ens_bind (ens_sub2 hJ hb.2 ha.2) fun _ h1 => ens_bind (ens_sub2 hJ hb.1 ha.1) fun _ h2 =>
  ens_bind (ens_divIncomplete2 hJ h1.1 h2.1) fun _ h3 => ens_bind (ens_square2 hJ h3.1) fun _ h4 =>
  ens_bind (ens_subSub2 hJ h4.1 ha.1 hb.1) fun _ h5 => ens_bind (ens_sub2 hJ ha.1 h5.1) fun _ h6 =>
  ens_bind (ens_mulI2 hJ h6.1 h3.1) fun _ h7 => ens_bind (ens_sub2 hJ h7.1 ha.2) fun _ h8 =>
    ens_pure ⟨⟨h5.1, h8.1⟩, _, _, _, _, _, _, h1.2, h2.2, h3.2, h4.2, h5.2, h6.2, h7.2, h8.2⟩

theorem ops2_correct : OpsCorrect T (lops2 (J := J)) FixedPoint.ops2 (goodP good) (valP val) where
  assignConstant _ := ens_bind ens_check fun _ h0 => ens_bind ens_check fun _ h0' =>
    ens_bind (ens_assignConstantI2 hJ _) fun _ h1 =>
    ens_bind (ens_assignConstantI2 hJ _) fun _ h2 => ens_pure ⟨⟨h1.1, h2.1⟩, h0, h0', h1.2, h2.2⟩
  addIncomplete _ _ ha hb := ens_addIncomplete2 hJ ha hb
  add _ _ ha hb := ens_bind (ens_assertNotEqual2 hJ ha.1 hb.1) fun _ h0 => ens_mono (ens_addIncomplete2 hJ ha hb) fun _ h =>
    ⟨h.1, h0, h.2⟩
  select _ _ _ hc ha hb := ens_bind (ens_selectI2 hJ ha.1 hb.1 hc) fun _ h1 =>
    ens_bind (ens_selectI2 hJ ha.2 hb.2 hc) fun _ h2 => ens_pure ⟨⟨h1.1, h2.1⟩, h1.2, h2.2⟩

end points

theorem forall₂_good {Q : β → Prop} {R : α → β → Prop} {xs : List α} {ys : List β}
    (h : List.Forall₂ (fun x y => Q y ∧ R x y) xs ys) : ∀ y ∈ ys, Q y := by
  induction h with
  | nil => intro y hy; cases hy
  | cons h1 h2 ih =>
    intro y hy
    rcases List.mem_cons.1 hy with rfl | hy
    · exact h1.1
    · exact ih y hy

section fixed
variable {G P Pt : Type} [Inhabited Pt] {O : LOps G P} {O' : FixedPoint.Ops G Pt} {good : P → Prop} {val : P → Pt}
  (hO : OpsCorrect T O O' good val)
include hO

omit [Inhabited Pt] in
theorem ens_assignTable [AddCommGroup G] (w : ℕ) (base aux : G) : Ensures T (assignTable O w base aux) fun t =>
    (∀ row ∈ t, ∀ p ∈ row, good p) ∧ FixedPoint.assignTable O' w base aux (t.map (List.map val)) := by
  refine ens_bind ens_check fun _ hw => ?_
  refine ens_mono (ens_mapS (R := fun row l => (∀ p ∈ l, good p) ∧ List.Forall₂ O'.assignConstant row (l.map val)) _
    fun row _ => ens_mono (ens_mapS (R := fun g p => good p ∧ O'.assignConstant g (val p)) _
      fun g _ => hO.assignConstant g) ?_) ?_
  · intro l hl
    refine ⟨forall₂_good hl, ?_⟩
    · rw [List.forall₂_map_right_iff]
      exact hl.imp fun _ _ h => h.2
  · intro t ht
    refine ⟨forall₂_good ht, hw, ?_⟩
    · rw [List.forall₂_map_right_iff]
      exact ht.imp fun _ _ h => h.2

/-- The values of a vector of points, by index. -/
def fnOf (val : P → Pt) (red : List P) : ℕ → Pt := fun i => (red.map val).getD i default

omit hO in
theorem fnOf_nth {red : List P} {i : ℕ} {p : P} (h : red[i]? = some p) : fnOf val red i = val p := by
  unfold fnOf
  rw [List.getD_eq_getElem?_getD, List.getElem?_map, h]
  rfl

omit hO in
theorem fnOf_set {red : List P} {j : ℕ} {p : P} (h : j < red.length) :
    fnOf val (red.set j p) = Function.update (fnOf val red) j (val p) := by
  funext i
  unfold fnOf
  rw [List.getD_eq_getElem?_getD, List.getElem?_map, List.getElem?_set]
  by_cases hi : j = i
  · subst hi
    rw [if_pos rfl, if_pos h, Function.update_self]
    rfl
  · rw [if_neg hi, Function.update_of_ne (Ne.symm hi), List.getD_eq_getElem?_getD, List.getElem?_map]

theorem ens_selectLayer (s : Cell) (hs : T.cell s = 0 ∨ T.cell s = 1) (js : List ℕ) (red : List P)
    (hred : ∀ p ∈ red, good p) : Ensures T (selectLayer O s js red) fun red' => (∀ p ∈ red', good p) ∧
      FixedPoint.selectLayer O' (T.cell s) js (fnOf val red) (fnOf val red') := by
  unfold selectLayer
  refine ens_foldS (R := fun js red red' => FixedPoint.selectLayer O' (T.cell s) js (fnOf val red) (fnOf val red'))
    (fun red : List P => ∀ p ∈ red, good p) (fun b _ => rfl) ?_ js red hred
  intro j js red hred
  refine ens_bind ens_nth fun p1 h1 => ens_bind ens_nth fun p0 h0 => ?_
  have m1 := List.mem_of_getElem? h1
  have m0 := List.mem_of_getElem? h0
  refine ens_bind (hO.select s p1 p0 hs (hred _ m1) (hred _ m0)) fun v hv => ens_pure ⟨?_, ?_⟩
  · intro p hp
    rcases List.mem_or_eq_of_mem_set hp with hp | rfl
    · exact hred p hp
    · exact hv.1
  · intro red'' h
    have hj : j < red.length := by
      have := (List.getElem?_eq_some_iff.1 h1).1
      omega
    refine ⟨val v, ?_, ?_⟩
    · rw [fnOf_nth h1, fnOf_nth h0]
      exact hv.2
    · rw [fnOf_set hj] at h
      exact h

theorem ens_selectLayers : ∀ (sel : List Cell) (red : List P), (∀ s ∈ sel, T.cell s = 0 ∨ T.cell s = 1) →
    (∀ p ∈ red, good p) → Ensures T (selectLayers O sel red) fun red' => (∀ p ∈ red', good p) ∧
      FixedPoint.selectLayers O' (sel.map T.cell) (fnOf val red) (fnOf val red')
  | [], red, _, hred => ens_pure ⟨hred, rfl⟩
  | s :: ss, red, hs, hred => by
    refine ens_bind (ens_selectLayer hO s (hs s List.mem_cons_self) _ red hred) fun red1 h1 => ?_
    refine ens_mono (ens_selectLayers ss red1 (fun x hx => hs x (List.mem_cons_of_mem _ hx)) h1.1) fun red2 h2 => ⟨h2.1, ?_⟩
    refine ⟨_, ?_, h2.2⟩
    rw [List.length_map]
    exact h1.2

theorem ens_selectMulti (sel : List Cell) (tab : List P) (hs : ∀ s ∈ sel, T.cell s = 0 ∨ T.cell s = 1)
    (htab : ∀ p ∈ tab, good p) : Ensures T (selectMulti O sel tab) fun c => good c ∧
      FixedPoint.selectMulti O' (sel.map T.cell) (tab.map val) (val c) := by
  refine ens_bind ens_check fun _ hl => ens_bind (ens_selectLayers hO sel tab hs htab) fun red h => ?_
  refine ens_mono ens_nth fun c hc => ⟨h.1 c (List.mem_of_getElem? hc), ?_⟩
  refine ⟨by rw [List.length_map, List.length_map, hl], fnOf val red, h.2, ?_⟩
  rw [fnOf_nth hc]

theorem ens_addRows (addOp : P → P → Synth P) (addOp' : Pt → Pt → Pt → Prop)
    (hadd : ∀ a b, good a → good b → Ensures T (addOp a b) fun c => good c ∧ addOp' (val a) (val b) (val c))
    (windowed : List (List Cell)) (tab : List (List P)) (hs : ∀ sel ∈ windowed, ∀ s ∈ sel, T.cell s = 0 ∨ T.cell s = 1)
    (htab : ∀ row ∈ tab, ∀ p ∈ row, good p) (is : List ℕ) (acc : P) (hacc : good acc) :
    Ensures T (addRows O addOp windowed tab is acc) fun c => good c ∧
      FixedPoint.addRows O' addOp' (windowed.map (List.map T.cell)) (tab.map (List.map val)) is (val acc) (val c) := by
  unfold addRows
  refine ens_foldS (R := fun is acc c => FixedPoint.addRows O' addOp' (windowed.map (List.map T.cell))
    (tab.map (List.map val)) is (val acc) (val c)) good (fun b _ => rfl) ?_ is acc hacc
  intro i is acc hacc
  refine ens_bind ens_nth fun sel hsel => ens_bind ens_nth fun row hrow => ?_
  refine ens_bind (ens_selectMulti hO sel row (hs _ (List.mem_of_getElem? hsel)) (htab _ (List.mem_of_getElem? hrow)))
    fun p hp => ?_
  refine ens_mono (hadd acc p hacc hp.1) fun acc' h' => ⟨h'.1, fun c hc => ⟨val p, val acc', ?_, h'.2, hc⟩⟩
  rw [List.getD_eq_getElem?_getD, List.getElem?_map, hsel, List.getD_eq_getElem?_getD, List.getElem?_map, hrow]
  exact hp.2

omit hO [Inhabited Pt] in
theorem window_map (f : α → β) (bits : List α) (w : ℕ) :
    FixedPoint.window (bits.map f) w = (FixedPoint.window bits w).map (List.map f) := by
  unfold FixedPoint.window
  simp only [List.length_map, List.map_append, List.map_map]
  congr 1
  · refine List.map_congr_left fun i _ => ?_
    simp [List.map_take, List.map_drop]
  · split <;> simp [List.map_drop]

omit hO [Inhabited Pt] in
theorem window_mem {bits : List α} {w : ℕ} {sel : List α} {b : α} (h : sel ∈ FixedPoint.window bits w) (hb : b ∈ sel) :
    b ∈ bits := by
  unfold FixedPoint.window at h
  rcases List.mem_append.1 h with h | h
  · obtain ⟨i, -, rfl⟩ := List.mem_map.1 h
    exact List.mem_of_mem_drop (List.mem_of_mem_take hb)
  · split at h
    · rw [List.mem_singleton] at h
      subst h
      exact List.mem_of_mem_drop hb
    · cases h

omit hO [Inhabited Pt] in
theorem bit_cases {b : Fr} (h : MainGate.assignBit b) : b = 0 ∨ b = 1 := by
  obtain ⟨b', b'', h, rfl, rfl⟩ := h
  unfold MainGate.apply MainGate.cell at h
  have h : 0 * b'' + (0 * b'' + (-1 * b'' + 0)) + 1 * (b'' * b'') + 0 * (b'' * 0) + 0 * 0 + 0 = 0 := h
  have : b'' * (b'' - 1) = 0 := by linear_combination h
  rcases mul_eq_zero.1 this with h | h
  · exact Or.inl h
  · exact Or.inr (sub_eq_zero.1 h)

theorem ens_mulFixed (w : ℕ) (tab : List (List P)) (s : Cell) (htab : ∀ row ∈ tab, ∀ p ∈ row, good p) :
    Ensures T (mulFixed O w tab s) fun c => good c ∧
      FixedPoint.mul O' w (tab.map (List.map val)) (T.cell s) (val c) := by
  refine ens_bind ens_check fun _ hl => ens_bind ens_nth fun last hlast => ens_bind ens_check fun _ hll => ?_
  refine ens_bind (ens_toBits s FixedPoint.numBits) fun bits hb => ?_
  have hw : ∀ sel ∈ FixedPoint.window bits w, ∀ c ∈ sel, T.cell c = 0 ∨ T.cell c = 1 := fun sel hsel c hc =>
    bit_cases (hb.2.1 _ (List.mem_map_of_mem (window_mem hsel hc)))
  refine ens_bind ens_nth fun sel0 hsel0 => ens_bind ens_nth fun row0 hrow0 => ?_
  refine ens_bind (ens_selectMulti hO sel0 row0 (hw _ (List.mem_of_getElem? hsel0)) (htab _ (List.mem_of_getElem? hrow0)))
    fun acc0 h0 => ?_
  refine ens_bind (ens_addRows hO O.addIncomplete O'.addIncomplete hO.addIncomplete _ tab hw htab _ acc0 h0.1)
    fun acc1 h1 => ?_
  refine ens_mono (ens_addRows hO O.add O'.add hO.add _ tab hw htab _ acc1 h1.1) fun c h2 => ⟨h2.1, ?_⟩
  refine ⟨by rw [List.length_map, hl], ?_, bits.map T.cell, val acc0, val acc1, hb, ?_, ?_, ?_⟩
  · rw [List.getD_eq_getElem?_getD, List.getElem?_map, hlast]
    simpa using hll
  · rw [window_map, List.getD_eq_getElem?_getD, List.getElem?_map, hsel0, List.getD_eq_getElem?_getD, List.getElem?_map,
      hrow0]
    exact h0.2
  · rw [window_map]
    exact h1.2
  · rw [window_map]
    exact h2.2

end fixed

end Verif.Layout
