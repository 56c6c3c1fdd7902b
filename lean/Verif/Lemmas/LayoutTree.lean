import Verif.Lemmas.HonestExpose

/-!
An integer chip that meets the requirements: an integer is a function of some condition cells, its limbs are selected by
a tree over all values of these cells.  It shows that the requirements on the external chip can be met; it is not a chip
of the code.
-/

namespace Verif.Layout
open Verif Spec

/-- An integer as a function of the values of some condition cells. -/
structure TreeInt where
  conds : List Cell
  f : (Cell → Fr) → Fq
  dep : ∀ w w', (∀ c ∈ conds, w c = w' c) → f w = f w'
  limbs : List Cell

/-- The cell with the value `f` of the values of the condition cells. -/
def tree (f : (Cell → Fr) → Fr) : List Cell → (Cell → Fr) → Synth Cell
  | [], w => assignConstant (f w)
  | c :: cs, w => do
    let a ← tree f cs (Function.update w c 1)
    let b ← tree f cs (Function.update w c 0)
    select a b c

/-- The integers `a` and `b` combined. -/
def TreeInt.op (g : Fq → Fq → Fq) (a b : TreeInt) : TreeInt where
  conds := a.conds ++ b.conds
  f w := g (a.f w) (b.f w)
  dep w w' h := by
    rw [a.dep w w' fun c hc => h c (List.mem_append_left _ hc), b.dep w w' fun c hc => h c (List.mem_append_right _ hc)]
  limbs := []

/-- A constant. -/
def TreeInt.const (k : Fq) : TreeInt := ⟨[], fun _ => k, fun _ _ _ => rfl, []⟩

/-- A selected integer. -/
def TreeInt.sel (a b : TreeInt) (cond : Cell) : TreeInt where
  conds := cond :: (a.conds ++ b.conds)
  f w := if w cond = 1 then a.f w else b.f w
  dep w w' h := by
    rw [a.dep w w' fun c hc => h c (List.mem_cons_of_mem _ (List.mem_append_left _ hc)),
      b.dep w w' fun c hc => h c (List.mem_cons_of_mem _ (List.mem_append_right _ hc)), h cond List.mem_cons_self]
  limbs := []

/-- The cell with the value `1` if the integer is not zero. -/
def TreeInt.notZero (a : TreeInt) : Synth Unit := do
  let c ← tree (fun w => if a.f w = 0 then 0 else 1) a.conds fun _ => 0
  let one ← assignConstant 1
  constrainEqual c one

/-- The chip. -/
def treeChip : IntegerImpl where
  I := TreeInt
  limbs := TreeInt.limbs
  assignConstant k := pure (.const k)
  add a b := pure (.op (fun x y => x + y) a b)
  sub a b := pure (.op (fun x y => x - y) a b)
  subSub a b c := pure (.op (fun x y => x - y) (.op (fun x y => x - y) a b) c)
  neg a := pure (.op (fun x _ => -x) a a)
  mul a b := pure (.op (fun x y => x * y) a b)
  mul2 a := pure (.op (fun x _ => 2 * x) a a)
  square a := pure (.op (fun x y => x * y) a a)
  divIncomplete a b := do
    b.notZero
    pure (.op (fun x y => x / y) a b)
  invertIncomplete a := do
    a.notZero
    pure (.op (fun x _ => x⁻¹) a a)
  assertNotZero a := a.notZero
  assertNotEqual a b := (TreeInt.op (fun x y => x - y) a b).notZero
  select a b cond := pure (.sel a b cond)
  reduce a := do
    let limbs ← mapS (fun i => tree (fun w => (((a.f w).val / 2 ^ (68 * i) % 2 ^ 68 : ℕ) : Fr)) a.conds fun _ => 0)
      (List.range numberOfLimbs)
    pure ⟨a.conds, a.f, a.dep, limbs⟩

/-! ### Correctness -/

section
variable {T : Table}

/-- The condition cells are bits. -/
def TreeInt.good (T : Table) (a : TreeInt) : Prop := ∀ c ∈ a.conds, T.cell c = 0 ∨ T.cell c = 1

theorem tree_override {cs : List Cell} {w u : Cell → Fr} {c : Cell} {x : Fr} (h : u c = x) :
    (fun y => if y ∈ cs then u y else Function.update w c x y) = fun y => if y ∈ c :: cs then u y else w y := by
  funext y
  by_cases hy : y ∈ cs
  · rw [if_pos hy, if_pos (List.mem_cons_of_mem _ hy)]
  · rw [if_neg hy]
    by_cases hc : y = c
    · subst hc
      rw [Function.update_self, if_pos List.mem_cons_self, h]
    · rw [Function.update_of_ne hc, if_neg]
      rw [List.mem_cons, not_or]
      exact ⟨hc, hy⟩

theorem ens_tree (f : (Cell → Fr) → Fr) : ∀ (cs : List Cell) (w : Cell → Fr), (∀ c ∈ cs, T.cell c = 0 ∨ T.cell c = 1) →
    Ensures T (tree f cs w) fun o => T.cell o = f fun y => if y ∈ cs then T.cell y else w y
  | [], w, _ => ens_mono (ens_assignConstant _) fun _ h => by
    rw [GrumpkinChip.assignConstant_gate_iff.1 h]
    simp
  | c :: cs, w, h => by
    refine ens_bind (ens_tree f cs _ fun c hc => h c (List.mem_cons_of_mem _ hc)) fun a ha => ?_
    refine ens_bind (ens_tree f cs _ fun c hc => h c (List.mem_cons_of_mem _ hc)) fun b hb => ?_
    refine ens_mono (ens_select a b c) fun o ho => ?_
    rw [GrumpkinChip.select_gate_iff] at ho
    rcases h c List.mem_cons_self with e | e
    · rw [tree_override e] at hb
      rw [ho, e, hb]
      ring
    · rw [tree_override e] at ha
      rw [ho, e, ha]
      ring

theorem TreeInt.dep_override (a : TreeInt) (u w : Cell → Fr) : a.f (fun y => if y ∈ a.conds then u y else w y) = a.f u :=
  a.dep _ _ fun _ hc => if_pos hc

theorem ens_notZero {a : TreeInt} (ha : a.good T) : Ensures T a.notZero fun _ => a.f T.cell ≠ 0 := by
  refine ens_bind (ens_tree _ a.conds _ ha) fun c hc => ?_
  refine ens_bind (ens_assignConstant 1) fun one h1 => ?_
  refine ens_mono ens_constrainEqual fun _ h => ?_
  rw [GrumpkinChip.assignConstant_gate_iff] at h1
  rw [hc, h1, a.dep_override] at h
  intro e
  rw [if_pos e] at h
  exact zero_ne_one h

theorem TreeInt.good_op {g : Fq → Fq → Fq} {a b : TreeInt} (ha : a.good T) (hb : b.good T) : (TreeInt.op g a b).good T :=
  fun c hc => (List.mem_append.1 hc).elim (ha c) (hb c)

theorem normalize_limbVals (x : Fq) : DkgCircuit.normalize x (limbVals x) := by
  have hV : x.val < 2 ^ 254 := lt_trans (ZMod.val_lt x) (by decide +kernel)
  have hx := ZMod.natCast_zmod_val x
  rw [limbVals_eq]
  generalize x.val = V at *
  have b0 : V % 2 ^ 68 < 2 ^ 68 := Nat.mod_lt _ (by positivity)
  have b1 : V / 2 ^ 68 % 2 ^ 68 < 2 ^ 68 := Nat.mod_lt _ (by positivity)
  have b2 : V / 2 ^ 136 % 2 ^ 68 < 2 ^ 68 := Nat.mod_lt _ (by positivity)
  have b3 : V / 2 ^ 204 < 2 ^ 50 := by
    apply Nat.div_lt_of_lt_mul
    rw [← pow_add]
    exact hV
  have hB := DkgCircuit.pow_lt_r (k := 68) (by norm_num)
  have hB' := DkgCircuit.pow_lt_r (k := 50) (by norm_num)
  rw [Nat.mod_eq_of_lt (a := V / 2 ^ 204) (lt_trans b3 (Nat.pow_lt_pow_right (by norm_num) (by norm_num)))]
  refine ⟨_, _, _, _, rfl, ?_, ?_, ?_, ?_, ?_⟩
  · rw [DkgCircuit.val_cast (b0.trans hB)]; exact b0
  · rw [DkgCircuit.val_cast (b1.trans hB)]; exact b1
  · rw [DkgCircuit.val_cast (b2.trans hB)]; exact b2
  · rw [DkgCircuit.val_cast (b3.trans hB')]; exact b3
  · rw [DkgCircuit.val_cast (b0.trans hB), DkgCircuit.val_cast (b1.trans hB), DkgCircuit.val_cast (b2.trans hB),
      DkgCircuit.val_cast (b3.trans hB'), DkgCircuit.limbs_of V, hx]

theorem treeChip_correct (T : Table) : treeChip.Correct T (TreeInt.good T) fun a => a.f T.cell where
  assignConstant k := ens_pure ⟨fun c hc => absurd hc List.not_mem_nil, rfl⟩
  add a b ha hb := ens_pure ⟨TreeInt.good_op ha hb, rfl⟩
  sub a b ha hb := ens_pure ⟨TreeInt.good_op ha hb, rfl⟩
  subSub a b c ha hb hc := ens_pure ⟨TreeInt.good_op (TreeInt.good_op ha hb) hc, rfl⟩
  neg a ha := ens_pure ⟨TreeInt.good_op ha ha, rfl⟩
  mul a b ha hb := ens_pure ⟨TreeInt.good_op ha hb, rfl⟩
  mul2 a ha := ens_pure ⟨TreeInt.good_op ha ha, rfl⟩
  square a ha := ens_pure ⟨TreeInt.good_op ha ha, rfl⟩
  divIncomplete a b ha hb := ens_bind (ens_notZero hb) fun _ h => ens_pure ⟨TreeInt.good_op ha hb, div_mul_cancel₀ _ h⟩
  invertIncomplete a ha := ens_bind (ens_notZero ha) fun _ h => ens_pure ⟨TreeInt.good_op ha ha, inv_mul_cancel₀ h⟩
  assertNotZero a ha := ens_notZero ha
  assertNotEqual a b ha hb := ens_mono (ens_notZero (TreeInt.good_op ha hb)) fun _ h e => h (sub_eq_zero.2 e)
  select a b cond ha hb hc := ens_pure ⟨fun c h => (List.mem_cons.1 h).elim (fun e => e ▸ hc) (TreeInt.good_op (g := fun x _ => x) ha hb c), by
    rcases hc with e | e
    · refine Or.inr ⟨e, ?_⟩
      show (if T.cell cond = 1 then a.f T.cell else b.f T.cell) = b.f T.cell
      rw [e, if_neg zero_ne_one]
    · exact Or.inl ⟨e, if_pos e⟩⟩
  reduce a ha := by
    refine ens_bind (ens_mapS (R := fun i c => T.cell c = (((a.f T.cell).val / 2 ^ (68 * i) % 2 ^ 68 : ℕ) : Fr)) _ fun i _ => ?_)
      fun limbs h => ens_pure ⟨ha, rfl, ?_⟩
    · refine ens_mono (ens_tree _ a.conds _ ha) fun c hc => ?_
      rw [a.dep_override] at hc
      exact hc
    · have e : limbs.map T.cell = limbVals (a.f T.cell) := by
        unfold limbVals
        rw [← List.forall₂_eq_eq_eq, List.forall₂_map_left_iff, List.forall₂_map_right_iff]
        exact h.flip
      show DkgCircuit.normalize (a.f T.cell) (limbs.map T.cell)
      rw [e]
      exact normalize_limbVals _
end

/-! ### Completeness -/

section
variable {X : Setting} {s : Known}

/-- The condition cells have been filled with bits, and the integer has the value `x`. -/
def TreeInt.is (s : Known) (a : TreeInt) (x : Fq) : Prop :=
  (∀ c ∈ a.conds, Has s c 0 ∨ Has s c 1) ∧ ∀ w, Keeps s w → a.f w = x

theorem TreeInt.is_mono {s s' : Known} {a : TreeInt} {x : Fq} (h : a.is s x) (hs : s.Before s') : a.is s' x :=
  ⟨fun c hc => (h.1 c hc).imp (·.mono hs) (·.mono hs), fun w hw => h.2 w (hw.mono hs)⟩

theorem runs_tree (f : (Cell → Fr) → Fr) : ∀ (cs : List Cell) (w : Cell → Fr) (s : Known), (∀ c ∈ cs, Has s c 0 ∨ Has s c 1) →
    Runs X (tree f cs w) s fun o s' => Has s' o (f fun y => if y ∈ cs then s.val y else w y)
  | [], w, s, _ => runs_mono (runs_assignConstant _) fun _ _ _ h => by
    simpa using h
  | c :: cs, w, s, h => by
    refine runs_bind (runs_tree f cs _ s fun c hc => h c (List.mem_cons_of_mem _ hc)) fun a s1 b1 ha => ?_
    have hm : ∀ d ∈ c :: cs, s1.val d = s.val d := fun d hd => b1.2 d ((h d hd).elim (·.1) (·.1))
    refine runs_bind (runs_tree f cs _ s1 fun c hc => (h c (List.mem_cons_of_mem _ hc)).imp (·.mono b1) (·.mono b1))
      fun b s2 b2 hb => ?_
    have e0 : (fun y => if y ∈ cs then s1.val y else Function.update w c 0 y) =
        fun y => if y ∈ cs then s.val y else Function.update w c 0 y := by
      funext y
      by_cases hy : y ∈ cs
      · rw [if_pos hy, if_pos hy, hm y (List.mem_cons_of_mem _ hy)]
      · rw [if_neg hy, if_neg hy]
    rw [e0] at hb
    rcases h c List.mem_cons_self with e | e
    · refine runs_mono (runs_select (ha.mono b2) hb (e.mono (b1.trans b2))) fun o s3 _ ho => ?_
      rw [tree_override e.2, zero_mul, zero_add] at ho
      exact ho
    · refine runs_mono (runs_select (ha.mono b2) hb (e.mono (b1.trans b2))) fun o s3 _ ho => ?_
      rw [tree_override e.2, one_mul, sub_add_cancel] at ho
      exact ho

theorem runs_notZero {a : TreeInt} {x : Fq} (ha : a.is s x) (hx : x ≠ 0) : Runs X a.notZero s fun _ _ => True := by
  refine runs_bind (runs_tree _ a.conds _ s ha.1) fun c s1 b1 hc => ?_
  rw [a.dep_override, ha.2 _ (keeps_self s), if_neg hx] at hc
  refine runs_bind (runs_assignConstant 1) fun one s2 b2 h1 => ?_
  exact runs_constrainEqual (hc.mono b2) h1 trivial

theorem TreeInt.is_op {g : Fq → Fq → Fq} {a b : TreeInt} {x y : Fq} (ha : a.is s x) (hb : b.is s y) :
    (TreeInt.op g a b).is s (g x y) :=
  ⟨fun c hc => (List.mem_append.1 hc).elim (ha.1 c) (hb.1 c), fun w hw => by
    show g (a.f w) (b.f w) = _
    rw [ha.2 w hw, hb.2 w hw]⟩

theorem treeChip_complete (X : Setting) : treeChip.Complete X TreeInt.is where
  mono s s' i x hs h := TreeInt.is_mono h hs
  assignConstant s k := runs_pure ⟨fun c hc => absurd hc List.not_mem_nil, fun _ _ => rfl⟩
  add s a b x y ha hb := runs_pure (TreeInt.is_op ha hb)
  sub s a b x y ha hb := runs_pure (TreeInt.is_op ha hb)
  subSub s a b c x y z ha hb hc := runs_pure (TreeInt.is_op (TreeInt.is_op ha hb) hc)
  neg s a x ha := runs_pure (TreeInt.is_op ha ha)
  mul s a b x y ha hb := runs_pure (TreeInt.is_op ha hb)
  mul2 s a x ha := runs_pure (TreeInt.is_op ha ha)
  square s a x ha := runs_pure (TreeInt.is_op ha ha)
  divIncomplete s a b x y ha hb hy := runs_bind (runs_notZero hb hy) fun _ _ hs _ =>
    runs_pure (TreeInt.is_op (TreeInt.is_mono ha hs) (TreeInt.is_mono hb hs))
  invertIncomplete s a x ha hx := runs_bind (runs_notZero ha hx) fun _ _ hs _ =>
    runs_pure (TreeInt.is_op (TreeInt.is_mono ha hs) (TreeInt.is_mono ha hs))
  assertNotZero s a x ha hx := runs_notZero ha hx
  assertNotEqual s a b x y ha hb hxy := runs_notZero (TreeInt.is_op ha hb) (sub_ne_zero.2 hxy)
  select s a b cond x y bit ha hb hc := runs_pure (R := fun c s' => TreeInt.is s' c (if bit then x else y)) ⟨fun c h => by
    rcases List.mem_cons.1 h with rfl | h
    · cases bit
      · exact .inl hc
      · exact .inr hc
    · exact (List.mem_append.1 h).elim (ha.1 c) (hb.1 c), fun w hw => by
    show (if w cond = 1 then a.f w else b.f w) = _
    rw [hc.keep hw, ha.2 w hw, hb.2 w hw]
    cases bit
    · rw [if_neg Bool.false_ne_true, if_neg zero_ne_one, if_neg Bool.false_ne_true]
    · rw [if_pos rfl, if_pos rfl, if_pos rfl]⟩
  reduce s a x ha := by
    refine runs_bind (runs_mapS (R := fun (i : ℕ) c s' => Has s' c ((x.val / 2 ^ (68 * i) % 2 ^ 68 : ℕ) : Fr))
      (fun _ _ _ _ hs h => h.mono hs) _ _ fun i _ s' hs => ?_) fun limbs s1 b1 h1 => ?_
    · have ha' := TreeInt.is_mono ha hs
      refine runs_mono (runs_tree _ a.conds _ s' ha'.1) fun c s2 _ h => ?_
      rw [a.dep_override, ha'.2 _ (keeps_self s')] at h
      exact h
    · refine runs_pure (R := fun c s' => TreeInt.is s' c x ∧ List.Forall₂ (Has s') c.limbs (limbVals x)) ⟨TreeInt.is_mono ha b1, ?_⟩
      unfold limbVals
      rw [List.forall₂_map_right_iff]
      exact h1.flip
end

end Verif.Layout
