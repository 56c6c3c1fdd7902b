import Verif.Spec.Layout

/-! Chip functions as layouts ensure the relations between the values of the cells. -/

namespace Verif.Layout
open Verif MainGate

variable {T : Table} {α β : Type}

theorem holds_append {S S' : Shape} (h : Holds (S.append S') T) : Holds S T ∧ Holds S' T := by
  refine ⟨⟨fun k i g hg => h.gates k i g (List.mem_append_left _ hg),
    fun c c' hc => h.copies c c' (List.mem_append_left _ hc),
    fun c x hc => h.constants c x (List.mem_append_left _ hc),
    fun c j hc => h.publics c j (List.mem_append_left _ hc)⟩,
    ⟨fun k i g hg => h.gates k i g (List.mem_append_right _ hg),
    fun c c' hc => h.copies c c' (List.mem_append_right _ hc),
    fun c x hc => h.constants c x (List.mem_append_right _ hc),
    fun c j hc => h.publics c j (List.mem_append_right _ hc)⟩⟩

theorem holds_append_iff {S S' : Shape} : Holds (S.append S') T ↔ Holds S T ∧ Holds S' T := by
  refine ⟨holds_append, fun ⟨h, h'⟩ => ⟨fun k i g hg => ?_, fun c c' hc => ?_, fun c x hc => ?_, fun c j hc => ?_⟩⟩
  · exact (List.mem_append.1 hg).elim (h.gates k i g) (h'.gates k i g)
  · exact (List.mem_append.1 hc).elim (h.copies c c') (h'.copies c c')
  · exact (List.mem_append.1 hc).elim (h.constants c x) (h'.constants c x)
  · exact (List.mem_append.1 hc).elim (h.publics c j) (h'.publics c j)

theorem holds_empty : Holds Shape.empty T :=
  ⟨fun _ _ _ h => absurd h List.not_mem_nil, fun _ _ h => absurd h List.not_mem_nil,
    fun _ _ h => absurd h List.not_mem_nil, fun _ _ h => absurd h List.not_mem_nil⟩

/-- `Ensures` with the positions before and after. -/
def EnsC (T : Table) {α : Type} (m : Synth α) (R : Ctx → α → Ctx → Prop) : Prop :=
  ∀ c o, m c = some o → Holds o.shape T → R c o.val o.ctx

theorem bind_some {m : Synth α} {f : α → Synth β} {c : Ctx} {o : Out β} (h : (m >>= f) c = some o) :
    ∃ o1 o2, m c = some o1 ∧ f o1.val o1.ctx = some o2 ∧
      o = ⟨o2.val, o2.ctx, o1.shape.append o2.shape, fun inp w => o2.fill inp (o1.fill inp w)⟩ := by
  change (match m c with
    | none => none
    | some o => match f o.val o.ctx with
      | none => none
      | some o' => some (⟨o'.val, o'.ctx, o.shape.append o'.shape, fun inp w => o'.fill inp (o.fill inp w)⟩ : Out β)) =
        some o at h
  cases hmc : m c with
  | none => rw [hmc] at h; cases h
  | some o1 =>
    rw [hmc] at h
    dsimp only at h
    cases hfc : f o1.val o1.ctx with
    | none => rw [hfc] at h; cases h
    | some o2 =>
      rw [hfc] at h
      cases h
      exact ⟨o1, o2, rfl, hfc, rfl⟩

theorem ens_pure {a : α} {R : α → Prop} (h : R a) : Ensures T (pure a : Synth α) R := by
  intro c o ho hT
  cases ho
  exact h

theorem ens_bind {m : Synth α} {f : α → Synth β} {R : α → Prop} {R' : β → Prop} (hm : Ensures T m R)
    (hf : ∀ a, R a → Ensures T (f a) R') : Ensures T (m >>= f) R' := by
  intro c o ho hT
  obtain ⟨o1, o2, h1, h2, rfl⟩ := bind_some ho
  obtain ⟨g1, g2⟩ := holds_append hT
  exact hf _ (hm _ _ h1 g1) o1.ctx o2 h2 g2

theorem ens_mono {m : Synth α} {R R' : α → Prop} (hm : Ensures T m R) (h : ∀ a, R a → R' a) : Ensures T m R' :=
  fun c o ho hT => h _ (hm c o ho hT)

theorem ens_fail {R : α → Prop} : Ensures T (fail : Synth α) R := fun c o ho => by cases ho

theorem ens_check {p : Prop} [Decidable p] : Ensures T (check p) fun _ => p := by
  unfold check
  split
  · exact ens_pure ‹_›
  · exact ens_fail

theorem ens_region {m : Synth α} {R : α → Prop} {k : ℕ} (h : Ensures T m R) : Ensures T (assignRegion k m) R :=
  fun _ o ho hT => h _ o ho hT

theorem ens_nth {xs : List α} {i : ℕ} : Ensures T (nth xs i) fun a => xs[i]? = some a := by
  intro c o ho hT
  unfold nth at ho
  split at ho
  · cases ho
    assumption
  · cases ho

theorem ens_constrainEqual {a b : Cell} : Ensures T (constrainEqual a b) fun _ => T.cell a = T.cell b := by
  intro c o ho hT
  cases ho
  exact hT.copies a b (List.mem_singleton.2 rfl)

theorem ens_exposePublic {a : Cell} {j : ℕ} : Ensures T (exposePublic a j) fun _ => T.cell a = T.inst j := by
  intro c o ho hT
  cases ho
  exact hT.publics a j (List.mem_singleton.2 rfl)

theorem ens_assignValue {f : Input → Fr} : Ensures T (assignValue f) fun _ => True := fun _ _ _ _ => trivial

theorem ens_mapS {f : α → Synth β} {R : α → β → Prop} : ∀ (xs : List α), (∀ x ∈ xs, Ensures T (f x) (R x)) →
    Ensures T (mapS f xs) fun ys => List.Forall₂ R xs ys
  | [], _ => ens_pure List.Forall₂.nil
  | x :: xs, h => ens_bind (h x List.mem_cons_self) fun _ hy =>
      ens_bind (ens_mapS xs fun z hz => h z (List.mem_cons_of_mem _ hz)) fun _ hys => ens_pure (List.Forall₂.cons hy hys)

/-- A loop, with a relation built up from the end. -/
theorem ens_foldS {f : β → α → Synth β} {R : List α → β → β → Prop} (I : β → Prop) (hnil : ∀ b, I b → R [] b b)
    (hcons : ∀ x xs b, I b → Ensures T (f b x) fun b' => I b' ∧ ∀ b'', R xs b' b'' → R (x :: xs) b b'') :
    ∀ (xs : List α) (b : β), I b → Ensures T (foldS f xs b) fun b' => I b' ∧ R xs b b'
  | [], b, hb => ens_pure ⟨hb, hnil b hb⟩
  | x :: xs, b, hb => ens_bind (hcons x xs b hb) fun b' h =>
      ens_mono (ens_foldS I hnil hcons xs b' h.1) fun _ h' => ⟨h'.1, h.2 _ h'.2⟩

/-! ### The main gate -/

/-- A term that has been assigned already has the value of the old cell. -/
def argOk (T : Table) : Arg → Cell → Prop
  | .assigned a _, c => T.cell c = T.cell a
  | .unassigned _ _, _ => True

/-- The terms of a row. -/
def rowTerms (T : Table) (ts : List Arg) (l : List Cell) : List Term :=
  List.zipWith (fun a c => ⟨T.cell c, a.coeff⟩) ts l

theorem assignArg_spec (col : Fin 5) (a : Arg) : EnsC T (assignArg col a) fun c x c' =>
    c' = c ∧ x = ⟨c.region, c.offset, col⟩ ∧ argOk T a x := by
  intro c o ho hT
  cases a with
  | assigned b k =>
    obtain ⟨o1, o2, h1, h2, rfl⟩ := bind_some ho
    obtain ⟨o3, o4, h3, h4, rfl⟩ := bind_some h2
    cases h1
    cases h3
    cases h4
    exact ⟨rfl, rfl, (hT.copies _ _ (List.mem_append_right _ (List.mem_append_left _ (List.mem_singleton.2 rfl)))).symm⟩
  | unassigned f k =>
    cases ho
    exact ⟨rfl, rfl, trivial⟩

theorem assignArgs_spec : ∀ (cols : List (Fin 5)) (ts : List Arg), ts.length ≤ cols.length →
    EnsC T (mapS (fun p : Fin 5 × Arg => assignArg p.1 p.2) (cols.zip ts)) fun c l c' =>
      c' = c ∧ l = (cols.take ts.length).map (fun j => ⟨c.region, c.offset, j⟩) ∧ List.Forall₂ (argOk T) ts l
  | cols, [], _ => by
    intro c o ho hT
    rw [List.zip_nil_right] at ho
    cases ho
    exact ⟨rfl, rfl, List.Forall₂.nil⟩
  | [], t :: ts, h => absurd h (by simp)
  | col :: cols, t :: ts, h => by
    intro c o ho hT
    obtain ⟨o1, o2, h1, h2, rfl⟩ := bind_some ho
    obtain ⟨o3, o4, h3, h4, rfl⟩ := bind_some h2
    cases h4
    obtain ⟨g1, g2⟩ := holds_append hT
    obtain ⟨g3, g4⟩ := holds_append g2
    obtain ⟨e1, e2, e3⟩ := assignArg_spec col t c o1 h1 g1
    obtain ⟨e4, e5, e6⟩ := assignArgs_spec cols ts (by simpa using h) o1.ctx o3 h3 g3
    dsimp only
    rw [e1] at e4 e5
    refine ⟨e4, ?_, List.Forall₂.cons e3 e6⟩
    rw [e2, e5]
    rfl

theorem apply_spec (ts : List Arg) (const : Fr) (o : Comb) (hab : o.ab = 0 ∨ 2 ≤ ts.length)
    (hcd : o.cd = 0 ∨ 4 ≤ ts.length) : EnsC T (apply ts const o) fun c l c' =>
      c' = ⟨c.region, c.offset + 1⟩ ∧ l = ((List.finRange 5).take ts.length).map (fun j => ⟨c.region, c.offset, j⟩) ∧
      List.Forall₂ (argOk T) ts l ∧
      MainGate.apply (rowTerms T ts l) const o (T.cell ⟨c.region, c.offset + 1, 4⟩) := by
  intro c out ho hT
  obtain ⟨o1, o2, h1, h2, rfl⟩ := bind_some ho
  obtain ⟨o3, o4, h3, h4, rfl⟩ := bind_some h2
  obtain ⟨o5, o6, h5, h6, rfl⟩ := bind_some h4
  obtain ⟨o7, o8, h7, h8, rfl⟩ := bind_some h6
  obtain ⟨g1, g2⟩ := holds_append hT
  obtain ⟨g3, g4⟩ := holds_append g2
  obtain ⟨g5, g6⟩ := holds_append g4
  have hlen : ts.length ≤ 5 := ens_check c o1 h1 g1
  have hc1 : o1.ctx = c := by
    rw [check, if_pos hlen] at h1
    cases h1
    rfl
  obtain ⟨e1, e2, e3⟩ := assignArgs_spec (List.finRange 5) ts (by simpa using hlen) o1.ctx o3 h3 g3
  rw [hc1] at e1 e2
  cases h5
  cases h7
  cases h8
  dsimp only
  rw [e1]
  refine ⟨rfl, e2, e3, ?_⟩
  have hg := g5.gates c.region c.offset _ (by rw [e1]; exact List.mem_singleton.2 rfl)
  unfold Gate.holds at hg
  dsimp only at hg
  rw [e2]
  clear e2 e3 g5 g6 g3 g4 g2 g1 hT h2 h3 h4 h6 ho h1
  generalize T.cell ⟨c.region, c.offset + 1, 4⟩ = nx at *
  unfold rowTerms MainGate.apply MainGate.cell
  refine Eq.trans ?_ hg
  clear hg
  match ts, hlen with
  | [], _ =>
    rcases hab with hab | hab <;> rcases hcd with hcd | hcd <;> simp_all [List.finRange_succ]
  | [t0], _ =>
    rcases hab with hab | hab <;> rcases hcd with hcd | hcd <;> simp_all [List.finRange_succ] <;> ring
  | [t0, t1], _ =>
    rcases hcd with hcd | hcd <;> simp_all [List.finRange_succ] <;> ring
  | [t0, t1, t2], _ =>
    rcases hcd with hcd | hcd <;> simp_all [List.finRange_succ] <;> ring
  | [t0, t1, t2, t3], _ =>
    simp_all [List.finRange_succ] <;> ring
  | [t0, t1, t2, t3, t4], _ =>
    simp_all [List.finRange_succ] <;> ring

theorem ens_apply (ts : List Arg) (const : Fr) (o : Comb) (hab : o.ab = 0 ∨ 2 ≤ ts.length)
    (hcd : o.cd = 0 ∨ 4 ≤ ts.length) : Ensures T (apply ts const o) fun l =>
      List.Forall₂ (argOk T) ts l ∧ ∃ e, MainGate.apply (rowTerms T ts l) const o e := by
  intro c out ho hT
  obtain ⟨-, -, h1, h2⟩ := apply_spec ts const o hab hcd c out ho hT
  exact ⟨h1, _, h2⟩

theorem apply_next {ts : List Term} {const : Fr} {o : Comb} {e e' : Fr} (h : o.next = 0)
    (ha : MainGate.apply ts const o e) : MainGate.apply ts const o e' := by
  unfold MainGate.apply at *
  rw [h, zero_mul] at *
  exact ha

theorem ens_row1 {t0 : Arg} {const : Fr} {o : Comb} (hab : o.ab = 0) (hcd : o.cd = 0) :
    Ensures T (apply [t0] const o) fun l => ∃ c0, l = [c0] ∧
      argOk T t0 c0 ∧
      ∃ e, MainGate.apply [⟨T.cell c0, t0.coeff⟩] const o e := by
  refine ens_mono (ens_apply _ _ _ (.inl hab) (.inl hcd)) ?_
  rintro l ⟨hl, e, hr⟩
  obtain ⟨c0, l0, h0, g0, rfl⟩ := List.forall₂_cons_left_iff.1 hl
  rw [List.forall₂_nil_left_iff] at g0
  subst g0
  exact ⟨c0, rfl, h0, e, hr⟩

theorem ens_row2 {t0 t1 : Arg} {const : Fr} {o : Comb}  (hcd : o.cd = 0) :
    Ensures T (apply [t0, t1] const o) fun l => ∃ c0 c1, l = [c0, c1] ∧
      argOk T t0 c0 ∧ argOk T t1 c1 ∧
      ∃ e, MainGate.apply [⟨T.cell c0, t0.coeff⟩, ⟨T.cell c1, t1.coeff⟩] const o e := by
  refine ens_mono (ens_apply _ _ _ (.inr (Nat.le_of_ble_eq_true rfl)) (.inl hcd)) ?_
  rintro l ⟨hl, e, hr⟩
  obtain ⟨c0, l0, h0, g0, rfl⟩ := List.forall₂_cons_left_iff.1 hl
  obtain ⟨c1, l1, h1, g1, rfl⟩ := List.forall₂_cons_left_iff.1 g0
  rw [List.forall₂_nil_left_iff] at g1
  subst g1
  exact ⟨c0, c1, rfl, h0, h1, e, hr⟩

theorem ens_row3 {t0 t1 t2 : Arg} {const : Fr} {o : Comb}  (hcd : o.cd = 0) :
    Ensures T (apply [t0, t1, t2] const o) fun l => ∃ c0 c1 c2, l = [c0, c1, c2] ∧
      argOk T t0 c0 ∧ argOk T t1 c1 ∧ argOk T t2 c2 ∧
      ∃ e, MainGate.apply [⟨T.cell c0, t0.coeff⟩, ⟨T.cell c1, t1.coeff⟩, ⟨T.cell c2, t2.coeff⟩] const o e := by
  refine ens_mono (ens_apply _ _ _ (.inr (Nat.le_of_ble_eq_true rfl)) (.inl hcd)) ?_
  rintro l ⟨hl, e, hr⟩
  obtain ⟨c0, l0, h0, g0, rfl⟩ := List.forall₂_cons_left_iff.1 hl
  obtain ⟨c1, l1, h1, g1, rfl⟩ := List.forall₂_cons_left_iff.1 g0
  obtain ⟨c2, l2, h2, g2, rfl⟩ := List.forall₂_cons_left_iff.1 g1
  rw [List.forall₂_nil_left_iff] at g2
  subst g2
  exact ⟨c0, c1, c2, rfl, h0, h1, h2, e, hr⟩

theorem ens_row4 {t0 t1 t2 t3 : Arg} {const : Fr} {o : Comb}   :
    Ensures T (apply [t0, t1, t2, t3] const o) fun l => ∃ c0 c1 c2 c3, l = [c0, c1, c2, c3] ∧
      argOk T t0 c0 ∧ argOk T t1 c1 ∧ argOk T t2 c2 ∧ argOk T t3 c3 ∧
      ∃ e, MainGate.apply [⟨T.cell c0, t0.coeff⟩, ⟨T.cell c1, t1.coeff⟩, ⟨T.cell c2, t2.coeff⟩, ⟨T.cell c3, t3.coeff⟩] const o e := by
  refine ens_mono (ens_apply _ _ _ (.inr (Nat.le_of_ble_eq_true rfl)) (.inr (Nat.le_of_ble_eq_true rfl))) ?_
  rintro l ⟨hl, e, hr⟩
  obtain ⟨c0, l0, h0, g0, rfl⟩ := List.forall₂_cons_left_iff.1 hl
  obtain ⟨c1, l1, h1, g1, rfl⟩ := List.forall₂_cons_left_iff.1 g0
  obtain ⟨c2, l2, h2, g2, rfl⟩ := List.forall₂_cons_left_iff.1 g1
  obtain ⟨c3, l3, h3, g3, rfl⟩ := List.forall₂_cons_left_iff.1 g2
  rw [List.forall₂_nil_left_iff] at g3
  subst g3
  exact ⟨c0, c1, c2, c3, rfl, h0, h1, h2, h3, e, hr⟩

theorem ens_row5 {t0 t1 t2 t3 t4 : Arg} {const : Fr} {o : Comb}   :
    Ensures T (apply [t0, t1, t2, t3, t4] const o) fun l => ∃ c0 c1 c2 c3 c4, l = [c0, c1, c2, c3, c4] ∧
      argOk T t0 c0 ∧ argOk T t1 c1 ∧ argOk T t2 c2 ∧ argOk T t3 c3 ∧ argOk T t4 c4 ∧
      ∃ e, MainGate.apply [⟨T.cell c0, t0.coeff⟩, ⟨T.cell c1, t1.coeff⟩, ⟨T.cell c2, t2.coeff⟩, ⟨T.cell c3, t3.coeff⟩, ⟨T.cell c4, t4.coeff⟩] const o e := by
  refine ens_mono (ens_apply _ _ _ (.inr (Nat.le_of_ble_eq_true rfl)) (.inr (Nat.le_of_ble_eq_true rfl))) ?_
  rintro l ⟨hl, e, hr⟩
  obtain ⟨c0, l0, h0, g0, rfl⟩ := List.forall₂_cons_left_iff.1 hl
  obtain ⟨c1, l1, h1, g1, rfl⟩ := List.forall₂_cons_left_iff.1 g0
  obtain ⟨c2, l2, h2, g2, rfl⟩ := List.forall₂_cons_left_iff.1 g1
  obtain ⟨c3, l3, h3, g3, rfl⟩ := List.forall₂_cons_left_iff.1 g2
  obtain ⟨c4, l4, h4, g4, rfl⟩ := List.forall₂_cons_left_iff.1 g3
  rw [List.forall₂_nil_left_iff] at g4
  subst g4
  exact ⟨c0, c1, c2, c3, c4, rfl, h0, h1, h2, h3, h4, e, hr⟩


theorem cell_ok {a c : Cell} {k : Fr} (h : argOk T (.assigned a k) c) : T.cell c = T.cell a := h

theorem ens_add (a b : Cell) : Ensures T (add a b) fun c => MainGate.add (T.cell a) (T.cell b) (T.cell c) := by
  refine ens_bind (ens_row3  (hcd := rfl)) ?_
  rintro _ ⟨c0, c1, c2, rfl, h0, h1, h2, e, hr⟩
  refine ens_mono ens_nth fun x hx => ?_
  cases hx
  rw [cell_ok h0, cell_ok h1] at hr
  exact apply_next rfl hr

theorem ens_sub (a b : Cell) : Ensures T (sub a b) fun c => MainGate.sub (T.cell a) (T.cell b) (T.cell c) := by
  refine ens_bind (ens_row3  (hcd := rfl)) ?_
  rintro _ ⟨c0, c1, c2, rfl, h0, h1, h2, e, hr⟩
  refine ens_mono ens_nth fun x hx => ?_
  cases hx
  rw [cell_ok h0, cell_ok h1] at hr
  exact apply_next rfl hr

theorem ens_mul (a b : Cell) : Ensures T (mul a b) fun c => MainGate.mul (T.cell a) (T.cell b) (T.cell c) := by
  refine ens_bind (ens_row3  (hcd := rfl)) ?_
  rintro _ ⟨c0, c1, c2, rfl, h0, h1, h2, e, hr⟩
  refine ens_mono ens_nth fun x hx => ?_
  cases hx
  rw [cell_ok h0, cell_ok h1] at hr
  exact apply_next rfl hr

theorem ens_mulAdd (a b d : Cell) : Ensures T (mulAdd a b d) fun c => MainGate.mulAdd (T.cell a) (T.cell b) (T.cell d) (T.cell c) := by
  refine ens_bind (ens_row4  ) ?_
  rintro _ ⟨c0, c1, c2, c3, rfl, h0, h1, h2, h3, e, hr⟩
  refine ens_mono ens_nth fun x hx => ?_
  cases hx
  rw [cell_ok h0, cell_ok h1, cell_ok h2] at hr
  exact apply_next rfl hr

theorem ens_addConstant (a : Cell) (k : Fr) : Ensures T (addConstant a k) fun c => MainGate.addConstant (T.cell a) k (T.cell c) := by
  refine ens_bind (ens_row2  (hcd := rfl)) ?_
  rintro _ ⟨c0, c1, rfl, h0, h1, e, hr⟩
  refine ens_mono ens_nth fun x hx => ?_
  cases hx
  rw [cell_ok h0] at hr
  exact apply_next rfl hr

theorem ens_negWithConstant (a : Cell) (k : Fr) : Ensures T (negWithConstant a k) fun c => MainGate.negWithConstant (T.cell a) k (T.cell c) := by
  refine ens_bind (ens_row2  (hcd := rfl)) ?_
  rintro _ ⟨c0, c1, rfl, h0, h1, e, hr⟩
  refine ens_mono ens_nth fun x hx => ?_
  cases hx
  rw [cell_ok h0] at hr
  exact apply_next rfl hr

theorem ens_assignConstant (k : Fr) : Ensures T (assignConstant k) fun c => MainGate.assignConstant k (T.cell c) := by
  refine ens_bind (ens_row1 (hab := rfl) (hcd := rfl)) ?_
  rintro _ ⟨c0, rfl, h0, e, hr⟩
  refine ens_mono ens_nth fun x hx => ?_
  cases hx
  exact apply_next rfl hr

theorem ens_invertUnsafe (a : Cell) : Ensures T (invertUnsafe a) fun c => MainGate.invertUnsafe (T.cell a) (T.cell c) := by
  refine ens_bind (ens_row2  (hcd := rfl)) ?_
  rintro _ ⟨c0, c1, rfl, h0, h1, e, hr⟩
  refine ens_mono ens_nth fun x hx => ?_
  cases hx
  rw [cell_ok h0] at hr
  exact apply_next rfl hr

theorem ens_select (a b cond : Cell) : Ensures T (select a b cond) fun c => MainGate.select (T.cell a) (T.cell b) (T.cell cond) (T.cell c) := by
  refine ens_bind (ens_row5  ) ?_
  rintro _ ⟨c0, c1, c2, c3, c4, rfl, h0, h1, h2, h3, h4, e, hr⟩
  refine ens_mono ens_nth fun x hx => ?_
  cases hx
  rw [cell_ok h0, cell_ok h1, cell_ok h2, cell_ok h3] at hr
  exact apply_next rfl hr

theorem ens_mulSub (a b d : Cell) : Ensures T (mulSub a b d) fun c => GrumpkinChip.mulSub (T.cell a) (T.cell b) (T.cell d) (T.cell c) := by
  refine ens_bind (ens_row4  ) ?_
  rintro _ ⟨c0, c1, c2, c3, rfl, h0, h1, h2, h3, e, hr⟩
  refine ens_mono ens_nth fun x hx => ?_
  cases hx
  rw [cell_ok h0, cell_ok h1, cell_ok h2] at hr
  exact apply_next rfl hr

theorem ens_mulSubSub (a b d f : Cell) : Ensures T (mulSubSub a b d f) fun c => GrumpkinChip.mulSubSub (T.cell a) (T.cell b) (T.cell d) (T.cell f) (T.cell c) := by
  refine ens_bind (ens_row5  ) ?_
  rintro _ ⟨c0, c1, c2, c3, c4, rfl, h0, h1, h2, h3, h4, e, hr⟩
  refine ens_mono ens_nth fun x hx => ?_
  cases hx
  rw [cell_ok h0, cell_ok h1, cell_ok h2, cell_ok h3] at hr
  exact apply_next rfl hr

theorem ens_subMul (a b d : Cell) : Ensures T (subMul a b d) fun c => GrumpkinChip.subMul (T.cell a) (T.cell b) (T.cell d) (T.cell c) := by
  refine ens_bind (ens_row5  ) ?_
  rintro _ ⟨c0, c1, c2, c3, c4, rfl, h0, h1, h2, h3, h4, e, hr⟩
  refine ens_mono ens_nth fun x hx => ?_
  cases hx
  rw [cell_ok h0, cell_ok h1, cell_ok h2, cell_ok h3] at hr
  exact apply_next rfl hr

theorem ens_lambdaDoubleUnsafe (a : PtCell) : Ensures T (lambdaDoubleUnsafe a) fun c => GrumpkinChip.lambdaDoubleUnsafe (T.cell a.1, T.cell a.2) (T.cell c) := by
  refine ens_bind (ens_row4  ) ?_
  rintro _ ⟨c0, c1, c2, c3, rfl, h0, h1, h2, h3, e, hr⟩
  refine ens_mono ens_nth fun x hx => ?_
  cases hx
  rw [cell_ok h1, cell_ok h2, cell_ok h3] at hr
  exact apply_next rfl hr

theorem ens_scaleMul (s : Fr) (a b : Cell) : Ensures T (scaleMul s a b) fun c => ∃ e, GrumpkinChip.scaleMul s (T.cell a) (T.cell b) (T.cell c) e := by
  refine ens_bind (ens_row3  (hcd := rfl)) ?_
  rintro _ ⟨c0, c1, c2, rfl, h0, h1, h2, e, hr⟩
  refine ens_mono ens_nth fun x hx => ?_
  cases hx
  rw [cell_ok h0, cell_ok h1] at hr
  exact ⟨e, hr⟩


theorem ens_assignBit (f : Input → (Cell → Fr) → Fr) : Ensures T (assignBit f) fun c => MainGate.assignBit (T.cell c) := by
  refine ens_bind (ens_row3 (hcd := rfl)) ?_
  rintro _ ⟨c0, c1, c2, rfl, -, -, -, e, hr⟩
  refine ens_bind ens_nth fun x hx => ?_
  cases hx
  refine ens_bind ens_nth fun x hx => ?_
  cases hx
  refine ens_bind ens_nth fun x hx => ?_
  cases hx
  refine ens_bind ens_constrainEqual fun _ h0 => ?_
  refine ens_bind ens_constrainEqual fun _ h1 => ?_
  exact ens_pure ⟨T.cell c0, T.cell c1, apply_next rfl hr, h0, h1⟩

theorem ens_subInvertUnsafe (a b : Cell) : Ensures T (subInvertUnsafe a b) fun c =>
    GrumpkinChip.subInvertUnsafe (T.cell a) (T.cell b) (T.cell c) := by
  refine ens_bind ens_row4 ?_
  rintro _ ⟨c0, c1, c2, c3, rfl, h0, -, h2, -, e, hr⟩
  refine ens_bind ens_nth fun x hx => ?_
  cases hx
  refine ens_bind ens_nth fun x hx => ?_
  cases hx
  refine ens_bind ens_constrainEqual fun _ h => ?_
  rw [cell_ok h0, cell_ok h2] at hr
  exact ens_pure ⟨T.cell c3, apply_next rfl hr, h⟩

/-! ### The Grumpkin chip -/

/-- Values of the coordinates. -/
def ptVal (T : Table) (p : PtCell) : GrumpkinChip.Pt := (T.cell p.1, T.cell p.2)

theorem ens_addIncompleteGk (a b : PtCell) : Ensures T (addIncompleteGk a b) fun c =>
    GrumpkinChip.addIncomplete (ptVal T a) (ptVal T b) (ptVal T c) := by
  refine ens_bind ens_row5 ?_
  rintro _ ⟨c0, c1, c2, c3, c4, rfl, -, -, h2, h3, -, e, hr⟩
  rw [cell_ok h2, cell_ok h3] at hr
  refine ens_bind ens_nth fun x hx => ?_
  cases hx
  refine ens_bind ens_nth fun x hx => ?_
  cases hx
  refine ens_bind ens_constrainEqual fun _ h => ?_
  refine ens_bind ens_nth fun x hx => ?_
  cases hx
  refine ens_bind (ens_mulSub _ _ _) fun t ht => ?_
  refine ens_bind ens_row4 ?_
  rintro _ ⟨d0, d1, d2, d3, rfl, k0, k1, k2, k3, e', hr'⟩
  rw [cell_ok k0, cell_ok k1, cell_ok k2, cell_ok k3] at hr'
  refine ens_bind ens_row4 ?_
  rintro _ ⟨f0, f1, f2, f3, rfl, m0, m1, -, m3, e'', hr''⟩
  rw [cell_ok m0, cell_ok m1, cell_ok m3] at hr''
  refine ens_bind ens_nth fun x hx => ?_
  cases hx
  exact ens_pure ⟨T.cell c0, T.cell c1, T.cell t, apply_next rfl hr, h, ht, apply_next rfl hr', apply_next rfl hr''⟩

theorem ens_addGk (a b : PtCell) : Ensures T (addGk a b) fun c =>
    GrumpkinChip.add (ptVal T a) (ptVal T b) (ptVal T c) :=
  ens_bind (ens_subInvertUnsafe _ _) fun _ h1 => ens_bind (ens_subMul _ _ _) fun _ h2 =>
  ens_bind (ens_mulSubSub _ _ _ _) fun _ h3 => ens_bind (ens_sub _ _) fun _ h4 =>
  ens_bind (ens_mulSub _ _ _) fun _ h5 => ens_pure ⟨_, _, _, h1, h2, h3, h4, h5⟩

theorem ens_doubleIncompleteGk (a : PtCell) : Ensures T (doubleIncompleteGk a) fun c =>
    GrumpkinChip.doubleIncomplete (ptVal T a) (ptVal T c) :=
  ens_bind (ens_lambdaDoubleUnsafe _) fun _ h1 =>
  ens_bind (ens_mulSubSub _ _ _ _) fun _ h3 => ens_bind (ens_sub _ _) fun _ h4 =>
  ens_bind (ens_mulSub _ _ _) fun _ h5 => ens_pure ⟨_, _, h1, h3, h4, h5⟩

theorem ens_doubleGk (a : PtCell) : Ensures T (doubleGk a) fun c =>
    GrumpkinChip.double (ptVal T a) (ptVal T c) :=
  ens_bind (ens_scaleMul _ _ _) fun _ ⟨e, h1⟩ => ens_bind (ens_invertUnsafe _) fun _ h2 =>
  ens_bind (ens_mul _ _) fun _ h6 =>
  ens_bind (ens_mulSubSub _ _ _ _) fun _ h3 => ens_bind (ens_sub _ _) fun _ h4 =>
  ens_bind (ens_mulSub _ _ _) fun _ h5 => ens_pure ⟨_, _, _, _, e, h1, h2, h6, h3, h4, h5⟩

theorem ens_assertIsOnCurve (p : PtCell) : Ensures T (assertIsOnCurve p) fun _ =>
    GrumpkinChip.assertIsOnCurve (ptVal T p) :=
  ens_bind (ens_mul _ _) fun _ h1 => ens_bind (ens_mul _ _) fun _ h2 => ens_bind (ens_mul _ _) fun _ h3 =>
  ens_bind (ens_addConstant _ _) fun _ h4 => ens_mono ens_constrainEqual fun _ h5 => ⟨_, _, _, _, h1, h2, h3, h4, h5⟩

theorem ens_assignPoint (f : Input → Fr × Fr) : Ensures T (assignPoint f) fun p =>
    GrumpkinChip.assignPoint (ptVal T p) :=
  ens_bind ens_assignValue fun _ _ => ens_bind ens_assignValue fun _ _ =>
  ens_bind (ens_assertIsOnCurve _) fun _ h => ens_pure h

theorem ens_assignConstantGk (k : Fr × Fr) : Ensures T (assignConstantGk k) fun p =>
    GrumpkinChip.assignConstant k (ptVal T p) :=
  ens_bind (ens_assignConstant _) fun _ h1 => ens_bind (ens_assignConstant _) fun _ h2 => ens_pure ⟨h1, h2⟩

theorem ens_negGk (p : PtCell) : Ensures T (negGk p) fun c => GrumpkinChip.neg (ptVal T p) (ptVal T c) :=
  ens_bind (ens_negWithConstant _ _) fun _ h1 => ens_pure ⟨h1, rfl⟩

theorem ens_selectGk (cond : Cell) (p1 p2 : PtCell) : Ensures T (selectGk cond p1 p2) fun c =>
    GrumpkinChip.select (T.cell cond) (ptVal T p1) (ptVal T p2) (ptVal T c) :=
  ens_bind (ens_select _ _ _) fun _ h1 => ens_bind (ens_select _ _ _) fun _ h2 => ens_pure ⟨h1, h2⟩

theorem ens_mulBitsLoop : ∀ (bits : List Cell) (res dbl : PtCell), Ensures T (mulBitsLoop bits res dbl) fun c =>
    GrumpkinChip.mulBitsLoop (bits.map T.cell) (ptVal T res) (ptVal T dbl) (ptVal T c)
  | [], _, _ => ens_pure rfl
  | _ :: bits, _, _ => ens_bind (ens_addGk _ _) fun _ h1 => ens_bind (ens_selectGk _ _ _) fun _ h2 =>
    ens_bind (ens_doubleIncompleteGk _) fun _ h3 => ens_mono (ens_mulBitsLoop bits _ _) fun _ h4 =>
      ⟨_, _, _, h1, h2, h3, h4⟩

theorem ens_mulBits (aux auxNeg point : PtCell) (bits : List Cell) : Ensures T (mulBits aux auxNeg point bits) fun c =>
    GrumpkinChip.mulBits (ptVal T aux) (ptVal T auxNeg) (ptVal T point) (bits.map T.cell) (ptVal T c) :=
  ens_bind (ens_mulBitsLoop _ _ _) fun _ h1 => ens_mono (ens_addGk _ _) fun _ h2 => ⟨_, h1, h2⟩

/-! ### Bits -/

/-- Sum of values weighted with powers of two from `2 ^ i`. -/
def wsum : ℕ → List Fr → Fr
  | _, [] => 0
  | i, b :: bs => 2 ^ i * b + wsum (i + 1) bs

theorem wsum_eq : ∀ (i : ℕ) (bs : List Fr), wsum i bs = 2 ^ i * bs.foldr (fun b acc => b + 2 * acc) 0
  | i, [] => by simp [wsum]
  | i, b :: bs => by rw [wsum, wsum_eq (i + 1) bs, List.foldr_cons]; ring

theorem ens_composeTail : ∀ (bits : List Cell) (p : ℕ × Cell), Ensures T (composeTail bits p) fun p' =>
    T.cell p'.2 = T.cell p.2 + wsum p.1 (bits.map T.cell)
  | [], p => ens_pure (by simp [wsum])
  | b :: bits, p => by
    unfold composeTail
    dsimp only
    simp only [List.map_cons, wsum]
    generalize (2 : Fr) ^ p.1 = k
    refine ens_bind (ens_row3 (hcd := rfl)) ?_
    rintro _ ⟨c0, c1, c2, rfl, h0, h1, h2, e, hr⟩
    refine ens_bind ens_nth fun x hx => ?_
    cases hx
    rw [cell_ok h0, cell_ok h1] at hr
    refine ens_mono (ens_composeTail bits (p.1 + 1, c2)) fun p'' h => ?_
    have hx : T.cell c2 = T.cell p.2 + k * T.cell b := by
      unfold MainGate.apply at hr
      simp only [List.map_cons, List.map_nil, List.sum_cons, List.sum_nil, Comb.ab, Comb.cd, Comb.next, zero_mul, add_zero,
        Arg.coeff, aa, us] at hr
      linear_combination -hr
    rw [h, hx, add_assoc]

/-- A row that adds four weighted cells to the fifth, with the result in the fifth cell of the next row. -/
theorem row_next (k0 k1 k2 k3 : Fr) (b0 b1 b2 b3 acc : Cell) : EnsC T
    (apply [.assigned b0 k0, .assigned b1 k1, .assigned b2 k2, .assigned b3 k3, aa acc] 0 (.combineToNextScaleMul (-1) 0))
    fun c _ c' => c' = ⟨c.region, c.offset + 1⟩ ∧ T.cell ⟨c.region, c.offset + 1, 4⟩ =
      k0 * T.cell b0 + k1 * T.cell b1 + k2 * T.cell b2 + k3 * T.cell b3 + T.cell acc := by
  intro c o ho hT
  obtain ⟨e1, e2, e3, e4⟩ := apply_spec _ _ _ (.inl rfl) (.inl rfl) c o ho hT
  refine ⟨e1, ?_⟩
  rw [e2] at e3 e4
  obtain ⟨h0, h1, h2, h3, h4⟩ : T.cell ⟨c.region, c.offset, 0⟩ = T.cell b0 ∧
    T.cell ⟨c.region, c.offset, 1⟩ = T.cell b1 ∧ T.cell ⟨c.region, c.offset, 2⟩ = T.cell b2 ∧
    T.cell ⟨c.region, c.offset, 3⟩ = T.cell b3 ∧ T.cell ⟨c.region, c.offset, 4⟩ = T.cell acc := by
    simpa [List.finRange_succ, argOk, aa] using e3
  clear e2 e3 ho hT
  simp only [rowTerms, List.finRange_succ, List.finRange_zero, List.map_nil, List.map_cons, List.length_cons, List.length_nil,
    Nat.reduceAdd, List.take_succ_cons, List.take_zero, List.zipWith_cons_cons, List.zipWith_nil_right, MainGate.apply,
    Arg.coeff, aa, List.sum_cons, List.sum_nil, Comb.ab, Comb.cd, Comb.next, zero_mul, add_zero, one_mul] at e4
  have f1 : Fin.succ (0 : Fin 4) = 1 := rfl
  have f2 : Fin.succ (Fin.succ (0 : Fin 3)) = 2 := rfl
  have f3 : Fin.succ (Fin.succ (Fin.succ (0 : Fin 2))) = 3 := rfl
  have f4 : Fin.succ (Fin.succ (Fin.succ (Fin.succ (0 : Fin 1)))) = 4 := rfl
  rw [f1, f2, f3, f4, h0, h1, h2, h3, h4] at e4
  linear_combination -e4

theorem ens_compose4 (fuel i : ℕ) (b0 b1 b2 b3 : Cell) (rest : List Cell) (acc : Cell)
    (ih : ∀ acc, Ensures T (composeRows fuel (i + 4) rest acc) fun c =>
      T.cell c = T.cell acc + wsum (i + 4) (rest.map T.cell)) :
    Ensures T (composeRows (fuel + 1) i (b0 :: b1 :: b2 :: b3 :: rest) acc) fun c =>
      T.cell c = T.cell acc + wsum i ((b0 :: b1 :: b2 :: b3 :: rest).map T.cell) := by
  unfold composeRows
  dsimp only
  simp only [List.map_cons, wsum]
  have p1 : i + 1 + 1 = i + 2 := rfl
  have p2 : i + 2 + 1 = i + 3 := rfl
  have p3 : i + 3 + 1 = i + 4 := rfl
  rw [p1, p2, p3]
  generalize (2 : Fr) ^ i = k0
  generalize (2 : Fr) ^ (i + 1) = k1
  generalize (2 : Fr) ^ (i + 2) = k2
  generalize (2 : Fr) ^ (i + 3) = k3
  intro c o ho hT
  obtain ⟨o1, o2, h1, h2, rfl⟩ := bind_some ho
  obtain ⟨o3, o4, h3, h4, rfl⟩ := bind_some h2
  obtain ⟨g1, g2⟩ := holds_append hT
  obtain ⟨g3, g4⟩ := holds_append g2
  obtain ⟨e1, e2⟩ := row_next k0 k1 k2 k3 b0 b1 b2 b3 acc c o1 h1 g1
  have h5 := ih _ _ o4 h4 g4
  have h6 : o3.val = ⟨c.region, c.offset + 1, 4⟩ := by
    have h7 := (Option.some.inj h3).symm
    rw [h7, e1]
  rw [h6, e2] at h5
  refine Eq.trans h5 ?_
  ring

theorem ens_composeRows (fuel : ℕ) : ∀ (i : ℕ) (bits : List Cell) (acc : Cell), bits.length ≤ fuel →
    Ensures T (composeRows fuel i bits acc) fun c => T.cell c = T.cell acc + wsum i (bits.map T.cell) := by
  induction fuel with
  | zero =>
    intro i bits acc h
    have : bits = [] := List.length_eq_zero_iff.1 (Nat.le_zero.1 h)
    subst this
    exact ens_pure (by simp [wsum])
  | succ fuel ih =>
    intro i bits acc h
    rcases bits with _ | ⟨b0, _ | ⟨b1, _ | ⟨b2, _ | ⟨b3, rest⟩⟩⟩⟩
    · intro c o ho hT
      obtain ⟨o1, o2, h1, h2, rfl⟩ := bind_some ho
      cases h2
      simp [wsum]
    · unfold composeRows
      dsimp only
      refine ens_bind (ens_composeTail [b0] (i, acc)) fun p h => ?_
      exact ens_pure h
    · unfold composeRows
      dsimp only
      refine ens_bind (ens_composeTail [b0, b1] (i, acc)) fun p h => ?_
      exact ens_pure h
    · unfold composeRows
      dsimp only
      refine ens_bind (ens_composeTail [b0, b1, b2] (i, acc)) fun p h => ?_
      exact ens_pure h
    · refine ens_compose4 fuel i b0 b1 b2 b3 rest acc fun acc => ih _ _ _ ?_
      simp only [List.length_cons] at h
      omega

theorem forall₂_bits {xs : List α} {cells : List Cell} (h : List.Forall₂ (fun _ c => MainGate.assignBit (T.cell c)) xs cells) :
    (cells.map T.cell).length = xs.length ∧ ∀ b ∈ cells.map T.cell, MainGate.assignBit b := by
  refine ⟨by rw [List.length_map, h.length_eq], fun b hb => ?_⟩
  obtain ⟨c, hc, rfl⟩ := List.mem_map.1 hb
  obtain ⟨x, -, hx⟩ : ∃ x ∈ xs, MainGate.assignBit (T.cell c) := by
    clear hb
    induction h with
    | nil => cases hc
    | cons h1 h2 ih =>
      rcases List.mem_cons.1 hc with rfl | hc
      · exact ⟨_, List.mem_cons_self, h1⟩
      · obtain ⟨x, hx, hh⟩ := ih hc
        exact ⟨x, List.mem_cons_of_mem _ hx, hh⟩
  exact hx

theorem ens_toBits (a : Cell) (n : ℕ) : Ensures T (toBits a n) fun bits =>
    MainGate.toBits (T.cell a) n (bits.map T.cell) := by
  refine ens_bind (ens_mapS (R := fun _ c => MainGate.assignBit (T.cell c)) _ fun i _ => ens_assignBit _) fun bits hb => ?_
  obtain ⟨hl, hm⟩ := forall₂_bits hb
  refine ens_bind (ens_assignConstant 0) fun z hz => ?_
  refine ens_bind (ens_composeRows n 0 bits z ?_) fun s hs => ?_
  · rw [List.length_map, List.length_range] at hl
    exact hl.le
  refine ens_bind ens_constrainEqual fun _ he => ?_
  refine ens_pure ⟨by rw [hl, List.length_range], hm, ?_⟩
  have hz0 : T.cell z = 0 := by
    unfold MainGate.assignConstant MainGate.apply at hz
    simp only [List.map_cons, List.map_nil, List.sum_cons, List.sum_nil, Comb.ab, Comb.cd, Comb.next, zero_mul, add_zero,
      toSub] at hz
    linear_combination -hz
  rw [← he, hs, hz0, wsum_eq, zero_add, pow_zero, one_mul]

theorem ens_toBitsUnsafe (f : Input → Fr) : Ensures T (toBitsUnsafe f) fun bits =>
    GrumpkinChip.toBitsUnsafe (bits.map T.cell) := by
  refine ens_mono (ens_mapS (R := fun _ c => MainGate.assignBit (T.cell c)) _ fun i _ => ens_assignBit _) fun bits hb => ?_
  obtain ⟨hl, hm⟩ := forall₂_bits hb
  exact ⟨by rw [hl, List.length_range], hm⟩

theorem ens_mulScalar (aux auxNeg point : PtCell) (s : Cell) : Ensures T (mulScalar aux auxNeg point s) fun c =>
    GrumpkinChip.mulScalar (ptVal T aux) (ptVal T auxNeg) (ptVal T point) (T.cell s) (ptVal T c) :=
  ens_bind (ens_toBits _ _) fun _ h => ens_mono (ens_mulBits _ _ _ _) fun _ h' => ⟨_, h, h'⟩

/-! ### Poseidon -/

theorem copyState_spec (s : StCell) : EnsC T (copyState s) fun c s' c' => c' = c ∧
    (s' = fun i => ⟨c.region, c.offset, stCol i⟩) ∧ ∀ i, T.cell (s' i) = T.cell (s i) := by
  intro c o ho hT
  obtain ⟨o1, o2, h1, h2, rfl⟩ := bind_some ho
  obtain ⟨o3, o4, h3, h4, rfl⟩ := bind_some h2
  obtain ⟨o5, o6, h5, h6, rfl⟩ := bind_some h4
  obtain ⟨g1, g2⟩ := holds_append hT
  obtain ⟨g3, g4⟩ := holds_append g2
  obtain ⟨g5, g6⟩ := holds_append g4
  obtain ⟨a1, a2, a3⟩ := assignArg_spec (T := T) 0 (.assigned (s 0) 0) c o1 h1 g1
  obtain ⟨b1, b2, b3⟩ := assignArg_spec (T := T) 1 (.assigned (s 1) 0) o1.ctx o3 h3 g3
  obtain ⟨d1, d2, d3⟩ := assignArg_spec (T := T) 2 (.assigned (s 2) 0) o3.ctx o5 h5 g5
  cases h6
  dsimp only
  rw [a1] at b1 b2
  rw [b1] at d1 d2
  refine ⟨d1, ?_, ?_⟩
  · funext i
    fin_cases i
    · exact a2
    · exact b2
    · exact d2
  · intro i
    fin_cases i
    · exact a3
    · exact b3
    · exact d3

theorem assignState_spec (f : Input → (Cell → Fr) → Poseidon.St) : EnsC T (assignState f) fun c s' c' => c' = c ∧
    s' = fun i => ⟨c.region, c.offset, stCol i⟩ := by
  intro c o ho hT
  obtain ⟨o1, o2, h1, h2, rfl⟩ := bind_some ho
  obtain ⟨o3, o4, h3, h4, rfl⟩ := bind_some h2
  obtain ⟨o5, o6, h5, h6, rfl⟩ := bind_some h4
  cases h1
  cases h3
  cases h5
  cases h6
  refine ⟨rfl, ?_⟩
  funext i
  fin_cases i <;> rfl

theorem state_eq (k i : ℕ) : T.state k i = fun j => T.cell ⟨k, i, stCol j⟩ := by
  funext j
  fin_cases j <;> rfl

theorem fullRows_spec : ∀ (rcs : List Poseidon.St) (s : StCell) (c : Ctx) (o : Out StCell), fullRows rcs s c = some o →
    Holds o.shape T → (s = fun i => ⟨c.region, c.offset, stCol i⟩) →
    (o.val = fun i => ⟨o.ctx.region, o.ctx.offset, stCol i⟩) ∧ Poseidon.FullRows rcs (stVal T.cell s) (stVal T.cell o.val)
  | [], s, c, o, ho, hT, hs => by
    cases ho
    exact ⟨hs, rfl⟩
  | rc :: rcs, s, c, o, ho, hT, hs => by
    obtain ⟨o1, o2, h1, h2, rfl⟩ := bind_some ho
    obtain ⟨o3, o4, h3, h4, rfl⟩ := bind_some h2
    obtain ⟨o5, o6, h5, h6, rfl⟩ := bind_some h4
    obtain ⟨g1, g2⟩ := holds_append hT
    obtain ⟨g3, g4⟩ := holds_append g2
    obtain ⟨g5, g6⟩ := holds_append g4
    cases h1
    cases h3
    obtain ⟨e1, e2⟩ := assignState_spec (T := T) _ _ o5 h5 g5
    obtain ⟨f1, f2⟩ := fullRows_spec rcs o5.val o5.ctx o6 h6 g6 (by rw [e1, e2])
    refine ⟨f1, stVal T.cell o5.val, ?_, f2⟩
    have hg : Poseidon.FullGate rc (T.state c.region c.offset) (T.state c.region (c.offset + 1)) :=
      g1.gates c.region c.offset _ (List.mem_singleton.2 rfl)
    rw [state_eq, state_eq] at hg
    rw [hs, e2]
    exact hg

theorem partialRows_spec : ∀ (rcs : List Poseidon.St) (s : StCell) (c : Ctx) (o : Out StCell),
    partialRows rcs s c = some o → Holds o.shape T → (s = fun i => ⟨c.region, c.offset, stCol i⟩) →
    (o.val = fun i => ⟨o.ctx.region, o.ctx.offset, stCol i⟩) ∧ Poseidon.PartialRows rcs (stVal T.cell s) (stVal T.cell o.val)
  | [], s, c, o, ho, hT, hs => by
    cases ho
    exact ⟨hs, rfl⟩
  | [_], s, c, o, ho, hT, hs => by
    cases ho
    exact ⟨hs, rfl⟩
  | rcA :: rcB :: rcs, s, c, o, ho, hT, hs => by
    obtain ⟨o1, o2, h1, h2, rfl⟩ := bind_some ho
    obtain ⟨o7, o8, h7, h8, rfl⟩ := bind_some h2
    obtain ⟨o3, o4, h3, h4, rfl⟩ := bind_some h8
    obtain ⟨o5, o6, h5, h6, rfl⟩ := bind_some h4
    obtain ⟨g1, g2⟩ := holds_append hT
    obtain ⟨g7, g8⟩ := holds_append g2
    obtain ⟨g3, g4⟩ := holds_append g8
    obtain ⟨g5, g6⟩ := holds_append g4
    cases h1
    cases h7
    cases h3
    obtain ⟨e1, e2⟩ := assignState_spec (T := T) _ _ o5 h5 g5
    obtain ⟨f1, f2⟩ := partialRows_spec rcs o5.val o5.ctx o6 h6 g6 (by rw [e1, e2])
    refine ⟨f1, T.cell ⟨c.region, c.offset, 3⟩, stVal T.cell o5.val, ?_, f2⟩
    have hg : Poseidon.PartialGate rcA rcB (T.state c.region c.offset) (T.cell ⟨c.region, c.offset, 3⟩)
        (T.state c.region (c.offset + 1)) := g1.gates c.region c.offset _ (List.mem_singleton.2 rfl)
    rw [state_eq, state_eq] at hg
    rw [hs, e2]
    exact hg

theorem ens_permuteRows (l1 l2 l3 : List Poseidon.St) (s : StCell) : Ensures T (do
    let s0 ← copyState s
    let s1 ← fullRows l1 s0
    let s2 ← partialRows l2 s1
    fullRows l3 s2) fun s' => ∃ a b, Poseidon.FullRows l1 (stVal T.cell s) a ∧ Poseidon.PartialRows l2 a b ∧
      Poseidon.FullRows l3 b (stVal T.cell s') := by
  intro c o ho hT
  obtain ⟨o1, o2, h1, h2, rfl⟩ := bind_some ho
  obtain ⟨o3, o4, h3, h4, rfl⟩ := bind_some h2
  obtain ⟨o5, o6, h5, h6, rfl⟩ := bind_some h4
  obtain ⟨g1, g2⟩ := holds_append hT
  obtain ⟨g3, g4⟩ := holds_append g2
  obtain ⟨g5, g6⟩ := holds_append g4
  obtain ⟨a1, a2, a3⟩ := copyState_spec s c o1 h1 g1
  obtain ⟨b1, b2⟩ := fullRows_spec _ _ _ o3 h3 g3 (by rw [a1]; exact a2)
  obtain ⟨d1, d2⟩ := partialRows_spec _ _ _ o5 h5 g5 b1
  obtain ⟨e1, e2⟩ := fullRows_spec _ _ _ o6 h6 g6 d1
  have hs : stVal T.cell o1.val = stVal T.cell s := funext a3
  rw [hs] at b2
  exact ⟨_, _, b2, d2, e2⟩

theorem ens_poseidonPermute (s : StCell) : Ensures T (poseidonPermute s) fun s' =>
    Poseidon.PermuteRows (stVal T.cell s) (stVal T.cell s') := by
  unfold poseidonPermute Poseidon.PermuteRows
  exact ens_region (ens_permuteRows _ _ _ s)

theorem ens_poseidonInit : Ensures T poseidonInit fun s => stVal T.cell s = ![0, 0, ((2 * 2 ^ 64 : ℕ) : Fr)] := by
  have key : ∀ (col : Fin 5) (x : Fr), Ensures T (assignFromConstant col x) fun a => T.cell a = x := by
    intro col x c o ho hT
    obtain ⟨o1, o2, h1, h2, rfl⟩ := bind_some ho
    cases h1
    cases h2
    exact hT.constants _ _ (List.mem_append_right _ (List.mem_singleton.2 rfl))
  refine ens_region (ens_bind (key 0 0) fun a ha => ens_bind (key 1 0) fun b hb => ens_bind (key 2 _) fun d hd => ens_pure ?_)
  funext i
  fin_cases i
  · exact ha
  · exact hb
  · exact hd

theorem ens_poseidonAbsorb (s : StCell) (x y : Cell) : Ensures T (poseidonAbsorb s x y) fun s' =>
    stVal T.cell s' = ![T.cell (s 0) + T.cell x, T.cell (s 1) + T.cell y, T.cell (s 2)] := by
  refine ens_region ?_
  intro c o ho hT
  obtain ⟨o1, o2, h1, h2, rfl⟩ := bind_some ho
  obtain ⟨o3, o4, h3, h4, rfl⟩ := bind_some h2
  obtain ⟨o5, o6, h5, h6, rfl⟩ := bind_some h4
  obtain ⟨o7, o8, h7, h8, rfl⟩ := bind_some h6
  obtain ⟨o9, o10, h9, h10, rfl⟩ := bind_some h8
  obtain ⟨o11, o12, h11, h12, rfl⟩ := bind_some h10
  obtain ⟨g1, g2⟩ := holds_append hT
  obtain ⟨g3, g4⟩ := holds_append g2
  obtain ⟨g5, g6⟩ := holds_append g4
  obtain ⟨g7, g8⟩ := holds_append g6
  obtain ⟨g9, g10⟩ := holds_append g8
  obtain ⟨g11, g12⟩ := holds_append g10
  obtain ⟨a1, a2, a3⟩ := copyState_spec s c o1 h1 g1
  cases h3
  cases h5
  obtain ⟨b1, b2, b3⟩ := assignArg_spec (T := T) 0 (.assigned x 0) _ o7 h7 g7
  obtain ⟨d1, d2, d3⟩ := assignArg_spec (T := T) 1 (.assigned y 0) _ o9 h9 g9
  cases h11
  obtain ⟨e1, e2⟩ := assignState_spec (T := T) _ _ o12 h12 g12
  have b3 : T.cell o7.val = T.cell x := b3
  have d3 : T.cell o9.val = T.cell y := d3
  dsimp only at *
  rw [d1, b1, a1] at e2
  rw [b1, a1] at d2
  rw [a1] at b2
  rw [b2] at b3
  rw [d2] at d3
  have hg := g5.gates o1.ctx.region (o1.ctx.offset + 1) _ (List.mem_singleton.2 rfl) o1.ctx.offset rfl
  rw [a1] at hg
  rw [state_eq, state_eq, state_eq] at hg
  rw [e2]
  refine Eq.trans hg ?_
  have k0 := a3 0
  have k1 := a3 1
  have k2 := a3 2
  rw [a2] at k0 k1 k2
  funext i
  fin_cases i
  · exact congrArg₂ (· + ·) k0 b3
  · exact congrArg₂ (· + ·) k1 d3
  · exact k2

theorem ens_poseidonHash (x y : Cell) : Ensures T (poseidonHash x y) fun key =>
    DkgCircuit.poseidonHash (T.cell x) (T.cell y) (T.cell key) := by
  refine ens_bind ens_poseidonInit fun s0 h0 => ens_bind (ens_poseidonAbsorb _ _ _) fun s1 h1 =>
    ens_bind (ens_poseidonPermute _) fun s2 h2 => ens_pure ?_
  have e0 : T.cell (s0 0) = 0 := congrFun h0 0
  have e1 : T.cell (s0 1) = 0 := congrFun h0 1
  have e2 : T.cell (s0 2) = ((2 * 2 ^ 64 : ℕ) : Fr) := congrFun h0 2
  rw [e0, e1, e2, zero_add, zero_add] at h1
  rw [h1] at h2
  exact ⟨_, h2, rfl⟩

end Verif.Layout
