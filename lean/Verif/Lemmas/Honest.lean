import Verif.Spec.LayoutHonest
import Verif.Lemmas.Layout
import Verif.Lemmas.GrumpkinChip

/-! Rules for runs of the honest prover; the main gate. -/

namespace Verif.Layout
open Verif MainGate

variable {X : Setting} {α β : Type}

theorem Known.Before.refl (s : Known) : s.Before s := ⟨fun _ h => h, fun _ _ => rfl⟩

theorem Known.Before.trans {s s' s'' : Known} (h : s.Before s') (h' : s'.Before s'') : s.Before s'' :=
  ⟨fun _ ha => h'.1 (h.1 ha), fun a ha => (h'.2 a (h.1 ha)).trans (h.2 a ha)⟩

theorem Has.mono {s s' : Known} {a : Cell} {v : Fr} (h : Has s a v) (hs : s.Before s') : Has s' a v :=
  ⟨hs.1 h.1, (hs.2 a h.1).trans h.2⟩

theorem Has.keep {s : Known} {a : Cell} {v : Fr} {w : Cell → Fr} (h : Has s a v) (hw : Keeps s w) : w a = v :=
  (hw a h.1).trans h.2

theorem Keeps.mono {s s' : Known} {w : Cell → Fr} (h : Keeps s' w) (hs : s.Before s') : Keeps s w :=
  fun a ha => (h a (hs.1 ha)).trans (hs.2 a ha)

theorem keeps_self (s : Known) : Keeps s s.val := fun _ _ => rfl

theorem keeps_before {s s' : Known} (h : s.Before s') : Keeps s s'.val := h.2

/-- As `RunsAt`, with a condition on the values that is established later. -/
def RunsIf (X : Setting) (P : (Cell → Fr) → Prop) {α : Type} (m : Synth α) (c : Ctx) (s : Known)
    (Q : α → Ctx → Known → Prop) : Prop :=
  ∃ (o : Out α) (s' : Known), m c = some o ∧ s'.val = o.fill X.inp s.val ∧ s.Before s' ∧ Q o.val o.ctx s' ∧
    ∀ w, Keeps s' w → P w → Holds o.shape ⟨w, X.inst, X.range⟩

theorem RunsAt.weak {P : (Cell → Fr) → Prop} {m : Synth α} {c : Ctx} {s : Known} {Q : α → Ctx → Known → Prop}
    (h : RunsAt X m c s Q) : RunsIf X P m c s Q := by
  obtain ⟨o, s', h1, h2, h3, h4, h5⟩ := h
  exact ⟨o, s', h1, h2, h3, h4, fun w hw _ => h5 w hw⟩

theorem bind_eq {m : Synth α} {f : α → Synth β} {c : Ctx} {o : Out α} {o' : Out β} (h : m c = some o)
    (h' : f o.val o.ctx = some o') : (m >>= f) c =
      some ⟨o'.val, o'.ctx, o.shape.append o'.shape, fun inp w => o'.fill inp (o.fill inp w)⟩ := by
  change (match m c with
    | none => none
    | some o => match f o.val o.ctx with
      | none => none
      | some o' => some (⟨o'.val, o'.ctx, o.shape.append o'.shape, fun inp w => o'.fill inp (o.fill inp w)⟩ : Out β)) = _
  rw [h]
  dsimp only
  rw [h']

theorem runsIf_bind {P : (Cell → Fr) → Prop} {m : Synth α} {f : α → Synth β} {c : Ctx} {s : Known}
    {Q : α → Ctx → Known → Prop} {Q' : β → Ctx → Known → Prop} (hm : RunsIf X P m c s Q)
    (hf : ∀ a c' s', s.Before s' → Q a c' s' → RunsIf X P (f a) c' s' Q') : RunsIf X P (m >>= f) c s Q' := by
  obtain ⟨o, s', h1, h2, h3, h4, h5⟩ := hm
  obtain ⟨o', s'', k1, k2, k3, k4, k5⟩ := hf o.val o.ctx s' h3 h4
  refine ⟨_, s'', bind_eq h1 k1, ?_, h3.trans k3, k4, ?_⟩
  · rw [k2, h2]
  · intro w hw hP
    exact holds_append_iff.2 ⟨h5 w (hw.mono k3) hP, k5 w hw hP⟩

theorem runsAt_bind {m : Synth α} {f : α → Synth β} {c : Ctx} {s : Known}
    {Q : α → Ctx → Known → Prop} {Q' : β → Ctx → Known → Prop} (hm : RunsAt X m c s Q)
    (hf : ∀ a c' s', s.Before s' → Q a c' s' → RunsAt X (f a) c' s' Q') : RunsAt X (m >>= f) c s Q' := by
  obtain ⟨o, s', h1, h2, h3, h4, h5⟩ := hm
  obtain ⟨o', s'', k1, k2, k3, k4, k5⟩ := hf o.val o.ctx s' h3 h4
  refine ⟨_, s'', bind_eq h1 k1, ?_, h3.trans k3, k4, ?_⟩
  · rw [k2, h2]
  · intro w hw
    exact holds_append_iff.2 ⟨h5 w (hw.mono k3), k5 w hw⟩

/-- The condition is established by the rest of the computation. -/
theorem runsAt_later (P : (Cell → Fr) → Prop) {m : Synth α} {f : α → Synth β} {c : Ctx} {s : Known}
    {Q : α → Ctx → Known → Prop} {Q' : β → Ctx → Known → Prop} (hm : RunsIf X P m c s Q)
    (hf : ∀ a c' s', s.Before s' → Q a c' s' → RunsAt X (f a) c' s' fun b c'' s'' => Q' b c'' s'' ∧ ∀ w, Keeps s'' w → P w) :
    RunsAt X (m >>= f) c s Q' := by
  obtain ⟨o, s', h1, h2, h3, h4, h5⟩ := hm
  obtain ⟨o', s'', k1, k2, k3, k4, k5⟩ := hf o.val o.ctx s' h3 h4
  refine ⟨_, s'', bind_eq h1 k1, ?_, h3.trans k3, k4.1, ?_⟩
  · rw [k2, h2]
  · intro w hw
    exact holds_append_iff.2 ⟨h5 w (hw.mono k3) (k4.2 w hw), k5 w hw⟩

theorem runsAt_mono {m : Synth α} {c : Ctx} {s : Known} {Q Q' : α → Ctx → Known → Prop} (hm : RunsAt X m c s Q)
    (h : ∀ a c' s', s.Before s' → Q a c' s' → Q' a c' s') : RunsAt X m c s Q' := by
  obtain ⟨o, s', h1, h2, h3, h4, h5⟩ := hm
  exact ⟨o, s', h1, h2, h3, h _ _ _ h3 h4, h5⟩

theorem runsAt_pure {a : α} {c : Ctx} {s : Known} {Q : α → Ctx → Known → Prop} (h : Q a c s) :
    RunsAt X (pure a : Synth α) c s Q :=
  ⟨_, s, rfl, rfl, .refl s, h, fun _ _ => holds_empty⟩

/-! ### Cells -/

theorem runsAt_assignAdvice {col : Fin 5} {f : Input → (Cell → Fr) → Fr} {c : Ctx} {s : Known}
    {Q : Cell → Ctx → Known → Prop} (v : Fr) (hv : f X.inp s.val = v)
    (hnew : ∀ u, ⟨c.region, c.offset, col⟩ ∈ s.cells → s.val ⟨c.region, c.offset, col⟩ = u → u = v)
    (h : ∀ s' : Known, s.Before s' → s'.cells = insert ⟨c.region, c.offset, col⟩ s.cells →
      Has s' ⟨c.region, c.offset, col⟩ v → Q ⟨c.region, c.offset, col⟩ c s') : RunsAt X (assignAdvice col f) c s Q := by
  refine ⟨_, ⟨insert ⟨c.region, c.offset, col⟩ s.cells,
    Function.update s.val ⟨c.region, c.offset, col⟩ (f X.inp s.val)⟩, rfl, rfl, ?_, ?_, fun _ _ => holds_empty⟩
  · refine ⟨Set.subset_insert _ _, fun a ha => ?_⟩
    dsimp only
    by_cases e : a = ⟨c.region, c.offset, col⟩
    · subst e
      rw [Function.update_self, hv]
      exact (hnew _ ha rfl).symm
    · rw [Function.update_of_ne e]
  · refine h _ ?_ rfl ⟨Set.mem_insert _ _, ?_⟩
    · refine ⟨Set.subset_insert _ _, fun a ha => ?_⟩
      dsimp only
      by_cases e : a = ⟨c.region, c.offset, col⟩
      · subst e
        rw [Function.update_self, hv]
        exact (hnew _ ha rfl).symm
      · rw [Function.update_of_ne e]
    · dsimp only
      rw [Function.update_self, hv]

theorem runsAt_constrainEqual {a b : Cell} {c : Ctx} {s : Known} {v : Fr} {Q : Unit → Ctx → Known → Prop} (ha : Has s a v)
    (hb : Has s b v) (h : Q () c s) : RunsAt X (constrainEqual a b) c s Q := by
  refine ⟨_, s, rfl, rfl, .refl s, h, fun w hw => ⟨fun _ _ _ h => absurd h List.not_mem_nil, ?_,
    fun _ _ h => absurd h List.not_mem_nil, fun _ _ h => absurd h List.not_mem_nil⟩⟩
  intro x y hxy
  obtain ⟨rfl, rfl⟩ := Prod.mk.inj (List.mem_singleton.1 hxy)
  exact (ha.keep hw).trans (hb.keep hw).symm

theorem runsAt_exposePublic {a : Cell} {j : ℕ} {c : Ctx} {s : Known} {Q : Unit → Ctx → Known → Prop}
    (ha : Has s a (X.inst j)) (h : Q () c s) : RunsAt X (exposePublic a j) c s Q := by
  refine ⟨_, s, rfl, rfl, .refl s, h, fun w hw => ⟨fun _ _ _ h => absurd h List.not_mem_nil,
    fun _ _ h => absurd h List.not_mem_nil, fun _ _ h => absurd h List.not_mem_nil, ?_⟩⟩
  intro x y hxy
  obtain ⟨rfl, rfl⟩ := Prod.mk.inj (List.mem_singleton.1 hxy)
  exact ha.keep hw

theorem runsIf_enable {P : (Cell → Fr) → Prop} {g : Gate} {c : Ctx} {s : Known} {Q : Unit → Ctx → Known → Prop}
    (hg : ∀ w, Keeps s w → P w → g.holds ⟨w, X.inst, X.range⟩ c.region c.offset) (h : Q () c s) :
    RunsIf X P (enable g) c s Q := by
  refine ⟨_, s, rfl, rfl, .refl s, h, fun w hw hP => ⟨?_, fun _ _ h => absurd h List.not_mem_nil,
    fun _ _ h => absurd h List.not_mem_nil, fun _ _ h => absurd h List.not_mem_nil⟩⟩
  intro k i g' hk
  obtain ⟨rfl, h2⟩ := Prod.mk.inj (List.mem_singleton.1 hk)
  obtain ⟨rfl, rfl⟩ := Prod.mk.inj h2
  exact hg w hw hP

theorem runsAt_next {c : Ctx} {s : Known} {Q : Unit → Ctx → Known → Prop} (h : Q () ⟨c.region, c.offset + 1⟩ s) :
    RunsAt X next c s Q :=
  ⟨_, s, rfl, rfl, .refl s, h, fun _ _ => holds_empty⟩

theorem runsAt_nth {xs : List α} {i : ℕ} {a : α} {c : Ctx} {s : Known} {Q : α → Ctx → Known → Prop}
    (hi : xs[i]? = some a) (h : Q a c s) : RunsAt X (nth xs i) c s Q := by
  refine ⟨⟨a, c, .empty, fun _ w => w⟩, s, ?_, rfl, .refl s, h, fun _ _ => holds_empty⟩
  unfold nth
  rw [hi]

theorem runsAt_check {p : Prop} [Decidable p] {c : Ctx} {s : Known} {Q : Unit → Ctx → Known → Prop} (hp : p)
    (h : Q () c s) : RunsAt X (check p) c s Q := by
  unfold check
  rw [if_pos hp]
  exact runsAt_pure h

theorem runsAt_copyAdvice {col : Fin 5} {a : Cell} {c : Ctx} {s : Known} {Q : Cell → Ctx → Known → Prop} (v : Fr)
    (hv : Has s a v)
    (hnew : ∀ u, ⟨c.region, c.offset, col⟩ ∈ s.cells → s.val ⟨c.region, c.offset, col⟩ = u → u = v)
    (h : ∀ s' : Known, s.Before s' → s'.cells = insert ⟨c.region, c.offset, col⟩ s.cells →
      Has s' ⟨c.region, c.offset, col⟩ v → Q ⟨c.region, c.offset, col⟩ c s') : RunsAt X (copyAdvice col a) c s Q := by
  refine runsAt_bind (Q := fun x c' s' => x = ⟨c.region, c.offset, col⟩ ∧ c' = c ∧
    s'.cells = insert ⟨c.region, c.offset, col⟩ s.cells ∧ Has s' ⟨c.region, c.offset, col⟩ v)
    (runsAt_assignAdvice v hv.2 hnew fun s' h1 h2 h3 => ⟨rfl, rfl, h2, h3⟩) ?_
  rintro x c' s' hb ⟨rfl, rfl, h2, h3⟩
  refine runsAt_bind (Q := fun _ c'' s'' => c'' = c' ∧ s'' = s')
    (runsAt_constrainEqual (hv.mono hb) h3 ⟨rfl, rfl⟩) ?_
  rintro _ c'' s'' - ⟨rfl, rfl⟩
  exact runsAt_pure (h _ hb h2 h3)

/-! ### The main gate -/

/-- The value of a term of a row. -/
def ArgIs (X : Setting) (s : Known) : Arg → Fr → Prop
  | .assigned a _, v => Has s a v
  | .unassigned f _, v => ∀ w, Keeps s w → f X.inp w = v

theorem ArgIs.mono {s s' : Known} {t : Arg} {v : Fr} (h : ArgIs X s t v) (hs : s.Before s') : ArgIs X s' t v := by
  cases t with
  | assigned a k => exact Has.mono h hs
  | unassigned f k => exact fun w hw => h w (hw.mono hs)

theorem runsAt_assignArg {col : Fin 5} {t : Arg} {c : Ctx} {s : Known} {Q : Cell → Ctx → Known → Prop} (v : Fr)
    (hv : ArgIs X s t v)
    (hnew : ∀ u, ⟨c.region, c.offset, col⟩ ∈ s.cells → s.val ⟨c.region, c.offset, col⟩ = u → u = v)
    (h : ∀ s' : Known, s.Before s' → s'.cells = insert ⟨c.region, c.offset, col⟩ s.cells →
      Has s' ⟨c.region, c.offset, col⟩ v → Q ⟨c.region, c.offset, col⟩ c s') : RunsAt X (assignArg col t) c s Q := by
  cases t with
  | assigned a k => exact runsAt_copyAdvice v hv hnew h
  | unassigned f k => exact runsAt_assignAdvice v (hv _ (keeps_self s)) hnew h

/-- The cells of columns `cols` in the current row are free, or filled already with the values they will get. -/
def RowFree (s : Known) (c : Ctx) (cols : List (Fin 5)) (vs : List Fr) : Prop :=
  ∀ p ∈ cols.zip vs, (⟨c.region, c.offset, p.1⟩ : Cell) ∈ s.cells → s.val ⟨c.region, c.offset, p.1⟩ = p.2

theorem runsAt_assignArgs : ∀ (cols : List (Fin 5)) (ts : List Arg) (vs : List Fr) (c : Ctx) (s : Known),
    cols.Nodup → ts.length ≤ cols.length → List.Forall₂ (ArgIs X s) ts vs → RowFree s c cols vs →
    RunsAt X (mapS (fun p : Fin 5 × Arg => assignArg p.1 p.2) (cols.zip ts)) c s fun l c' s' =>
      c' = c ∧ l = (cols.take ts.length).map (fun j => ⟨c.region, c.offset, j⟩) ∧ List.Forall₂ (Has s') l vs ∧
      s'.cells = s.cells ∪ {x | x ∈ l}
  | cols, [], vs, c, s, _, _, hv, _ => by
    rw [List.zip_nil_right]
    rw [List.forall₂_nil_left_iff] at hv
    subst hv
    exact runsAt_pure ⟨rfl, rfl, .nil, by ext x; simp⟩
  | [], t :: ts, vs, c, s, _, hl, hv, _ => absurd hl (by simp)
  | col :: cols, t :: ts, vs, c, s, hn, hl, hv, hf => by
    obtain ⟨v, vs, h0, hv', rfl⟩ := List.forall₂_cons_left_iff.1 hv
    have hn' := List.nodup_cons.1 hn
    refine runsAt_bind (Q := fun x c' s' => x = ⟨c.region, c.offset, col⟩ ∧ c' = c ∧
      s'.cells = insert ⟨c.region, c.offset, col⟩ s.cells ∧ Has s' ⟨c.region, c.offset, col⟩ v)
      (runsAt_assignArg v h0 ?_ fun s' h1 h2 h3 => ⟨rfl, rfl, h2, h3⟩) ?_
    · intro u hm hu
      rw [← hu]
      exact hf (col, v) (by rw [List.zip_cons_cons]; exact List.mem_cons_self) hm
    rintro x c' s' hb ⟨rfl, rfl, h2, h3⟩
    refine runsAt_bind (runsAt_assignArgs cols ts vs c' s' hn'.2 (by simpa using hl)
      (hv'.imp fun _ _ h => h.mono hb) ?_) ?_
    · intro p hp hm
      have hne : (⟨c'.region, c'.offset, p.1⟩ : Cell) ≠ ⟨c'.region, c'.offset, col⟩ := by
        intro e
        have e' : p.1 = col := by injection e
        exact hn'.1 (e' ▸ (List.of_mem_zip hp).1)
      rw [h2] at hm
      have hm' := Set.mem_of_mem_insert_of_ne hm hne
      rw [hb.2 _ hm']
      exact hf p (by rw [List.zip_cons_cons]; exact List.mem_cons_of_mem _ hp) hm'
    rintro l c'' s'' hb' ⟨rfl, hl', hv'', hc⟩
    refine runsAt_pure ⟨rfl, ?_, .cons (h3.mono hb') hv'', ?_⟩
    · rw [hl']
      rfl
    · rw [hc, h2]
      ext y
      simp only [Set.mem_union, Set.mem_insert_iff, Set.mem_ofPred_eq, List.mem_cons]
      tauto

/-- The terms of a row, from values. -/
def valTerms (ts : List Arg) (vs : List Fr) : List Term := List.zipWith (fun t v => ⟨v, t.coeff⟩) ts vs

theorem main_holds {ts : List Arg} {vs : List Fr} {const : Fr} {o : Comb} (hlen : ts.length ≤ 5) (hvs : vs.length = ts.length)
    (hab : o.ab = 0 ∨ 2 ≤ ts.length) (hcd : o.cd = 0 ∨ 4 ≤ ts.length) {T : Table} {k i : ℕ}
    (hT : List.Forall₂ (fun j v => T.cell ⟨k, i, j⟩ = v) ((List.finRange 5).take ts.length) vs)
    (h : MainGate.apply (valTerms ts vs) const o (T.cell ⟨k, i + 1, 4⟩)) :
    (Gate.main ⟨fun j => (ts.map Arg.coeff).getD j 0, o.ab, o.cd, o.next, const⟩).holds T k i := by
  unfold Gate.holds
  dsimp only
  generalize T.cell ⟨k, i + 1, 4⟩ = nx at *
  have h' : (List.map (fun t : Term => t.coeff * t.val) (valTerms ts vs)).sum + o.ab * (MainGate.cell (valTerms ts vs) 0 * MainGate.cell (valTerms ts vs) 1) +
    o.cd * (MainGate.cell (valTerms ts vs) 2 * MainGate.cell (valTerms ts vs) 3) + o.next * nx + const = 0 := h
  refine Eq.trans ?_ h'
  clear h h'
  unfold valTerms MainGate.cell
  match ts, hlen, vs, hvs with
  | [], _, [], _ =>
    rcases hab with hab | hab <;> rcases hcd with hcd | hcd <;> simp_all [List.finRange_succ]
  | [t0], _, [v0], _ =>
    rcases hab with hab | hab <;> rcases hcd with hcd | hcd <;> (simp_all [List.finRange_succ]; try ring)
  | [t0, t1], _, [v0, v1], _ =>
    rcases hcd with hcd | hcd <;> (simp_all [List.finRange_succ]; try ring)
  | [t0, t1, t2], _, [v0, v1, v2], _ =>
    rcases hcd with hcd | hcd <;> (simp_all [List.finRange_succ]; try ring)
  | [t0, t1, t2, t3], _, [v0, v1, v2, v3], _ =>
    simp_all [List.finRange_succ]; ring
  | [t0, t1, t2, t3, t4], _, [v0, v1, v2, v3, v4], _ =>
    simp_all [List.finRange_succ]; ring

theorem runsIf_apply (nx : Fr) {ts : List Arg} {vs : List Fr} {const : Fr} {o : Comb} {c : Ctx} {s : Known}
    (hlen : ts.length ≤ 5) (hab : o.ab = 0 ∨ 2 ≤ ts.length) (hcd : o.cd = 0 ∨ 4 ≤ ts.length)
    (hv : List.Forall₂ (ArgIs X s) ts vs) (hf : RowFree s c (List.finRange 5) vs)
    (he : MainGate.apply (valTerms ts vs) const o nx) :
    RunsIf X (fun w => o.next = 0 ∨ w ⟨c.region, c.offset + 1, 4⟩ = nx) (apply ts const o) c s fun l c' s' =>
      c' = ⟨c.region, c.offset + 1⟩ ∧ List.Forall₂ (Has s') l vs ∧ (∀ x ∈ l, x.region = c.region ∧ x.offset = c.offset) ∧
      s'.cells = s.cells ∪ {x | x ∈ l} := by
  refine runsIf_bind (RunsAt.weak (Q := fun _ c' s' => c' = c ∧ s' = s) (runsAt_check hlen ⟨rfl, rfl⟩)) ?_
  rintro _ c' s' - ⟨rfl, rfl⟩
  refine runsIf_bind (RunsAt.weak (runsAt_assignArgs (List.finRange 5) ts vs c' s' (List.nodup_finRange 5)
    (by rw [List.length_finRange]; exact hlen) hv hf)) ?_
  rintro l c'' s'' hb ⟨rfl, rfl, h2, h3⟩
  refine runsIf_bind (Q := fun _ c' s' => c' = c'' ∧ s' = s'') (runsIf_enable ?_ ⟨rfl, rfl⟩) ?_
  · intro w hw hP
    refine main_holds hlen hv.length_eq.symm hab hcd (vs := vs) ?_ ?_
    · rw [List.forall₂_map_left_iff] at h2
      exact h2.imp fun j v h => h.keep hw
    · rcases hP with hP | hP
      · exact apply_next hP he
      · dsimp only
        rw [hP]
        exact he
  rintro _ c' s' - ⟨rfl, rfl⟩
  refine runsIf_bind (Q := fun _ c1 s1 => c1 = ⟨c'.region, c'.offset + 1⟩ ∧ s1 = s')
    (RunsAt.weak (runsAt_next ⟨rfl, rfl⟩)) ?_
  rintro _ c1 s1 - ⟨rfl, rfl⟩
  refine RunsAt.weak (runsAt_pure ⟨rfl, h2, ?_, h3⟩)
  intro x hx
  obtain ⟨j, -, rfl⟩ := List.mem_map.1 hx
  exact ⟨rfl, rfl⟩

theorem RunsIf.strong {P : (Cell → Fr) → Prop} {m : Synth α} {c : Ctx} {s : Known} {Q : α → Ctx → Known → Prop}
    (h : RunsIf X P m c s Q) (hP : ∀ w, P w) : RunsAt X m c s Q := by
  obtain ⟨o, s', h1, h2, h3, h4, h5⟩ := h
  exact ⟨o, s', h1, h2, h3, h4, fun w hw => h5 w hw (hP w)⟩

/-- Filled cells are in the current row or before it. -/
def Upto (s : Known) (c : Ctx) : Prop :=
  ∀ x ∈ s.cells, x.region < c.region ∨ (x.region = c.region ∧ x.offset ≤ c.offset)

theorem Fresh.upto {s : Known} {c : Ctx} (h : Fresh s c) : Upto s c := fun x hx => by
  rcases h x hx with h | ⟨h, h'⟩
  · exact .inl h
  · exact .inr ⟨h, h'.le⟩

theorem Upto.next {s : Known} {c : Ctx} (h : Upto s c) : Fresh s ⟨c.region, c.offset + 1⟩ := fun x hx => by
  rcases h x hx with h | ⟨h, h'⟩
  · exact .inl h
  · exact .inr ⟨h, Nat.lt_succ_of_le h'⟩

theorem Fresh.not_mem {s : Known} {c : Ctx} (h : Fresh s c) (j : Fin 5) : (⟨c.region, c.offset, j⟩ : Cell) ∉ s.cells := by
  intro hm
  rcases h _ hm with h | ⟨h, h'⟩
  · exact lt_irrefl _ h
  · exact lt_irrefl _ h'

theorem Fresh.rowFree {s : Known} {c : Ctx} (h : Fresh s c) (cols : List (Fin 5)) (vs : List Fr) : RowFree s c cols vs :=
  fun p _ hm => absurd hm (h.not_mem p.1)

theorem Upto.insert {s s' : Known} {c : Ctx} {j : Fin 5} (h : Upto s c)
    (e : s'.cells = insert ⟨c.region, c.offset, j⟩ s.cells) : Upto s' c := fun x hx => by
  rw [e] at hx
  rcases hx with rfl | hx
  · exact .inr ⟨rfl, le_rfl⟩
  · exact h x hx

theorem Upto.union {s s' : Known} {c : Ctx} {l : List Cell} (h : Upto s c)
    (hl : ∀ x ∈ l, x.region = c.region ∧ x.offset = c.offset) (e : s'.cells = s.cells ∪ {x | x ∈ l}) : Upto s' c :=
  fun x hx => by
    rw [e] at hx
    rcases hx with hx | hx
    · exact h x hx
    · exact .inr ⟨(hl x hx).1, (hl x hx).2.le⟩

/-! ### Whole rows -/

theorem runs_pure {a : α} {s : Known} {R : α → Known → Prop} (h : R a s) : Runs X (pure a : Synth α) s R :=
  fun _ hc => runsAt_pure ⟨hc, h⟩

theorem runs_bind {m : Synth α} {f : α → Synth β} {s : Known} {R : α → Known → Prop} {R' : β → Known → Prop}
    (hm : Runs X m s R) (hf : ∀ a s', s.Before s' → R a s' → Runs X (f a) s' R') : Runs X (m >>= f) s R' :=
  fun c hc => runsAt_bind (hm c hc) fun a c' s' hb h => hf a s' hb h.2 c' h.1

theorem runs_mono {m : Synth α} {s : Known} {R R' : α → Known → Prop} (hm : Runs X m s R)
    (h : ∀ a s', s.Before s' → R a s' → R' a s') : Runs X m s R' :=
  fun c hc => runsAt_mono (hm c hc) fun a _ s' hb h' => ⟨h'.1, h a s' hb h'.2⟩

theorem runs_region {m : Synth α} {s : Known} {R : α → Known → Prop} {k : ℕ} (hm : Runs X m s R) :
    Runs X (assignRegion k m) s R := fun c hc => hm ⟨c.region + 1, k⟩ fun x hx => by
  rcases hc x hx with h | ⟨h, -⟩
  · exact .inl (Nat.lt_succ_of_lt h)
  · exact .inl (h ▸ Nat.lt_succ_self _)

theorem runs_nth {xs : List α} {i : ℕ} {a : α} {s : Known} {R : α → Known → Prop} (hi : xs[i]? = some a) (h : R a s) :
    Runs X (nth xs i) s R := fun _ hc => runsAt_nth hi ⟨hc, h⟩

theorem runs_check {p : Prop} [Decidable p] {s : Known} {R : Unit → Known → Prop} (hp : p) (h : R () s) :
    Runs X (check p) s R := fun _ hc => runsAt_check hp ⟨hc, h⟩

theorem runs_constrainEqual {a b : Cell} {s : Known} {v : Fr} {R : Unit → Known → Prop} (ha : Has s a v) (hb : Has s b v)
    (h : R () s) : Runs X (constrainEqual a b) s R := fun _ hc => runsAt_constrainEqual ha hb ⟨hc, h⟩

theorem runs_exposePublic {a : Cell} {j : ℕ} {s : Known} {R : Unit → Known → Prop} (ha : Has s a (X.inst j))
    (h : R () s) : Runs X (exposePublic a j) s R := fun _ hc => runsAt_exposePublic ha ⟨hc, h⟩

theorem runs_assignValue {f : Input → Fr} {s : Known} : Runs X (assignValue f) s fun a s' => Has s' a (f X.inp) := by
  intro c hc
  refine runsAt_bind (Q := fun x c' s' => c' = c ∧ Has s' x (f X.inp) ∧ Upto s' c)
    (runsAt_assignAdvice (f X.inp) rfl (fun u hm => absurd hm (hc.not_mem 0)) fun s' _ h2 h3 =>
      ⟨rfl, h3, hc.upto.insert h2⟩) ?_
  rintro x c' s' - ⟨rfl, h2, h3⟩
  refine runsAt_bind (Q := fun _ c1 s1 => Fresh s1 c1 ∧ Has s1 x (f X.inp))
    (runsAt_next ⟨h3.next, h2⟩) ?_
  rintro _ c1 s1 - h
  exact runsAt_pure h

theorem runs_apply {ts : List Arg} (vs : List Fr) {const : Fr} {o : Comb} {s : Known} (hn : o.next = 0)
    (hlen : ts.length ≤ 5) (hab : o.ab = 0 ∨ 2 ≤ ts.length) (hcd : o.cd = 0 ∨ 4 ≤ ts.length)
    (hv : List.Forall₂ (ArgIs X s) ts vs) (he : MainGate.apply (valTerms ts vs) const o 0) :
    Runs X (apply ts const o) s fun l s' => List.Forall₂ (Has s') l vs := by
  intro c hc
  refine runsAt_mono ((runsIf_apply 0 hlen hab hcd hv (hc.rowFree _ _) he).strong fun _ => .inl hn) ?_
  rintro l c' s' - ⟨rfl, h2, h3, h4⟩
  exact ⟨(hc.upto.union h3 h4).next, h2⟩

theorem runs_mapS {f : α → Synth β} {R : α → β → Known → Prop}
    (hR : ∀ x y s s', s.Before s' → R x y s → R x y s') : ∀ (xs : List α) (s : Known),
    (∀ x ∈ xs, ∀ s', s.Before s' → Runs X (f x) s' (R x)) →
    Runs X (mapS f xs) s fun ys s' => List.Forall₂ (fun x y => R x y s') xs ys
  | [], _, _ => runs_pure .nil
  | x :: xs, s, h => runs_bind (h x List.mem_cons_self s (.refl s)) fun _ s' hb hy =>
      runs_bind (runs_mapS hR xs s' fun z hz s'' hb' => h z (List.mem_cons_of_mem _ hz) s'' (hb.trans hb')) fun _ _ hb' hys =>
        runs_pure (.cons (hR _ _ _ _ hb' hy) hys)

end Verif.Layout
