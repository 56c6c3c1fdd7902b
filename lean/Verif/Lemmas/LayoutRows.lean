import Verif.Lemmas.LayoutCount
import Verif.Spec.LayoutExact

/-!
How many rows the chip functions use, that they use every row for at most one gate, and that the cells of the constraints are
in the rows used.
-/

namespace Verif.Layout
open Verif MainGate

variable {α β : Type} {B K : ℕ}

/-- The cell is in one of the regions up to `K`, in one of the first `B` rows. -/
def Inside (B K : ℕ) (a : Cell) : Prop := a.region ≤ K ∧ a.offset < B

/-- What a chip function adds to a region from the position `c` to the position `c'`. -/
structure Tidy (B K : ℕ) (c c' : Ctx) (S : Shape) : Prop where
  region : c'.region = c.region
  le : c.offset ≤ c'.offset
  gates : ∀ p ∈ S.gates, p.1 = c.region ∧ c.offset ≤ p.2.1 ∧ p.2.1 < c'.offset ∧ p.2.2 ≠ .absorb
  sorted : S.gates.Pairwise fun p p' => p.2.1 < p'.2.1
  copies : ∀ p ∈ S.copies, Inside B K p.1 ∧ Inside B K p.2
  constants : S.constants = []
  publics : S.publics = []

/-- Inside a region, the chip function uses at most `N` rows. -/
def Rows (B K N : ℕ) (m : Synth α) (R : α → Prop) : Prop :=
  ∀ c o, m c = some o → c.offset + N < B → c.region ≤ K →
    Tidy B K c o.ctx o.shape ∧ o.ctx.offset ≤ c.offset + N ∧ R o.val

theorem Tidy.append {c c' c'' : Ctx} {S S' : Shape} (h : Tidy B K c c' S) (h' : Tidy B K c' c'' S') :
    Tidy B K c c'' (S.append S') where
  region := h'.region.trans h.region
  le := h.le.trans h'.le
  gates p hp := by
    rcases List.mem_append.1 hp with hp | hp
    · obtain ⟨h1, h2, h3, h4⟩ := h.gates p hp
      exact ⟨h1, h2, lt_of_lt_of_le h3 h'.le, h4⟩
    · obtain ⟨h1, h2, h3, h4⟩ := h'.gates p hp
      exact ⟨h1.trans h.region, h.le.trans h2, h3, h4⟩
  sorted := List.pairwise_append.2 ⟨h.sorted, h'.sorted, fun p hp p' hp' =>
    lt_of_lt_of_le (h.gates p hp).2.2.1 (h'.gates p' hp').2.1⟩
  copies p hp := (List.mem_append.1 hp).elim (h.copies p) (h'.copies p)
  constants := by
    show S.constants ++ S'.constants = []
    rw [h.constants, h'.constants]; rfl
  publics := by
    show S.publics ++ S'.publics = []
    rw [h.publics, h'.publics]; rfl

theorem tidy_empty (c : Ctx) : Tidy B K c c .empty where
  region := rfl
  le := le_refl _
  gates p hp := absurd hp List.not_mem_nil
  sorted := List.Pairwise.nil
  copies p hp := absurd hp List.not_mem_nil
  constants := rfl
  publics := rfl

theorem rows_pure {a : α} {R : α → Prop} (h : R a) : Rows B K 0 (pure a : Synth α) R := fun c o ho _ _ => by
  cases ho
  exact ⟨tidy_empty c, le_refl _, h⟩

theorem rows_bind {m : Synth α} {f : α → Synth β} {N N' : ℕ} {R : α → Prop} {R' : β → Prop} (hm : Rows B K N m R)
    (hf : ∀ a, R a → Rows B K N' (f a) R') : Rows B K (N + N') (m >>= f) R' := by
  intro c o ho hB hK
  obtain ⟨o1, o2, h1, h2, rfl⟩ := bind_some ho
  obtain ⟨t1, l1, r1⟩ := hm c o1 h1 (by omega) hK
  obtain ⟨t2, l2, r2⟩ := hf _ r1 _ o2 h2 (by omega) (t1.region.le.trans hK)
  exact ⟨t1.append t2, by dsimp only; omega, r2⟩

theorem rows_le {m : Synth α} {N N' : ℕ} {R : α → Prop} (h : N ≤ N') (hm : Rows B K N m R) : Rows B K N' m R :=
  fun c o ho hB hK => by
    obtain ⟨t, l, r⟩ := hm c o ho (by omega) hK
    exact ⟨t, by omega, r⟩

theorem rows_mono {m : Synth α} {N : ℕ} {R R' : α → Prop} (hm : Rows B K N m R) (h : ∀ a, R a → R' a) : Rows B K N m R' :=
  fun c o ho hB hK => by
    obtain ⟨t, l, r⟩ := hm c o ho hB hK
    exact ⟨t, l, h _ r⟩

theorem rows_check {p : Prop} [Decidable p] : Rows B K 0 (check p) fun _ => p := by
  intro c o ho _ _
  unfold check at ho
  by_cases h : p
  · rw [if_pos h] at ho
    cases ho
    exact ⟨tidy_empty c, le_refl _, h⟩
  · rw [if_neg h] at ho
    exact absurd ho (by unfold fail; exact fun h => nomatch h)

theorem rows_nth {xs : List α} {i : ℕ} {R : α → Prop} (h : ∀ x ∈ xs, R x) : Rows B K 0 (nth xs i) R := by
  intro c o ho _ _
  unfold nth at ho
  split at ho
  · rename_i a ha
    cases ho
    exact ⟨tidy_empty c, le_refl _, h a (List.mem_of_getElem? ha)⟩
  · exact absurd ho (fun h => nomatch h)

theorem rows_constrainEqual {a b : Cell} {R : Unit → Prop} (ha : Inside B K a) (hb : Inside B K b) (h : R ()) :
    Rows B K 0 (constrainEqual a b) R := by
  intro c o ho _ _
  cases ho
  refine ⟨⟨rfl, le_refl _, fun p hp => absurd hp List.not_mem_nil, List.Pairwise.nil, fun p hp => ?_, rfl, rfl⟩, le_refl _, h⟩
  rw [List.mem_singleton.1 hp]
  exact ⟨ha, hb⟩

theorem rows_next : Rows B K 1 next fun _ => True := by
  intro c o ho _ _
  cases ho
  exact ⟨⟨rfl, Nat.le_succ _, fun p hp => absurd hp List.not_mem_nil, List.Pairwise.nil, fun p hp => absurd hp List.not_mem_nil,
    rfl, rfl⟩, le_refl _, trivial⟩

theorem rows_assignAdvice {col : Fin 5} {f : Input → (Cell → Fr) → Fr} : Rows B K 0 (assignAdvice col f) (Inside B K) := by
  intro c o ho hB hK
  cases ho
  exact ⟨tidy_empty c, le_refl _, hK, hB⟩

theorem rows_copyAdvice {col : Fin 5} {a : Cell} (ha : Inside B K a) : Rows B K 0 (copyAdvice col a) (Inside B K) :=
  rows_bind rows_assignAdvice fun x hx => rows_bind (N' := 0) (R := fun _ => True) (rows_constrainEqual ha hx trivial) fun _ _ => rows_pure hx

/-- A gate in the current row, more cells in this row, and the next row. -/
theorem rows_enable {g : Gate} {m : Synth α} {f : α → Synth β} {N : ℕ} {R : α → Prop} {R' : β → Prop} (hg : g ≠ .absorb)
    (hm : Rows B K 0 m R) (hf : ∀ a, R a → Rows B K N (f a) R') :
    Rows B K (1 + N) (enable g >>= fun _ => m >>= fun a => next >>= fun _ => f a) R' := by
  intro c o ho hB hK
  obtain ⟨o1, o2, h1, h2, rfl⟩ := bind_some ho
  cases h1
  obtain ⟨o3, o4, h3, h4, rfl⟩ := bind_some h2
  dsimp only at h3
  obtain ⟨t3, l3, r3⟩ := hm c o3 h3 (by omega) hK
  obtain ⟨o5, o6, h5, h6, rfl⟩ := bind_some h4
  cases h5
  have e1 := t3.region
  have e2 := t3.le
  obtain ⟨t6, l6, r6⟩ := hf _ r3 _ o6 h6 (by dsimp only; omega) (by dsimp only; omega)
  dsimp only at l6
  have t : Tidy B K c ⟨o3.ctx.region, o3.ctx.offset + 1⟩ (⟨[(c.region, c.offset, g)], [], [], []⟩ : Shape) := by
    refine ⟨e1, by dsimp only; omega, fun p hp => ?_, List.pairwise_singleton _ _, fun p hp => absurd hp List.not_mem_nil, rfl, rfl⟩
    rw [List.mem_singleton.1 hp]
    refine ⟨rfl, le_refl _, ?_, hg⟩
    dsimp only
    omega
  have g3 : o3.shape.gates = [] := List.eq_nil_iff_forall_not_mem.2 fun p hp => by
    have := t3.gates p hp
    omega
  have t3' : Tidy B K ⟨o3.ctx.region, o3.ctx.offset + 1⟩ ⟨o3.ctx.region, o3.ctx.offset + 1⟩ o3.shape :=
    ⟨rfl, le_refl _, fun p hp => absurd (g3 ▸ hp) List.not_mem_nil, by rw [g3]; exact List.Pairwise.nil, t3.copies, t3.constants, t3.publics⟩
  exact ⟨t.append (t3'.append ((tidy_empty _).append t6)), by dsimp only; omega, r6⟩

/-- A gate in the current row, and the next row. -/
theorem rows_enableNext {g : Gate} {m : Synth α} {N : ℕ} {R : α → Prop} (hg : g ≠ .absorb) (hm : Rows B K N m R) :
    Rows B K (1 + N) (enable g >>= fun _ => next >>= fun _ => m) R := by
  intro c o ho hB hK
  obtain ⟨o1, o2, h1, h2, rfl⟩ := bind_some ho
  cases h1
  obtain ⟨o5, o6, h5, h6, rfl⟩ := bind_some h2
  cases h5
  obtain ⟨t6, l6, r6⟩ := hm _ o6 h6 (by dsimp only; omega) hK
  dsimp only at l6
  have t : Tidy B K c ⟨c.region, c.offset + 1⟩ (⟨[(c.region, c.offset, g)], [], [], []⟩ : Shape) := by
    refine ⟨rfl, Nat.le_succ _, fun p hp => ?_, List.pairwise_singleton _ _, fun p hp => absurd hp List.not_mem_nil, rfl, rfl⟩
    rw [List.mem_singleton.1 hp]
    exact ⟨rfl, le_refl _, Nat.lt_succ_self _, hg⟩
  exact ⟨t.append ((tidy_empty _).append t6), by dsimp only; omega, r6⟩

theorem rows_mapS {f : α → Synth β} {N : ℕ} {R : β → Prop} : ∀ xs : List α, (∀ x ∈ xs, Rows B K N (f x) R) →
    Rows B K (xs.length * N) (mapS f xs) fun ys => ys.length = xs.length ∧ ∀ y ∈ ys, R y
  | [], _ => rows_le (Nat.zero_le _) (rows_pure ⟨rfl, fun y hy => nomatch hy⟩)
  | x :: xs, h => rows_le (by rw [List.length_cons, Nat.succ_mul]; omega) (rows_bind (h x List.mem_cons_self) fun y hy =>
      rows_bind (rows_mapS xs fun z hz => h z (List.mem_cons_of_mem _ hz)) fun ys hys =>
        rows_pure ⟨by rw [List.length_cons, List.length_cons, hys.1], fun z hz => by
          rcases List.mem_cons.1 hz with rfl | hz
          · exact hy
          · exact hys.2 z hz⟩)

theorem rows_foldS {f : β → α → Synth β} {N : ℕ} {R : β → Prop} : ∀ (xs : List α) (b : β),
    (∀ b, R b → ∀ x ∈ xs, Rows B K N (f b x) R) → R b → Rows B K (xs.length * N) (foldS f xs b) R
  | [], b, _, hb => rows_le (Nat.zero_le _) (rows_pure hb)
  | x :: xs, b, h, hb => rows_le (by rw [List.length_cons, Nat.succ_mul]; omega) (rows_bind (h b hb x List.mem_cons_self) fun b' hb' =>
      rows_foldS xs b' (fun b hb z hz => h b hb z (List.mem_cons_of_mem _ hz)) hb')

/-! ### The main gate -/

/-- The assigned terms are inside. -/
def ArgsIn (B K : ℕ) : List Arg → Prop
  | [] => True
  | .assigned a _ :: ts => Inside B K a ∧ ArgsIn B K ts
  | .unassigned _ _ :: ts => ArgsIn B K ts

theorem ArgsIn.mem : ∀ {ts : List Arg}, ArgsIn B K ts → ∀ {a : Cell} {k : Fr}, .assigned a k ∈ ts → Inside B K a
  | .assigned b l :: ts, h, a, k, hm => by
    rcases List.mem_cons.1 hm with e | e
    · injection e with e1 e2
      rw [e1]
      exact h.1
    · exact ArgsIn.mem h.2 e
  | .unassigned _ _ :: ts, h, a, k, hm => by
    rcases List.mem_cons.1 hm with e | e
    · exact absurd e (fun h => nomatch h)
    · exact ArgsIn.mem (ts := ts) h e

theorem rows_assignArg {col : Fin 5} {t : Arg} (h : ∀ a k, t = .assigned a k → Inside B K a) :
    Rows B K 0 (assignArg col t) (Inside B K) := by
  cases t with
  | assigned a k => exact rows_copyAdvice (h a k rfl)
  | unassigned f k => exact rows_assignAdvice

theorem rows_apply {ts : List Arg} {const : Fr} {o : Comb} (h : ArgsIn B K ts) :
    Rows B K 1 (apply ts const o) fun cells => ∀ c ∈ cells, Inside B K c := by
  unfold apply
  refine rows_le (N := 0 + (((List.finRange 5).zip ts).length * 0 + (1 + 0))) (by omega) (rows_bind rows_check fun _ _ => ?_)
  refine rows_bind (R := fun cells => ∀ c ∈ cells, Inside B K c) (rows_mono (rows_mapS (R := Inside B K) _ fun p hp => ?_) fun _ h => h.2)
    fun cells hc => ?_
  · exact rows_assignArg fun a k e => h.mem (e ▸ (List.of_mem_zip hp).2)
  · exact rows_enableNext (fun h => nomatch h) (rows_pure hc)

theorem rows_applyNth {ts : List Arg} {const : Fr} {o : Comb} {i : ℕ} (h : ArgsIn B K ts) :
    Rows B K 1 (apply ts const o >>= fun l => nth l i) (Inside B K) :=
  rows_bind (rows_apply h) fun _ hl => rows_nth hl

theorem rows_assignValue {f : Input → Fr} : Rows B K 1 (assignValue f) (Inside B K) :=
  rows_bind (N' := 1) rows_assignAdvice fun _ h => rows_bind rows_next fun _ _ => rows_pure h

theorem rows_assertEqual {a b : Cell} (ha : Inside B K a) (hb : Inside B K b) : Rows B K 0 (assertEqual a b) fun _ => True :=
  rows_constrainEqual ha hb trivial

section
variable {a b c d : Cell}

theorem rows_add (ha : Inside B K a) (hb : Inside B K b) : Rows B K 1 (add a b) (Inside B K) := rows_applyNth ⟨ha, hb, trivial⟩
theorem rows_sub (ha : Inside B K a) (hb : Inside B K b) : Rows B K 1 (sub a b) (Inside B K) := rows_applyNth ⟨ha, hb, trivial⟩
theorem rows_mul (ha : Inside B K a) (hb : Inside B K b) : Rows B K 1 (mul a b) (Inside B K) := rows_applyNth ⟨ha, hb, trivial⟩
theorem rows_mulAdd (ha : Inside B K a) (hb : Inside B K b) (hc : Inside B K c) : Rows B K 1 (mulAdd a b c) (Inside B K) :=
  rows_applyNth ⟨ha, hb, hc, trivial⟩
theorem rows_addConstant {k : Fr} (ha : Inside B K a) : Rows B K 1 (addConstant a k) (Inside B K) := rows_applyNth ⟨ha, trivial⟩
theorem rows_negWithConstant {k : Fr} (ha : Inside B K a) : Rows B K 1 (negWithConstant a k) (Inside B K) := rows_applyNth ⟨ha, trivial⟩
theorem rows_assignConstant {k : Fr} : Rows B K 1 (assignConstant k) (Inside B K) := rows_applyNth trivial
theorem rows_invertUnsafe (ha : Inside B K a) : Rows B K 1 (invertUnsafe a) (Inside B K) := rows_applyNth ⟨ha, trivial⟩
theorem rows_select (ha : Inside B K a) (hb : Inside B K b) (hc : Inside B K c) : Rows B K 1 (select a b c) (Inside B K) :=
  rows_applyNth ⟨hc, ha, hc, hb, trivial⟩
theorem rows_assignBit {f : Input → (Cell → Fr) → Fr} : Rows B K 1 (assignBit f) (Inside B K) :=
  rows_bind (N' := 0) (rows_apply trivial) fun _ hl => rows_bind (N' := 0) (rows_nth hl) fun _ h1 => rows_bind (N' := 0) (rows_nth hl) fun _ h2 =>
    rows_bind (N' := 0) (rows_nth hl) fun _ h3 => rows_bind (N' := 0) (R := fun _ => True) (rows_constrainEqual h1 h3 trivial) fun _ _ =>
      rows_bind (N' := 0) (R := fun _ => True) (rows_constrainEqual h2 h3 trivial) fun _ _ => rows_pure h3

theorem rows_composeTail : ∀ (bits : List Cell) (p : ℕ × Cell), (∀ b ∈ bits, Inside B K b) → Inside B K p.2 →
    Rows B K bits.length (composeTail bits p) fun p => Inside B K p.2
  | [], p, _, h => rows_pure h
  | b :: bits, p, hb, h => rows_le (by rw [List.length_cons]; omega) (rows_bind (rows_apply ⟨hb b List.mem_cons_self, h, trivial⟩) fun _ hl =>
      rows_bind (rows_nth hl) fun _ ha => rows_composeTail bits _ (fun c hc => hb c (List.mem_cons_of_mem _ hc)) ha)

theorem rows_composeRows : ∀ (fuel i : ℕ) (bits : List Cell) (acc : Cell), (∀ b ∈ bits, Inside B K b) → Inside B K acc →
    Rows B K (bits.length / 4 + 3) (composeRows fuel i bits acc) (Inside B K)
  | 0, _, _, _, _, h => rows_le (Nat.zero_le _) (rows_pure h)
  | fuel + 1, i, [], acc, _, h => rows_le (N := 1 + 0) (by omega) (rows_bind rows_next fun _ _ => rows_pure h)
  | fuel + 1, i, [b0], acc, hb, h => rows_le (N := 1 + 0) (by omega) (rows_bind (rows_composeTail [b0] (i, acc) hb h) fun _ hp => rows_pure hp)
  | fuel + 1, i, [b0, b1], acc, hb, h => rows_le (N := 2 + 0) (by omega) (rows_bind (rows_composeTail [b0, b1] (i, acc) hb h) fun _ hp => rows_pure hp)
  | fuel + 1, i, [b0, b1, b2], acc, hb, h => rows_le (N := 3 + 0) (by omega) (rows_bind (rows_composeTail [b0, b1, b2] (i, acc) hb h) fun _ hp => rows_pure hp)
  | fuel + 1, i, b0 :: b1 :: b2 :: b3 :: rest, acc, hb, h => by
    have h0 : Inside B K b0 := hb _ (by simp)
    have h1 : Inside B K b1 := hb _ (by simp)
    have h2 : Inside B K b2 := hb _ (by simp)
    have h3 : Inside B K b3 := hb _ (by simp)
    have hr : ∀ b ∈ rest, Inside B K b := fun b hb' => hb b (by simp [hb'])
    exact rows_le (N := 1 + (0 + (rest.length / 4 + 3))) (by simp only [List.length_cons]; omega)
      (rows_bind (rows_apply ⟨h0, h1, h2, h3, h, trivial⟩) fun _ _ => rows_bind rows_assignAdvice fun _ ha => rows_composeRows fuel (i + 4) rest _ hr ha)

theorem rows_toBits {n : ℕ} (ha : Inside B K a) : Rows B K (n + n / 4 + 4) (toBits a n) fun bits => bits.length = n ∧ ∀ b ∈ bits, Inside B K b := by
  refine rows_le (N := (List.range n).length * 1 + (1 + (n / 4 + 3))) (by rw [List.length_range]; omega) ?_
  refine rows_bind (rows_mapS (R := Inside B K) _ fun _ _ => rows_assignBit) fun bits hb => ?_
  rw [List.length_range] at hb
  refine rows_bind rows_assignConstant fun z hz => ?_
  rw [← Nat.add_zero (n / 4 + 3)]
  refine rows_bind (R := Inside B K) (N' := 0) ?_ fun s hs => rows_bind (N' := 0) (rows_assertEqual hs ha) fun _ _ => rows_pure hb
  have := rows_composeRows (B := B) (K := K) n 0 bits z hb.2 hz
  rw [hb.1] at this
  exact this

/-! ### src/grumpkin_chip.rs -/

theorem rows_mulSub (ha : Inside B K a) (hb : Inside B K b) (hc : Inside B K c) : Rows B K 1 (mulSub a b c) (Inside B K) :=
  rows_applyNth ⟨ha, hb, hc, trivial⟩
theorem rows_mulSubSub (ha : Inside B K a) (hb : Inside B K b) (hc : Inside B K c) (hd : Inside B K d) :
    Rows B K 1 (mulSubSub a b c d) (Inside B K) := rows_applyNth ⟨ha, hb, hc, hd, trivial⟩
theorem rows_subInvertUnsafe (ha : Inside B K a) (hb : Inside B K b) : Rows B K 1 (subInvertUnsafe a b) (Inside B K) :=
  rows_bind (N' := 0) (rows_apply ⟨ha, hb, trivial⟩) fun _ hl => rows_bind (N' := 0) (rows_nth hl) fun _ h1 => rows_bind (N' := 0) (rows_nth hl) fun _ h2 =>
    rows_bind (N' := 0) (R := fun _ => True) (rows_constrainEqual h1 h2 trivial) fun _ _ => rows_pure h1
theorem rows_subMul (ha : Inside B K a) (hb : Inside B K b) (hc : Inside B K c) : Rows B K 1 (subMul a b c) (Inside B K) :=
  rows_applyNth ⟨ha, hc, hb, hc, trivial⟩
theorem rows_lambdaDoubleUnsafe {p : PtCell} (h1 : Inside B K p.1) (h2 : Inside B K p.2) : Rows B K 1 (lambdaDoubleUnsafe p) (Inside B K) :=
  rows_applyNth ⟨h2, h1, h1, trivial⟩
end

/-- Both coordinates are inside. -/
def PtIn (B K : ℕ) (p : PtCell) : Prop := Inside B K p.1 ∧ Inside B K p.2

theorem rows_addGk {p p' : PtCell} (h : PtIn B K p) (h' : PtIn B K p') : Rows B K 5 (addGk p p') (PtIn B K) :=
  rows_bind (N' := 4) (rows_subInvertUnsafe h.1 h'.1) fun _ h1 => rows_bind (N' := 3) (rows_subMul h.2 h'.2 h1) fun _ h2 =>
    rows_bind (N' := 2) (rows_mulSubSub h2 h2 h.1 h'.1) fun _ h3 => rows_bind (N' := 1) (rows_sub h.1 h3) fun _ h4 =>
      rows_bind (N' := 0) (rows_mulSub h2 h4 h.2) fun _ h5 => rows_pure ⟨h3, h5⟩

theorem rows_doubleIncompleteGk {p : PtCell} (h : PtIn B K p) : Rows B K 4 (doubleIncompleteGk p) (PtIn B K) :=
  rows_bind (N' := 3) (rows_lambdaDoubleUnsafe h.1 h.2) fun _ h2 =>
    rows_bind (N' := 2) (rows_mulSubSub h2 h2 h.1 h.1) fun _ h3 => rows_bind (N' := 1) (rows_sub h.1 h3) fun _ h4 =>
      rows_bind (N' := 0) (rows_mulSub h2 h4 h.2) fun _ h5 => rows_pure ⟨h3, h5⟩

theorem rows_assertIsOnCurve {p : PtCell} (h : PtIn B K p) : Rows B K 4 (assertIsOnCurve p) fun _ => True :=
  rows_bind (N' := 3) (rows_mul h.2 h.2) fun _ h1 => rows_bind (N' := 2) (rows_mul h.1 h.1) fun _ h2 =>
    rows_bind (N' := 1) (rows_mul h2 h.1) fun _ h3 => rows_bind (N' := 0) (rows_addConstant h3) fun _ h4 => rows_assertEqual h1 h4

theorem rows_assignPoint {f : Input → Fr × Fr} : Rows B K 6 (assignPoint f) (PtIn B K) :=
  rows_bind (N' := 5) rows_assignValue fun _ h1 => rows_bind (N' := 4) rows_assignValue fun _ h2 =>
    rows_bind (N' := 0) (rows_assertIsOnCurve ⟨h1, h2⟩) fun _ _ => rows_pure ⟨h1, h2⟩

theorem rows_assignConstantGk {k : Fr × Fr} : Rows B K 2 (assignConstantGk k) (PtIn B K) :=
  rows_bind (N' := 1) rows_assignConstant fun _ h1 => rows_bind (N' := 0) rows_assignConstant fun _ h2 => rows_pure ⟨h1, h2⟩

theorem rows_negGk {p : PtCell} (h : PtIn B K p) : Rows B K 1 (negGk p) (PtIn B K) :=
  rows_bind (N' := 0) (rows_negWithConstant h.2) fun _ h2 => rows_pure ⟨h.1, h2⟩

theorem rows_selectGk {cond : Cell} {p p' : PtCell} (hc : Inside B K cond) (h : PtIn B K p) (h' : PtIn B K p') :
    Rows B K 2 (selectGk cond p p') (PtIn B K) :=
  rows_bind (N' := 1) (rows_select h.1 h'.1 hc) fun _ h1 => rows_bind (N' := 0) (rows_select h.2 h'.2 hc) fun _ h2 => rows_pure ⟨h1, h2⟩

theorem rows_mulBitsLoop : ∀ (bits : List Cell) (res dbl : PtCell), (∀ b ∈ bits, Inside B K b) → PtIn B K res → PtIn B K dbl →
    Rows B K (11 * bits.length) (mulBitsLoop bits res dbl) (PtIn B K)
  | [], _, _, _, h, _ => rows_pure h
  | b :: bits, res, dbl, hb, h, h' => rows_le (N := 5 + (2 + (4 + 11 * bits.length))) (by rw [List.length_cons]; omega)
      (rows_bind (rows_addGk h h') fun _ h1 => rows_bind (rows_selectGk (hb b List.mem_cons_self) h1 h) fun _ h2 =>
        rows_bind (rows_doubleIncompleteGk h') fun _ h3 => rows_mulBitsLoop bits _ _ (fun c hc => hb c (List.mem_cons_of_mem _ hc)) h2 h3)

theorem rows_mulBits {aux auxNeg p : PtCell} {bits : List Cell} (h1 : PtIn B K aux) (h2 : PtIn B K auxNeg) (hp : PtIn B K p)
    (hb : ∀ b ∈ bits, Inside B K b) : Rows B K (11 * bits.length + 5) (mulBits aux auxNeg p bits) (PtIn B K) :=
  rows_bind (rows_mulBitsLoop bits aux p hb h1 hp) fun _ h => rows_addGk h h2

theorem rows_toBitsUnsafe {f : Input → Fr} : Rows B K 254 (toBitsUnsafe f) fun bits => bits.length = 254 ∧ ∀ b ∈ bits, Inside B K b :=
  rows_mono (rows_le (by rw [List.length_range]) (rows_mapS (R := Inside B K) (N := 1) _ fun _ _ => rows_assignBit))
    fun bits h => ⟨by rw [h.1, List.length_range], h.2⟩

end Verif.Layout
