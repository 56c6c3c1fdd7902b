import Verif.Lemmas.HonestBits
import Verif.Lemmas.Poseidon

/-! The honest prover at the level of regions, and in the Poseidon chip. -/

namespace Verif.Layout
open Verif MainGate

variable {X : Setting} {α β : Type} {s : Known}

/-! ### Regions -/

/-- All filled cells are in the regions so far. -/
def Done (s : Known) (c : Ctx) : Prop := ∀ x ∈ s.cells, x.region ≤ c.region

/-- As `Runs`, for functions that only open regions. -/
def RunsR (X : Setting) {α : Type} (m : Synth α) (s : Known) (R : α → Known → Prop) : Prop :=
  ∀ c, Done s c → RunsAt X m c s fun a c' s' => Done s' c' ∧ R a s'

theorem Upto.done {c : Ctx} (h : Upto s c) : Done s c := fun x hx => by
  rcases h x hx with h | ⟨h, -⟩
  · exact h.le
  · exact h.le

theorem Done.fresh {c : Ctx} (h : Done s c) (k : ℕ) : Fresh s ⟨c.region + 1, k⟩ :=
  fun x hx => .inl (Nat.lt_succ_of_le (h x hx))

theorem runsR_pure {a : α} {R : α → Known → Prop} (h : R a s) : RunsR X (pure a : Synth α) s R :=
  fun _ hc => runsAt_pure ⟨hc, h⟩

theorem runsR_bind {m : Synth α} {f : α → Synth β} {R : α → Known → Prop} {R' : β → Known → Prop}
    (hm : RunsR X m s R) (hf : ∀ a s', s.Before s' → R a s' → RunsR X (f a) s' R') : RunsR X (m >>= f) s R' :=
  fun c hc => runsAt_bind (hm c hc) fun a c' s' hb h => hf a s' hb h.2 c' h.1

theorem runsR_mono {m : Synth α} {R R' : α → Known → Prop} (hm : RunsR X m s R)
    (h : ∀ a s', s.Before s' → R a s' → R' a s') : RunsR X m s R' :=
  fun c hc => runsAt_mono (hm c hc) fun a _ s' hb h' => ⟨h'.1, h a s' hb h'.2⟩

theorem runsR_regionAt {m : Synth α} {R : α → Known → Prop} {k : ℕ}
    (hm : ∀ c, Fresh s c → RunsAt X m c s fun a c' s' => Upto s' c' ∧ R a s') : RunsR X (assignRegion k m) s R :=
  fun c hc => by
    obtain ⟨o, s', h1, h2, h3, h4, h5⟩ := hm ⟨c.region + 1, k⟩ (hc.fresh k)
    exact ⟨o, s', h1, h2, h3, ⟨h4.1.done, h4.2⟩, h5⟩

theorem runsR_region {m : Synth α} {R : α → Known → Prop} {k : ℕ} (hm : Runs X m s R) :
    RunsR X (assignRegion k m) s R :=
  runsR_regionAt fun c hc => runsAt_mono (hm c hc) fun _ _ _ _ h => ⟨h.1.upto, h.2⟩

theorem runsR_nth {xs : List α} {i : ℕ} {a : α} {R : α → Known → Prop} (hi : xs[i]? = some a) (h : R a s) :
    RunsR X (nth xs i) s R := fun _ hc => runsAt_nth hi ⟨hc, h⟩

theorem runsR_check {p : Prop} [Decidable p] {R : Unit → Known → Prop} (hp : p) (h : R () s) :
    RunsR X (check p) s R := fun _ hc => runsAt_check hp ⟨hc, h⟩

theorem runsR_exposePublic {a : Cell} {j : ℕ} {R : Unit → Known → Prop} (ha : Has s a (X.inst j))
    (h : R () s) : RunsR X (exposePublic a j) s R := fun _ hc => runsAt_exposePublic ha ⟨hc, h⟩

/-! ### Rows of a state -/

/-- The cells of a state in the current row. -/
def curSt (c : Ctx) : StCell := fun i => ⟨c.region, c.offset, stCol i⟩

/-- In the current row the state has been filled, and not the fourth cell. -/
def StRow (s : Known) (c : Ctx) (v : Poseidon.St) : Prop :=
  Upto s c ∧ (∀ i, Has s (curSt c i) (v i)) ∧ (⟨c.region, c.offset, 3⟩ : Cell) ∉ s.cells

theorem curSt_eq (c : Ctx) : (![⟨c.region, c.offset, 0⟩, ⟨c.region, c.offset, 1⟩, ⟨c.region, c.offset, 2⟩] : StCell) = curSt c := by
  funext i
  fin_cases i <;> rfl

theorem cell_ne {k o : ℕ} {i j : Fin 5} (h : i ≠ j) : (⟨k, o, i⟩ : Cell) ≠ ⟨k, o, j⟩ := fun e => h (by injection e)

theorem not_mem_insert {k o : ℕ} {i j : Fin 5} {S S' : Set Cell} (e : S' = insert (⟨k, o, j⟩ : Cell) S) (h : i ≠ j)
    (hn : (⟨k, o, i⟩ : Cell) ∉ S) : (⟨k, o, i⟩ : Cell) ∉ S' := by
  rw [e]
  rintro (h1 | h1)
  · exact cell_ne h h1
  · exact hn h1

/-- Three steps that fill the first three cells of a row. -/
theorem runsAt_three {m0 m1 m2 : Synth Cell} {v : Poseidon.St} {c : Ctx}
    (hc : Fresh s c)
    (h0 : ∀ s' : Known, s.Before s' → (⟨c.region, c.offset, 0⟩ : Cell) ∉ s'.cells → RunsAt X m0 c s' fun a c' s'' =>
      a = ⟨c.region, c.offset, 0⟩ ∧ c' = c ∧ s''.cells = insert ⟨c.region, c.offset, 0⟩ s'.cells ∧ Has s'' a (v 0))
    (h1 : ∀ s' : Known, s.Before s' → (⟨c.region, c.offset, 1⟩ : Cell) ∉ s'.cells → RunsAt X m1 c s' fun a c' s'' =>
      a = ⟨c.region, c.offset, 1⟩ ∧ c' = c ∧ s''.cells = insert ⟨c.region, c.offset, 1⟩ s'.cells ∧ Has s'' a (v 1))
    (h2 : ∀ s' : Known, s.Before s' → (⟨c.region, c.offset, 2⟩ : Cell) ∉ s'.cells → RunsAt X m2 c s' fun a c' s'' =>
      a = ⟨c.region, c.offset, 2⟩ ∧ c' = c ∧ s''.cells = insert ⟨c.region, c.offset, 2⟩ s'.cells ∧ Has s'' a (v 2)) :
    RunsAt X (do
      let a ← m0
      let b ← m1
      let d ← m2
      pure (![a, b, d] : StCell)) c s fun st c' s' => st = curSt c ∧ c' = c ∧ StRow s' c v := by
  refine runsAt_bind (h0 s (.refl s) (hc.not_mem 0)) ?_
  rintro a c1 s1 b1 ⟨rfl, rfl, e1, k1⟩
  refine runsAt_bind (h1 s1 b1 (not_mem_insert e1 (by decide) (hc.not_mem 1))) ?_
  rintro a c2 s2 b2 ⟨rfl, rfl, e2, k2⟩
  refine runsAt_bind (h2 s2 (b1.trans b2) (not_mem_insert e2 (by decide) (not_mem_insert e1 (by decide) (hc.not_mem 2)))) ?_
  rintro a c3 s3 b3 ⟨rfl, rfl, e3, k3⟩
  refine runsAt_pure ⟨curSt_eq c3, rfl, ((hc.upto.insert e1).insert e2).insert e3, ?_, ?_⟩
  · intro i
    fin_cases i
    · exact k1.mono (b2.trans b3)
    · exact k2.mono b3
    · exact k3
  · exact not_mem_insert e3 (by decide) (not_mem_insert e2 (by decide) (not_mem_insert e1 (by decide) (hc.not_mem 3)))

theorem runsAt_assignState {f : Input → (Cell → Fr) → Poseidon.St} {v : Poseidon.St} {c : Ctx} (hc : Fresh s c)
    (hf : ∀ w, Keeps s w → f X.inp w = v) :
    RunsAt X (assignState f) c s fun st c' s' => st = curSt c ∧ c' = c ∧ StRow s' c v := by
  refine runsAt_three hc ?_ ?_ ?_
  · intro s' hb hn
    exact runsAt_assignAdvice (v 0) (by rw [hf _ (keeps_before hb)]) (fun _ hm => absurd hm hn) fun _ _ h2 h3 => ⟨rfl, rfl, h2, h3⟩
  · intro s' hb hn
    exact runsAt_assignAdvice (v 1) (by rw [hf _ (keeps_before hb)]) (fun _ hm => absurd hm hn) fun _ _ h2 h3 => ⟨rfl, rfl, h2, h3⟩
  · intro s' hb hn
    exact runsAt_assignAdvice (v 2) (by rw [hf _ (keeps_before hb)]) (fun _ hm => absurd hm hn) fun _ _ h2 h3 => ⟨rfl, rfl, h2, h3⟩

theorem runsAt_copyState {st : StCell} {v : Poseidon.St} {c : Ctx} (hc : Fresh s c) (hs : ∀ i, Has s (st i) (v i)) :
    RunsAt X (copyState st) c s fun st' c' s' => st' = curSt c ∧ c' = c ∧ StRow s' c v := by
  refine runsAt_three hc ?_ ?_ ?_
  · intro s' hb hn
    exact runsAt_copyAdvice (v 0) ((hs 0).mono hb) (fun _ hm => absurd hm hn) fun _ _ h2 h3 => ⟨rfl, rfl, h2, h3⟩
  · intro s' hb hn
    exact runsAt_copyAdvice (v 1) ((hs 1).mono hb) (fun _ hm => absurd hm hn) fun _ _ h2 h3 => ⟨rfl, rfl, h2, h3⟩
  · intro s' hb hn
    exact runsAt_copyAdvice (v 2) ((hs 2).mono hb) (fun _ hm => absurd hm hn) fun _ _ h2 h3 => ⟨rfl, rfl, h2, h3⟩

theorem state_of {T : Table} {c : Ctx} {v : Poseidon.St} (h : ∀ i, T.cell (curSt c i) = v i) :
    T.state c.region c.offset = v := by
  funext i
  fin_cases i
  · exact h 0
  · exact h 1
  · exact h 2

theorem runsAt_fullRows : ∀ (rcs : List Poseidon.St) (v : Poseidon.St) (c : Ctx) (s : Known), StRow s c v →
    RunsAt X (fullRows rcs (curSt c)) c s fun st c' s' =>
      st = curSt c' ∧ StRow s' c' (rcs.foldl (fun s rc => Poseidon.fullRound rc s) v)
  | [], v, c, s, h => runsAt_pure ⟨rfl, h⟩
  | rc :: rcs, v, c, s, h => by
    rw [List.foldl_cons]
    refine runsAt_later (fun w => ∀ i, w (curSt ⟨c.region, c.offset + 1⟩ i) = Poseidon.fullRound rc v i)
      (runsIf_enable (Q := fun _ c' s' => c' = c ∧ s' = s) (fun w hw hP => ?_) ⟨rfl, rfl⟩) ?_
    · refine (Poseidon.fullGate_iff _ _ _).2 ?_
      rw [state_of (v := v) fun i => (h.2.1 i).keep hw]
      exact state_of (c := ⟨c.region, c.offset + 1⟩) hP
    rintro _ c1 s1 - ⟨rfl, rfl⟩
    refine runsAt_bind (Q := fun _ c2 s2 => c2 = ⟨c1.region, c1.offset + 1⟩ ∧ s2 = s1) (runsAt_next ⟨rfl, rfl⟩) ?_
    rintro _ c2 s2 - ⟨rfl, rfl⟩
    refine runsAt_bind (runsAt_assignState (v := Poseidon.fullRound rc v) h.1.next fun w hw => ?_) ?_
    · have e : stVal w (curSt c1) = v := funext fun i => (h.2.1 i).keep hw
      rw [e]
    rintro _ c3 s3 - ⟨rfl, rfl, h3⟩
    refine runsAt_mono (runsAt_fullRows rcs _ _ _ h3) ?_
    rintro st c4 s4 hb ⟨rfl, h4⟩
    exact ⟨⟨rfl, h4⟩, fun w hw i => ((h3.2.1 i).mono hb).keep hw⟩

theorem partial_mid {rcA rcB cur next : Poseidon.St} (h : next = Poseidon.partialRound rcB (Poseidon.partialRound rcA cur)) :
    Poseidon.PartialGate rcA rcB cur ((cur 0 + rcA 0) ^ 5) next := by
  obtain ⟨m, hm⟩ := (Poseidon.partialGate_iff rcA rcB cur next).2 h
  have := hm.1
  rw [this]
  exact hm

theorem runsAt_partialRows : ∀ (rcs : List Poseidon.St) (v : Poseidon.St) (c : Ctx) (s : Known), rcs.length % 2 = 0 → StRow s c v →
    RunsAt X (partialRows rcs (curSt c)) c s fun st c' s' =>
      st = curSt c' ∧ StRow s' c' (rcs.foldl (fun s rc => Poseidon.partialRound rc s) v)
  | [], v, c, s, _, h => runsAt_pure ⟨rfl, h⟩
  | [_], v, c, s, hl, h => absurd hl (by rw [List.length_singleton]; decide)
  | rcA :: rcB :: rcs, v, c, s, hl, h => by
    rw [List.foldl_cons, List.foldl_cons]
    unfold partialRows
    refine runsAt_later (fun w => (∀ i, w (curSt ⟨c.region, c.offset + 1⟩ i) = Poseidon.partialRound rcB (Poseidon.partialRound rcA v) i) ∧
        w ⟨c.region, c.offset, 3⟩ = (v 0 + rcA 0) ^ 5)
      (runsIf_enable (Q := fun _ c' s' => c' = c ∧ s' = s) (fun w hw hP => ?_) ⟨rfl, rfl⟩) ?_
    · unfold Gate.holds
      dsimp only
      rw [hP.2]
      have e : Table.state ⟨w, X.inst, X.range⟩ c.region c.offset = v := state_of (v := v) fun i => (h.2.1 i).keep hw
      have e' : Table.state ⟨w, X.inst, X.range⟩ c.region (c.offset + 1) = _ := state_of (c := ⟨c.region, c.offset + 1⟩) hP.1
      rw [e, e']
      exact partial_mid rfl
    rintro _ c1 s1 - ⟨rfl, rfl⟩
    refine runsAt_bind (Q := fun _ c2 s2 => c2 = c1 ∧ s1.Before s2 ∧ s2.cells = insert ⟨c1.region, c1.offset, 3⟩ s1.cells ∧
      Has s2 ⟨c1.region, c1.offset, 3⟩ ((v 0 + rcA 0) ^ 5))
      (runsAt_assignAdvice ((v 0 + rcA 0) ^ 5) ?_ (fun _ hm => absurd hm h.2.2) fun s2 g1 g2 g3 => ⟨rfl, g1, g2, g3⟩) ?_
    · rw [(h.2.1 0).2]
    rintro _ c2 s2 b2 ⟨rfl, -, e2, k2⟩
    refine runsAt_bind (Q := fun _ c3 s3 => c3 = ⟨c2.region, c2.offset + 1⟩ ∧ s3 = s2) (runsAt_next ⟨rfl, rfl⟩) ?_
    rintro _ c3 s3 - ⟨rfl, rfl⟩
    refine runsAt_bind (runsAt_assignState (v := Poseidon.partialRound rcB (Poseidon.partialRound rcA v)) (h.1.insert e2).next fun w hw => ?_) ?_
    · have e : stVal w (curSt c2) = v := funext fun i => ((h.2.1 i).mono b2).keep hw
      rw [e]
    rintro _ c4 s4 b4 ⟨rfl, rfl, h4⟩
    refine runsAt_mono (runsAt_partialRows rcs _ _ _ (by simp only [List.length_cons] at hl; omega) h4) ?_
    rintro st c5 s5 hb ⟨rfl, h5⟩
    exact ⟨⟨rfl, h5⟩, fun w hw => ⟨fun i => ((h4.2.1 i).mono hb).keep hw, (k2.mono (b4.trans hb)).keep hw⟩⟩

theorem runsAt_permuteRows (l1 l2 l3 : List Poseidon.St) (hl : l2.length % 2 = 0) {st : StCell} {v : Poseidon.St}
    (hs : ∀ i, Has s (st i) (v i)) {c : Ctx} (hc : Fresh s c) : RunsAt X (do
    let s0 ← copyState st
    let s1 ← fullRows l1 s0
    let s2 ← partialRows l2 s1
    fullRows l3 s2) c s fun st' c' s' => Upto s' c' ∧ ∀ i, Has s' (st' i)
      (l3.foldl (fun s rc => Poseidon.fullRound rc s) (l2.foldl (fun s rc => Poseidon.partialRound rc s)
        (l1.foldl (fun s rc => Poseidon.fullRound rc s) v)) i) := by
  refine runsAt_bind (runsAt_copyState hc hs) ?_
  rintro _ c1 s1 - ⟨rfl, rfl, h1⟩
  refine runsAt_bind (runsAt_fullRows l1 _ _ _ h1) ?_
  rintro _ c2 s2 - ⟨rfl, h2⟩
  refine runsAt_bind (runsAt_partialRows l2 _ _ _ hl h2) ?_
  rintro _ c3 s3 - ⟨rfl, h3⟩
  refine runsAt_mono (runsAt_fullRows l3 _ _ _ h3) ?_
  rintro _ c4 s4 - ⟨rfl, h4⟩
  exact ⟨h4.1, h4.2.1⟩

theorem runsR_poseidonPermute {st : StCell} {v : Poseidon.St} (hs : ∀ i, Has s (st i) (v i)) :
    RunsR X (poseidonPermute st) s fun st' s' => ∀ i, Has s' (st' i) (Poseidon.permute Poseidon.ROUND_CONSTANTS v i) := by
  have hp := (Poseidon.permuteRows_iff v _).1 ⟨_, _, (Poseidon.fullRows_iff _ _ _).2 rfl, (Poseidon.partialRows_iff 28 _ _ _ rfl).2 rfl,
    (Poseidon.fullRows_iff _ _ _).2 rfl⟩
  rw [← hp]
  unfold poseidonPermute
  exact runsR_regionAt fun c hc => runsAt_permuteRows _ _ _ rfl hs hc

theorem runsAt_assignFromConstant {col : Fin 5} {x : Fr} {c : Ctx} (hn : (⟨c.region, c.offset, col⟩ : Cell) ∉ s.cells) :
    RunsAt X (assignFromConstant col x) c s fun a c' s' => a = ⟨c.region, c.offset, col⟩ ∧ c' = c ∧
      s'.cells = insert ⟨c.region, c.offset, col⟩ s.cells ∧ Has s' a x := by
  refine runsAt_bind (Q := fun a c' s' => a = ⟨c.region, c.offset, col⟩ ∧ c' = c ∧
    s'.cells = insert ⟨c.region, c.offset, col⟩ s.cells ∧ Has s' a x)
    (runsAt_assignAdvice x rfl (fun _ hm => absurd hm hn) fun _ _ h2 h3 => ⟨rfl, rfl, h2, h3⟩) ?_
  rintro a c' s' - ⟨rfl, rfl, h1, h2⟩
  refine ⟨_, s', rfl, rfl, .refl s', ⟨rfl, rfl, h1, h2⟩, fun w hw => ⟨fun _ _ _ h => absurd h List.not_mem_nil,
    fun _ _ h => absurd h List.not_mem_nil, ?_, fun _ _ h => absurd h List.not_mem_nil⟩⟩
  intro x' y hxy
  obtain ⟨rfl, rfl⟩ := Prod.mk.inj (List.mem_singleton.1 hxy)
  exact h2.keep hw

theorem runsR_poseidonInit : RunsR X poseidonInit s fun st s' => ∀ i, Has s' (st i)
    ((![0, 0, ((2 * 2 ^ 64 : ℕ) : Fr)] : Poseidon.St) i) := by
  unfold poseidonInit
  generalize ((2 * 2 ^ 64 : ℕ) : Fr) = k
  refine runsR_regionAt fun c hc => runsAt_mono (runsAt_three (v := ![0, 0, k]) hc ?_ ?_ ?_) ?_
  · exact fun s' _ hn => runsAt_assignFromConstant hn
  · exact fun s' _ hn => runsAt_assignFromConstant hn
  · exact fun s' _ hn => runsAt_assignFromConstant hn
  · rintro _ c' s' - ⟨rfl, rfl, h⟩
    exact ⟨h.1, h.2.1⟩

theorem runsR_poseidonAbsorb {st : StCell} {v : Poseidon.St} {x y : Cell} {vx vy : Fr} (hs : ∀ i, Has s (st i) (v i))
    (hx : Has s x vx) (hy : Has s y vy) :
    RunsR X (poseidonAbsorb st x y) s fun st' s' => ∀ i, Has s' (st' i) ((![v 0 + vx, v 1 + vy, v 2] : Poseidon.St) i) := by
  refine runsR_regionAt fun c hc => ?_
  refine runsAt_bind (runsAt_copyState hc hs) ?_
  rintro _ c1 s1 b1 ⟨rfl, rfl, h1⟩
  refine runsAt_bind (Q := fun _ c2 s2 => c2 = ⟨c1.region, c1.offset + 1⟩ ∧ s2 = s1) (runsAt_next ⟨rfl, rfl⟩) ?_
  rintro _ c2 s2 - ⟨rfl, rfl⟩
  refine runsAt_later (fun w => w ⟨c1.region, c1.offset + 1, 0⟩ = vx ∧ w ⟨c1.region, c1.offset + 1, 1⟩ = vy ∧
    ∀ i, w (curSt ⟨c1.region, c1.offset + 1 + 1⟩ i) = (![v 0 + vx, v 1 + vy, v 2] : Poseidon.St) i)
    (runsIf_enable (Q := fun _ c' s' => c' = ⟨c1.region, c1.offset + 1⟩ ∧ s' = s2) (fun w hw hP => ?_) ⟨rfl, rfl⟩) ?_
  · intro p hp
    obtain rfl : c1.offset = p := Nat.succ.inj hp
    have e : Table.state ⟨w, X.inst, X.range⟩ c1.region c1.offset = v := state_of (v := v) fun i => (h1.2.1 i).keep hw
    have e' : Table.state ⟨w, X.inst, X.range⟩ c1.region (c1.offset + 1 + 1) = _ := state_of (c := ⟨c1.region, c1.offset + 1 + 1⟩) hP.2.2
    have e0 : Table.state ⟨w, X.inst, X.range⟩ c1.region (c1.offset + 1) 0 = vx := hP.1
    have e1 : Table.state ⟨w, X.inst, X.range⟩ c1.region (c1.offset + 1) 1 = vy := hP.2.1
    dsimp only
    rw [e, e', e0, e1]
  rintro _ c3 s3 - ⟨rfl, rfl⟩
  have hf := h1.1.next
  refine runsAt_bind (Q := fun _ c4 s4 => c4 = ⟨c1.region, c1.offset + 1⟩ ∧
      s4.cells = insert ⟨c1.region, c1.offset + 1, 0⟩ s3.cells ∧ Has s4 ⟨c1.region, c1.offset + 1, 0⟩ vx)
    (runsAt_copyAdvice vx (hx.mono b1) (fun _ hm => absurd hm (hf.not_mem 0)) fun _ _ h2 h3 => ⟨rfl, h2, h3⟩) ?_
  rintro _ c4 s4 b4 ⟨rfl, e4, k4⟩
  refine runsAt_bind (Q := fun _ c5 s5 => c5 = ⟨c1.region, c1.offset + 1⟩ ∧
      s5.cells = insert ⟨c1.region, c1.offset + 1, 1⟩ s4.cells ∧ Has s5 ⟨c1.region, c1.offset + 1, 1⟩ vy)
    (runsAt_copyAdvice vy (hy.mono (b1.trans b4)) (fun _ hm => absurd hm (not_mem_insert e4 (by decide) (hf.not_mem 1)))
      fun _ _ h2 h3 => ⟨rfl, h2, h3⟩) ?_
  rintro _ c5 s5 b5 ⟨rfl, e5, k5⟩
  refine runsAt_bind (Q := fun _ c6 s6 => c6 = ⟨c1.region, c1.offset + 1 + 1⟩ ∧ s6 = s5) (runsAt_next ⟨rfl, rfl⟩) ?_
  rintro _ c6 s6 - ⟨rfl, rfl⟩
  have b := (b1.trans b4).trans b5
  have hf2 : Fresh s6 ⟨c1.region, c1.offset + 1 + 1⟩ := Upto.next (c := ⟨c1.region, c1.offset + 1⟩) ((hf.upto.insert e4).insert e5)
  refine runsAt_mono (runsAt_assignState (v := ![v 0 + vx, v 1 + vy, v 2]) hf2 fun w hw => ?_) ?_
  · rw [((hs 0).mono b).keep hw, ((hs 1).mono b).keep hw, ((hs 2).mono b).keep hw, (hx.mono b).keep hw, (hy.mono b).keep hw]
  · rintro _ c7 s7 b7 ⟨rfl, rfl, h7⟩
    exact ⟨⟨h7.1, h7.2.1⟩, fun w hw => ⟨(k4.mono (b5.trans b7)).keep hw, (k5.mono b7).keep hw, fun i => (h7.2.1 i).keep hw⟩⟩

theorem runsR_poseidonHash {x y : Cell} {vx vy : Fr} (hx : Has s x vx) (hy : Has s y vy) :
    RunsR X (poseidonHash x y) s fun a s' => Has s' a (Poseidon.hash2 vx vy) := by
  unfold Poseidon.hash2
  refine runsR_bind runsR_poseidonInit fun st0 s0 b0 h0 => ?_
  refine runsR_bind (runsR_poseidonAbsorb h0 (hx.mono b0) (hy.mono b0)) fun st1 s1 b1 h1 => ?_
  refine runsR_bind (runsR_poseidonPermute h1) fun st2 s2 b2 h2 => runsR_pure ?_
  have e : (![(![0, 0, ((2 * 2 ^ 64 : ℕ) : Fr)] : Poseidon.St) 0 + vx, (![0, 0, ((2 * 2 ^ 64 : ℕ) : Fr)] : Poseidon.St) 1 + vy,
    (![0, 0, ((2 * 2 ^ 64 : ℕ) : Fr)] : Poseidon.St) 2] : Poseidon.St) = ![vx, vy, ((2 * 2 ^ 64 : ℕ) : Fr)] := by
    generalize ((2 * 2 ^ 64 : ℕ) : Fr) = k
    funext i
    fin_cases i
    · exact zero_add vx
    · exact zero_add vy
    · rfl
  rw [← e]
  exact h2 0

end Verif.Layout
