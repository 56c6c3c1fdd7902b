import Verif.Spec.Clock
import Verif.Props.ServicesLive
import Verif.Props.ServicesLimits

/-! C97: the clock of the admin service. -/

namespace Verif.Props
open Verif.Services
open ZkdvrfPre (State Completed sim)

section
variable {M : Machine} {o : Address} {ws : List Address} {t n : ℕ} {aux1 : G1} {aux2 : G2} {sd iv : ℤ}

/-- The clock in words: the generation has begun from the start date on; the interval has elapsed when the
confirmation of the last opening is at least `interval + 1` seconds ago (the whole seconds must exceed the interval). -/
theorem C97_clock (last now : ℕ) :
    (begunAt sd now = true ↔ sd ≤ now) ∧
    (elapsedAt iv last now = true ↔ (last : ℤ) + 1000 * (iv + 1) ≤ now) := by
  constructor
  · unfold begunAt
    rw [Bool.not_eq_true', decide_eq_false_iff_not, not_lt]
  · unfold elapsedAt
    rw [decide_eq_true_iff]
    omega

/-- A start date that is not a valid date counts as passed. -/
theorem C97_invalid_date (now : ℕ) : begunAt (startDateOf none) now = true :=
  (C97_clock (iv := 0) 0 now).1.2 (Int.natCast_nonneg now)

private theorem adminDo_world (s : Timed) (out : Out) (mined : ℕ) :
    (s.adminDo M o out mined).w = s.w.adminStep M o out := by
  unfold Timed.adminDo World.adminStep
  cases out with
  | idle => rfl
  | failed f => rfl
  | send f c =>
    dsimp only
    unfold mine ZkdvrfPre.step
    dsimp only
    cases he : ZkdvrfPre.exec M.env s.w.p ⟨o, 0⟩ c with
    | none => rfl
    | some p' =>
      dsimp only
      cases c <;> rfl

private theorem round_step (p : State) (m : Msg) (c : Zkdvrf.Call) :
    (ZkdvrfPre.step M.env p (.call m c)).currentRoundNum = p.currentRoundNum ∨
    ((ZkdvrfPre.step M.env p (.call m c)).currentRoundNum = p.currentRoundNum + 1 ∧
      c = .initiateRandom ∧ m.sender = p.owner) := by
  rcases C34_pre_round_step M.env p (.call m c) with h | ⟨h1, _, _, m', h2, h3⟩
  · exact Or.inl h
  · cases h2
    exact Or.inr ⟨h1, rfl, h3⟩

private theorem owner_other {p : State} (m : Msg) (c : Zkdvrf.Call) (hm : m.sender ≠ p.owner) :
    (ZkdvrfPre.step M.env p (.call m c)).owner = p.owner := by
  unfold ZkdvrfPre.step
  dsimp only
  cases he : ZkdvrfPre.exec M.env p m c with
  | none => rfl
  | some p' =>
    dsimp only [Option.getD]
    cases c with
    | addPermissionedNodes a => exact absurd (ZkdvrfPre.addPermissionedNodes_some.1 he).2.1 hm
    | registerNode pk => exact (exec_ids he (Or.inl ⟨_, rfl⟩)).1
    | startNidkg => exact absurd (ZkdvrfPre.startNidkg_some.1 he).2.1 hm
    | submitPublicParams pp pr => exact (exec_ids he (Or.inr (Or.inl ⟨_, _, rfl⟩))).1
    | computeVk gpk => exact (exec_ids he (by simp)).1
    | initiateRandom => exact absurd (ZkdvrfPre.initiateRandom_some.1 he).2.1 hm
    | submitPartialEval pe => exact (exec_ids he (by simp)).1
    | submitRandom pr => exact absurd (ZkdvrfPre.submitRandom_some.1 he).2.1 hm
    | transferOwnership a => exact absurd (ZkdvrfPre.transferOwnership_some.1 he).2.1 hm
    | renounceOwnership => exact absurd (ZkdvrfPre.renounceOwnership_some.1 he).2.1 hm

private theorem nodeStep_same (w : World) (a : Address) (d : Draw) :
    (w.nodeStep M a d).p.currentRoundNum = w.p.currentRoundNum ∧ (w.nodeStep M a d).p.owner = w.p.owner := by
  unfold World.nodeStep
  cases hp : nodePass M w.p a (w.node a) d with
  | idle => exact ⟨rfl, rfl⟩
  | failed f => exact ⟨rfl, rfl⟩
  | send f c =>
    dsimp only
    have hk := nodePass_send hp
    constructor
    · rcases round_step (M := M) w.p ⟨a, 0⟩ c with h | ⟨_, h, _⟩
      · exact h
      · exfalso
        subst h
        rcases hk with ⟨_, h⟩ | ⟨_, _, h⟩ | ⟨⟨_, h⟩, _⟩ <;> cases h
    · unfold mine ZkdvrfPre.step
      dsimp only
      cases he : ZkdvrfPre.exec M.env w.p ⟨a, 0⟩ c with
      | none => rfl
      | some p' =>
        refine (exec_ids he ?_).1
        rcases hk with h | h | h
        · exact Or.inl h
        · exact Or.inr (Or.inl h)
        · exact Or.inr (Or.inr (Or.inl h.1))

/-- What holds while the admin runs. -/
private structure TInv (o : Address) (sd iv : ℤ) (cur0 now0 : ℕ) (s : Timed) : Prop where
  owner : s.w.p.owner = o
  cur : s.w.p.currentRoundNum = cur0 + s.openings.length
  now : now0 ≤ s.now
  each : ∀ x ∈ s.openings, sd ≤ x.1 ∧ now0 ≤ x.1 ∧ x.1 ≤ x.2 ∧ x.2 ≤ s.now
  last : ∀ x, s.openings.getLast? = some x → s.last = x.2
  chain : ∀ i x y, s.openings[i]? = some x → s.openings[i + 1]? = some y → (x.2 : ℤ) + 1000 * (iv + 1) ≤ y.1

private theorem TInv.adminDo {cur0 now0 : ℕ} {s : Timed} (h : TInv o sd iv cur0 now0 s) {out : Out} {mined : ℕ}
    (hm : s.now ≤ mined)
    (hsend : ∀ f c, out = .send f c → c = .startNidkg ∨ (∃ g, c = .computeVk g) ∨ c = .initiateRandom ∨
      ∃ x, c = .submitRandom x)
    (hopen : ∀ f, out = .send f .initiateRandom → sd ≤ s.now ∧
      (s.openings = [] ∨ (s.last : ℤ) + 1000 * (iv + 1) ≤ s.now)) :
    TInv o sd iv cur0 now0 (s.adminDo M o out mined) := by
  have later : ∀ x ∈ s.openings, sd ≤ (x.1 : ℤ) ∧ now0 ≤ x.1 ∧ x.1 ≤ x.2 ∧ x.2 ≤ mined := fun x hx =>
    ⟨(h.each x hx).1, (h.each x hx).2.1, (h.each x hx).2.2.1, (h.each x hx).2.2.2.trans hm⟩
  unfold Timed.adminDo
  cases out with
  | idle => exact h
  | failed f => exact ⟨h.owner, h.cur, h.now, h.each, h.last, h.chain⟩
  | send f c =>
    dsimp only
    cases he : ZkdvrfPre.exec M.env s.w.p ⟨o, 0⟩ c with
    | none => exact ⟨h.owner, h.cur, h.now.trans hm, later, h.last, h.chain⟩
    | some p' =>
      have hids := (exec_ids he (by
        rcases hsend f c rfl with h | h | h | h <;> simp [h])).1
      have hrs : ZkdvrfPre.step M.env s.w.p (.call ⟨o, 0⟩ c) = p' := by
        unfold ZkdvrfPre.step
        dsimp only
        rw [he]
        rfl
      have hround := round_step (M := M) s.w.p ⟨o, 0⟩ c
      rw [hrs] at hround
      by_cases hc : c = .initiateRandom
      · subst hc
        dsimp only
        obtain ⟨h1, h2⟩ := hopen f rfl
        have hcur : p'.currentRoundNum = s.w.p.currentRoundNum + 1 := by
          obtain ⟨_, _, _, _, _, _, _, rfl⟩ := ZkdvrfPre.initiateRandom_some.1 he
          rfl
        refine ⟨hids.trans h.owner, ?_, h.now.trans hm, ?_, ?_, ?_⟩
        · dsimp only
          rw [hcur, h.cur, List.length_append, List.length_singleton]
          omega
        · intro x hx
          rcases List.mem_append.1 hx with hx | hx
          · exact later x hx
          · rw [List.mem_singleton.1 hx]
            exact ⟨h1, h.now, hm, le_refl _⟩
        · intro x hx
          dsimp only at hx
          rw [List.getLast?_append, List.getLast?_singleton, Option.some_or] at hx
          cases hx
          rfl
        · intro i x y hx hy
          dsimp only at hx hy
          rcases Nat.lt_or_ge (i + 1) s.openings.length with hi | hi
          · rw [List.getElem?_append_left (by omega)] at hx
            rw [List.getElem?_append_left hi] at hy
            exact h.chain i x y hx hy
          · have hi' : i + 1 = s.openings.length := by
              have := (List.getElem?_eq_some_iff.1 hy).1
              rw [List.length_append, List.length_singleton] at this
              omega
            rw [List.getElem?_append_left (by omega)] at hx
            rw [hi', List.getElem?_append_right (le_refl _), Nat.sub_self] at hy
            cases hy
            have hl : s.openings.getLast? = some x := by
              rw [List.getLast?_eq_getElem?, ← hi']
              exact hx
            rw [← h.last x hl]
            rcases h2 with h2 | h2
            · rw [h2] at hi'; cases hi'
            · exact h2
      · have hcur : p'.currentRoundNum = s.w.p.currentRoundNum := by
          rcases hround with h | ⟨_, h, _⟩
          · exact h
          · exact absurd h hc
        have : TInv o sd iv cur0 now0 { s with w := { s.w with p := p', admin := f }, now := mined } :=
          ⟨hids.trans h.owner, hcur.trans h.cur, h.now.trans hm, later, h.last, h.chain⟩
        cases c <;> first | exact this | exact absurd rfl hc

private theorem adminPass_open {p : State} {f f' : Files} {b : Bool}
    (h : adminPass M p f b = .send f' .initiateRandom) : b = true ∧ p.currentRoundNum = 0 := by
  unfold adminPass at h
  split at h
  · cases h
  · unfold createGpp at h
    split at h
    · cases h
    · dsimp only at h
      split at h <;> cases h
  · split at h
    · cases h
    · rename_i hb
      split at h
      · rename_i h0
        refine ⟨?_, h0⟩
        cases b with
        | true => rfl
        | false => exact absurd rfl hb
      · split at h
        · unfold createRandom at h
          dsimp only at h
          split at h
          · split at h
            · cases h
            · split at h
              · cases h
              · split at h <;> cases h
          · cases h
        · cases h
  · cases h

private theorem tinv {w : World} {now0 : ℕ} (hown : w.p.owner = o) {s : Timed}
    (h : TimedRun M o ws sd iv (.start w now0) s) : TInv o sd iv w.p.currentRoundNum now0 s := by
  induction h with
  | refl => exact ⟨hown, rfl, le_refl _, (fun x hx => by cases hx), (fun x hx => by cases hx),
      fun i x y hx _ => by cases hx⟩
  | wait now hn h ih =>
    exact ⟨ih.owner, ih.cur, ih.now.trans hn, fun x hx => ⟨(ih.each x hx).1, (ih.each x hx).2.1,
      (ih.each x hx).2.2.1, (ih.each x hx).2.2.2.trans hn⟩, ih.last, ih.chain⟩
  | node a d ha h ih =>
    obtain ⟨h1, h2⟩ := nodeStep_same (M := M) (Timed.w _) a d
    exact ⟨h2.trans ih.owner, h1.trans ih.cur, ih.now, ih.each, ih.last, ih.chain⟩
  | @other s' m c ho h ih =>
    have ho' : m.sender ≠ s'.w.p.owner := by rw [ih.owner]; exact ho
    refine ⟨(owner_other m c ho').trans ih.owner, ?_, ih.now, ih.each, ih.last, ih.chain⟩
    rcases round_step (M := M) s'.w.p m c with h | ⟨_, _, h⟩
    · exact h.trans ih.cur
    · exact absurd h ho'
  | @admin s' mined hm hr h ih =>
    refine ih.adminDo hm (fun f c hc => adminPass_send hc) (fun f hf => ?_)
    obtain ⟨h1, h2⟩ := adminPass_open hf
    refine ⟨(C97_clock (iv := iv) s'.last _).1.1 h1, Or.inl ?_⟩
    have := ih.cur
    rw [h2] at this
    exact List.length_eq_zero_iff.1 (by omega)
  | @tick s' mined hm hr h ih =>
    refine ih.adminDo hm (fun f c hc => Or.inr (Or.inr (Or.inl (adminTick_send hc)))) (fun f hf => ?_)
    unfold adminTick at hf
    split at hf
    · split at hf
      · rename_i hc
        rw [Bool.and_eq_true, Bool.and_eq_true] at hc
        exact ⟨((C97_clock (iv := iv) s'.last _).1.1 hc.1.1), Or.inr ((C97_clock (sd := sd) _ _).2.1 hc.2)⟩
      · cases hf
    · cases hf

/-- When the admin opens rounds: not before the start date, and between the confirmation of one opening and
sending the next one at least `interval + 1` seconds pass.  Each opening is one round: nobody else opens rounds. -/
theorem C97_spacing {w : World} {now0 : ℕ} (hown : w.p.owner = o) {s : Timed}
    (h : TimedRun M o ws sd iv (.start w now0) s) :
    (∀ x ∈ s.openings, sd ≤ x.1 ∧ now0 ≤ x.1 ∧ x.1 ≤ x.2 ∧ x.2 ≤ s.now) ∧
    (∀ i x y, s.openings[i]? = some x → s.openings[i + 1]? = some y →
      (x.2 : ℤ) + 1000 * (iv + 1) ≤ y.1) ∧
    s.w.p.currentRoundNum = w.p.currentRoundNum + s.openings.length := by
  have hi := tinv hown h
  exact ⟨hi.each, hi.chain, hi.cur⟩

/-- So rounds cannot come faster than the configured interval: `k + 1` rounds need `k` intervals, counted from the
start of the service and from the start date. -/
theorem C97_rate {w : World} {now0 : ℕ} (hown : w.p.owner = o) {s : Timed}
    (h : TimedRun M o ws sd iv (.start w now0) s) (k : ℕ)
    (hk : w.p.currentRoundNum + k + 1 ≤ s.w.p.currentRoundNum) :
    max (now0 : ℤ) sd + k * (1000 * (iv + 1)) ≤ s.now := by
  obtain ⟨h1, h2, h3⟩ := C97_spacing hown h
  have key : ∀ (j : ℕ) (x : ℕ × ℕ), s.openings[j]? = some x → max (now0 : ℤ) sd + j * (1000 * (iv + 1)) ≤ x.1 := by
    intro j
    induction j with
    | zero =>
      intro x hx
      obtain ⟨a1, a2, _, _⟩ := h1 x (List.mem_of_getElem? hx)
      have : max (now0 : ℤ) sd ≤ x.1 := max_le (by exact_mod_cast a2) a1
      rw [Nat.cast_zero, zero_mul, add_zero]
      exact this
    | succ j ih =>
      intro x hx
      have hj : j < s.openings.length := by
        have := (List.getElem?_eq_some_iff.1 hx).1
        omega
      obtain ⟨y, hy⟩ : ∃ y, s.openings[j]? = some y := ⟨_, List.getElem?_eq_getElem hj⟩
      have b1 := ih y hy
      have b2 := h2 j y x hy hx
      obtain ⟨_, _, b3, _⟩ := h1 y (List.mem_of_getElem? hy)
      have b4 : (y.1 : ℤ) ≤ y.2 := by exact_mod_cast b3
      push_cast
      linarith
  have hlen : k < s.openings.length := by omega
  have b1 := key k _ (List.getElem?_eq_getElem hlen)
  obtain ⟨_, _, b3, b4⟩ := h1 _ (List.getElem_mem hlen)
  have b5 : ((s.openings[k].1 : ℕ) : ℤ) ≤ s.now := by exact_mod_cast b3.trans b4
  linarith

private theorem adminDo_running {s : Timed} (hr : s.running = true) {out : Out} (mined : ℕ)
    (hf : Fine M s.w.p o out) : (s.adminDo M o out mined).running = true := by
  unfold Timed.adminDo
  cases out with
  | idle => exact hr
  | failed f => exact hf.elim
  | send f c =>
    obtain ⟨p', he⟩ := hf
    dsimp only
    rw [he]
    dsimp only
    cases c <;> exact hr

private theorem tick_flag (p : State) (f : Files) (b e : Bool) :
    adminTick p f b e = adminTick p f b (e && decide (p.currentRoundNum ≠ 0)) := by
  unfold adminTick
  cases p.contractPhase with
  | Ready => cases b <;> cases e <;> cases decide (p.currentRoundNum ≠ 0) <;> rfl
  | _ => rfl

/-- If the nodes are honest and each round is complete within the interval, the history is one of those of C55 (whose
assumption on the timer is thereby met), and the admin does not end. -/
theorem C97_fast_rounds (hM : Faithful M t n aux1 aux2) {w : World} (h0 : Fresh M o ws t n w.p) {now0 : ℕ}
    {s : Timed} (h : TimedHonest M o ws t n aux1 aux2 sd iv (.start w now0) s) :
    ∃ N, Honest M o ws t n aux1 aux2 w N s.w ∧ (N < 2 ^ 255 → s.running = true) := by
  induction h with
  | refl => exact ⟨0, .refl, fun _ => rfl⟩
  | wait now hn h ih => exact ih
  | node a d ha hd h ih =>
    obtain ⟨N, i1, i2⟩ := ih
    exact ⟨_, .node a d ha hd i1, fun hN => i2 (lt_of_le_of_lt (Nat.le_add_right _ _) hN)⟩
  | @admin s' mined hm hr h ih =>
    obtain ⟨N, i1, i2⟩ := ih
    have hh := Honest.admin (begunAt sd s'.now) i1
    rw [← adminDo_world (M := M) (o := o) _ _ mined] at hh
    refine ⟨_, hh, fun hN => ?_⟩
    · exact adminDo_running hr mined ((C55_no_failure M hM h0 i1 (lt_of_le_of_lt (Nat.le_add_right _ _) hN)).2.1 _)
  | @tick s' mined hm hr hfast h ih =>
    obtain ⟨N, i1, i2⟩ := ih
    rw [tick_flag]
    have he : (elapsedAt iv s'.last s'.now && decide (s'.w.p.currentRoundNum ≠ 0)) = true →
        Completed s'.w.p s'.w.p.currentRoundNum := by
      intro he
      rw [Bool.and_eq_true, decide_eq_true_iff] at he
      exact hfast he.2 ((C97_clock (sd := sd) _ _).2.1 he.1)
    have hh := Honest.tick (begunAt sd s'.now) _ he i1
    rw [← adminDo_world (M := M) (o := o) _ _ mined] at hh
    refine ⟨_, hh, fun hN => ?_⟩
    · exact adminDo_running hr mined
        ((C55_no_failure M hM h0 i1 (lt_of_le_of_lt (Nat.le_add_right _ _) hN)).2.2 _ _ he)

private theorem adminDo_now (s : Timed) (out : Out) : (s.adminDo M o out s.now).now = s.now := by
  unfold Timed.adminDo
  cases out with
  | idle => rfl
  | failed f => rfl
  | send f c =>
    dsimp only
    cases he : ZkdvrfPre.exec M.env s.w.p ⟨o, 0⟩ c with
    | none => rfl
    | some p' => cases c <;> rfl

private theorem adminPass_begun (p : State) (f : Files) (b : Bool) :
    adminPass M p f b = .idle ∨ adminPass M p f b = adminPass M p f true := by
  cases b with
  | true => exact Or.inr rfl
  | false =>
    unfold adminPass
    cases p.contractPhase with
    | Ready => exact Or.inl rfl
    | _ => exact Or.inr rfl

private theorem adminTick_flags (p : State) (f : Files) (b e : Bool) :
    adminTick p f b e = .idle ∨ b = true ∧ e = true := by
  unfold adminTick
  cases p.contractPhase with
  | Ready => cases b <;> cases e <;> first | exact Or.inr ⟨rfl, rfl⟩ | (left; simp)
  | _ => exact Or.inl rfl

/-- Conversely every history of C55 happens with a clock, for any interval, if the start date is not in the future. -/
theorem C97_possible (hM : Faithful M t n aux1 aux2) {w w' : World} (h0 : Fresh M o ws t n w.p) {N : ℕ}
    (h : Honest M o ws t n aux1 aux2 w N w') (hN : N < 2 ^ 255) (sd iv : ℤ) (now0 : ℕ) (hsd : sd ≤ now0) :
    ∃ s, TimedHonest M o ws t n aux1 aux2 sd iv (.start w now0) s ∧ s.w = w' ∧ s.running = true ∧ now0 ≤ s.now := by
  induction h with
  | refl => exact ⟨_, .refl, rfl, rfl, le_refl _⟩
  | node a d ha hd h ih =>
    obtain ⟨s, i1, rfl, i3, i4⟩ := ih (lt_of_le_of_lt (Nat.le_add_right _ _) hN)
    exact ⟨_, .node a d ha hd i1, rfl, i3, i4⟩
  | admin begun h ih =>
    have hN' := lt_of_le_of_lt (Nat.le_add_right _ _) hN
    obtain ⟨s, i1, rfl, i3, i4⟩ := ih hN'
    have hb : begunAt sd s.now = true :=
      (C97_clock (iv := iv) 0 _).1.2 (hsd.trans (by exact_mod_cast i4))
    rcases adminPass_begun (M := M) s.w.p s.w.admin begun with hp | hp
    · rw [hp]
      exact ⟨s, i1, rfl, i3, i4⟩
    · have hf := (C55_no_failure M hM h0 h hN').2.1 begun
      rw [hp] at hf ⊢
      have hstep := TimedHonest.admin s.now (le_refl _) i3 i1
      rw [hb] at hstep
      exact ⟨_, hstep, adminDo_world _ _ _, adminDo_running i3 _ hf, by rw [adminDo_now]; exact i4⟩
  | tick begun elapsed he h ih =>
    have hN' := lt_of_le_of_lt (Nat.le_add_right _ _) hN
    obtain ⟨s, i1, rfl, i3, i4⟩ := ih hN'
    rcases adminTick_flags s.w.p s.w.admin begun elapsed with hp | ⟨rfl, rfl⟩
    · rw [hp]
      exact ⟨s, i1, rfl, i3, i4⟩
    · have hf := (C55_no_failure M hM h0 h hN').2.2 true true he
      obtain ⟨T, hT1, hT2⟩ : ∃ T : ℕ, s.now ≤ T ∧ (s.last : ℤ) + 1000 * (iv + 1) ≤ T :=
        ⟨max s.now ((s.last : ℤ) + 1000 * (iv + 1)).toNat, le_max_left _ _,
          (Int.self_le_toNat _).trans (by exact_mod_cast le_max_right _ _)⟩
      have hw := TimedHonest.wait T hT1 i1
      have hb : begunAt sd T = true :=
        (C97_clock (iv := iv) 0 _).1.2 (hsd.trans (by exact_mod_cast i4.trans hT1))
      have hel : elapsedAt iv s.last T = true := (C97_clock (sd := sd) _ _).2.2 hT2
      have hstep := TimedHonest.tick (s' := { s with now := T }) T (le_refl _) i3 (fun _ _ => he rfl) hw
      dsimp only at hstep
      rw [hb, hel] at hstep
      refine ⟨_, hstep, adminDo_world _ _ _, adminDo_running (s := { s with now := T }) i3 _ hf, ?_⟩
      rw [adminDo_now]
      exact i4.trans hT1

/-- Nothing in such a history is outside the general ones. -/
theorem C97_honest_run {w : World} {now0 : ℕ} {s : Timed}
    (h : TimedHonest M o ws t n aux1 aux2 sd iv (.start w now0) s) :
    TimedRun M o ws sd iv (.start w now0) s := by
  induction h with
  | refl => exact .refl
  | wait now hn h ih => exact .wait now hn ih
  | node a d ha hd h ih => exact .node a d ha ih
  | admin mined hm hr h ih => exact .admin mined hm hr ih
  | tick mined hm hr _ h ih => exact .tick mined hm hr ih

/-- VIOLATION.  The time of the last opening is kept in memory only.  When the admin is restarted in the middle of
a round, its first look at the timer makes it open a round; this reverts and ends it again.  If the round is complete,
the next one is opened at once, however short ago the last opening was. -/
theorem C97_violation_restart (w : World) (now mined : ℕ) (hp : w.p.contractPhase = .Ready)
    (h1 : 1 ≤ w.p.currentRoundNum) (hsd : sd ≤ now) (hiv : 1000 * (iv + 1) ≤ now) :
    let s := Timed.start w now
    let s' := s.adminDo M o (adminTick s.w.p s.w.admin (begunAt sd s.now) (elapsedAt iv s.last s.now)) mined
    (¬ Completed w.p w.p.currentRoundNum → s'.running = false ∧ s'.w.p = w.p) ∧
    (Completed w.p w.p.currentRoundNum → w.p.owner = o → w.p.currentRoundNum + 1 < 2 ^ 256 →
      s'.running = true ∧ s'.w.p.currentRoundNum = w.p.currentRoundNum + 1 ∧ s'.openings = [(now, mined)]) := by
  have ht : adminTick w.p w.admin (begunAt sd now) (elapsedAt iv 0 now) = .send w.admin .initiateRandom := by
    rw [(C97_clock (iv := iv) 0 now).1.2 hsd, (C97_clock (sd := sd) (iv := iv) 0 now).2.2 (by
      rw [Nat.cast_zero, zero_add]; exact hiv)]
    unfold adminTick
    rw [hp]
    dsimp only
    rw [if_pos]
    simp only [Bool.true_and, Bool.and_true, decide_eq_true_eq]
    omega
  dsimp only [Timed.start]
  rw [ht]
  unfold Timed.adminDo
  dsimp only
  constructor
  · intro hopen
    rw [(C57_violation_interval M w.p w.admin hp h1 hopen).2]
    exact ⟨rfl, rfl⟩
  · intro hC ho hb
    obtain ⟨p', he, hc, _⟩ := C41_pre_round_opens M.env hp hb (Or.inr hC)
    rw [ho] at he
    rw [he]
    exact ⟨rfl, hc, rfl⟩

end

/-- A concrete case: three nodes, threshold two, start date in 2024, an hour between rounds.  The service starts on a
fresh contract in 2025, and nine rounds are opened and completed; this takes at least eight hours. -/
example : ∃ w s, Fresh toyMachine 7 [1, 2, 3] 2 3 w.p ∧
    TimedHonest toyMachine 7 [1, 2, 3] 2 3 (5 • g1) FixedPoint.aux2 1704067200000 3600
      (.start w 1735689600000) s ∧
    TimedRun toyMachine 7 [1, 2, 3] 1704067200000 3600 (.start w 1735689600000) s ∧
    s.running = true ∧ (∀ k, 1 ≤ k → k ≤ 9 → Completed s.w.p k) ∧ s.openings.length = 9 ∧
    1735689600000 + 8 * 3601000 ≤ s.now := by
  obtain ⟨w, h0, _, hw⟩ := toy_world
  obtain ⟨w', h1⟩ := hw 44 (le_refl _)
  obtain ⟨s, s1, rfl, s3, _⟩ := C97_possible toy_faithful h0 h1 (by norm_num) 1704067200000 3600 1735689600000
    (by norm_num)
  have hst := (C55_stage toyMachine toy_faithful h0 h1 (by norm_num)).2.2.2.2.1 9 (by norm_num)
  have hrun := C97_honest_run s1
  have hcur0 : w.p.currentRoundNum = 0 :=
    (early h0.reachable (by rw [h0.threshold]; exact h0.t_pos) (by
      rw [h0.phase]; exact ZkdvrfPre.Phase.noConfusion)).2.2.1
  obtain ⟨_, _, hlen⟩ := C97_spacing h0.owner hrun
  rw [hst.2.1, hcur0] at hlen
  refine ⟨w, s, h0, s1, hrun, s3, fun k hk1 hk9 => ?_, by omega, ?_⟩
  · exact (C55_rounds toyMachine toy_faithful h0 h1 (by norm_num) k hk1).2 (by omega)
  · have := C97_rate h0.owner hrun 8 (by rw [hst.2.1, hcur0])
    norm_num at this
    omega

/-- A concrete case of a restart within a round. -/
example : ∃ w : World, w.p.contractPhase = .Ready ∧ 1 ≤ w.p.currentRoundNum ∧
    ¬ Completed w.p w.p.currentRoundNum := by
  obtain ⟨w, h0, _, hw⟩ := toy_world
  obtain ⟨w', h1⟩ := hw 9 (by omega)
  obtain ⟨h2, h3, h4, _⟩ := (C55_stage toyMachine toy_faithful h0 h1 (by norm_num)).2.2.2.2.2 0 0 (by omega) (by omega)
  exact ⟨w', h2, by rw [h3], by rw [h3]; exact h4⟩

end Verif.Props
