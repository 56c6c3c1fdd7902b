import Verif.Lemmas.ZkdvrfPreEvents
import Verif.Props.Liveness
import Verif.Props.ContractPre

/-! Property C66: the event log of the contracts. -/

namespace Verif.Props
open Verif Zkdvrf

theorem MayPrecede.irrefl {e : Event} : ¬ e.MayPrecede e := by
  rintro (⟨_, _, h⟩ | ⟨h1, h2⟩ | ⟨h1, h2, _⟩)
  · exact lt_irrefl _ h
  · exact h2 h1
  · exact h1 h2

/-- C66. Whatever is done to the contract, it emits its events in the order of its life — registration,
start and end of the DKG, keys, then for every round in turn its start, its quorum and its random —
and each of them at most once.  The only exception is `RandomReady` for round 0 (see C37), at most
once and before the first round is initiated.  (Keccak is assumed not to return 0 on the 64 bytes of
a point.) -/
theorem C66_order (env : Env) (hk : ∀ b, b.length = 64 → env.keccak b ≠ 0) {s : State}
    {log : List Event} (h : History env s log) :
    log.Pairwise Event.MayPrecede ∧ log.Nodup := by
  have ho := (logInv hk h).ordered
  refine ⟨ho, List.Pairwise.imp ?_ ho⟩
  rintro a b hab rfl
  exact MayPrecede.irrefl hab

/-- C66. The log says exactly how far the contract has come: each event is in the log if and only if
the corresponding condition holds of the state, and it carries the right arguments. -/
theorem C66_log (env : Env) (hk : ∀ b, b.length = 64 → env.keccak b ≠ 0) {s : State}
    {log : List Event} (h : History env s log) :
    (∀ c, .RegistrationCompleted c ∈ log ↔
      c = s.memberCount ∧ s.registeredCount = s.memberCount ∧ 0 < s.memberCount) ∧
    (.NidkgStarted ∈ log ↔ s.contractPhase ≠ .Unregistered) ∧
    (∀ c, .NidkgCompleted c ∈ log ↔ c = s.memberCount ∧
      (s.contractPhase = .NidkgComplete ∨ s.contractPhase = .Ready)) ∧
    (.GlobalPublicParamsCreated ∈ log ↔ s.contractPhase = .Ready) ∧
    (∀ k x, .RandomInitiated k x ∈ log ↔
      1 ≤ k ∧ k ≤ s.currentRoundNum ∧ x = strBytes "zkRand-v1-2024:" ++ decimal k) ∧
    (∀ k x, .RandomThresholdReached k x ∈ log ↔ 1 ≤ s.threshold ∧
      s.threshold ≤ Nat.card {i : ℕ // i < s.memberCount ∧ Submitted s k i} ∧
      x = strBytes "zkRand-v1-2024:" ++ decimal k) ∧
    (∀ k x, .RandomReady k x ∈ log ↔
      Completed s k ∧ x = if k = 0 then [] else strBytes "zkRand-v1-2024:" ++ decimal k) := by
  have hl := logInv hk h
  refine ⟨hl.reg, ?_, ?_, ?_, hl.init, ?_, hl.ready⟩
  · rw [hl.started]
    cases s.contractPhase <;> simp [Phase.rank]
  · intro c
    rw [hl.completed]
    cases s.contractPhase <;> simp [Phase.rank]
  · rw [hl.gpp]
    cases s.contractPhase <;> simp [Phase.rank]
  · intro k x
    rw [hl.thr, (C35_evaluations env h.reachable ⟨s.threshold, s.memberCount⟩ rfl k 0).2.1]
    rfl

/-- In an ordered log an event is preceded by every event that cannot come after it. -/
theorem precedes {log : List Event} (ho : log.Pairwise Event.MayPrecede) {e e' : Event}
    (he : e ∈ log) (he' : e' ∈ log) (hne : e ≠ e') (hn : ¬ e'.MayPrecede e) :
    ∃ a b, log = a ++ e' :: b ∧ e ∈ a := by
  obtain ⟨a, b, rfl⟩ := List.append_of_mem he'
  refine ⟨a, b, rfl, ?_⟩
  rcases List.mem_append.1 he with h | h
  · exact h
  · rcases List.mem_cons.1 h with h | h
    · exact absurd h hne
    · have := (List.pairwise_append.1 ho).2.1
      exact absurd ((List.pairwise_cons.1 this).1 e h) hn

/-- C66. A round's quorum and random are announced after the start of the round, and the keys before
any round: so a listener who has seen the whole log up to an event knows all that led to it. -/
theorem C66_causes (env : Env) (hk : ∀ b, b.length = 64 → env.keccak b ≠ 0) {s : State}
    {log : List Event} (h : History env s log) (k : ℕ) (x : List Byte) :
    (.RandomThresholdReached k x ∈ log → ∃ a b, log = a ++ .RandomThresholdReached k x :: b ∧
      .RandomInitiated k x ∈ a) ∧
    (1 ≤ k → .RandomReady k x ∈ log → ∃ a b, log = a ++ .RandomReady k x :: b ∧
      .RandomInitiated k x ∈ a) ∧
    (.RandomInitiated k x ∈ log → ∃ a b, log = a ++ .RandomInitiated k x :: b ∧
      .GlobalPublicParamsCreated ∈ a ∧
      ∀ j, 1 ≤ j → j < k →
        .RandomReady j (strBytes "zkRand-v1-2024:" ++ decimal j) ∈ a) ∧
    (.GlobalPublicParamsCreated ∈ log → ∃ a b, log = a ++ .GlobalPublicParamsCreated :: b ∧
      .NidkgCompleted s.memberCount ∈ a) ∧
    (.NidkgCompleted s.memberCount ∈ log → ∃ a b, log = a ++ .NidkgCompleted s.memberCount :: b ∧
      .NidkgStarted ∈ a) ∧
    (.NidkgStarted ∈ log → 0 < s.memberCount → ∃ a b, log = a ++ .NidkgStarted :: b ∧
      .RegistrationCompleted s.memberCount ∈ a) := by
  have hl := logInv hk h
  have hr := h.reachable
  have hnot : ∀ {e e' : Event}, ¬ e.Stray → ¬ e'.Stray → e.place < e'.place →
      ¬ e'.MayPrecede e := by
    rintro e e' h1 h2 h3 (⟨_, _, h⟩ | ⟨h, _⟩ | ⟨_, h, _⟩)
    · omega
    · exact h2 h
    · exact h1 h
  refine ⟨?_, ?_, ?_, ?_, ?_, ?_⟩
  · intro he
    obtain ⟨h1, h2, h3⟩ := (hl.thr k x).1 he
    obtain ⟨h4, h5⟩ := eval_opened hr (k := k) (by omega)
    exact precedes hl.ordered ((hl.init k x).2 ⟨h4, h5, h3⟩) he Event.noConfusion
      (hnot id id (by simp [Event.place]))
  · intro h1 he
    obtain ⟨h2, h3⟩ := (hl.ready k x).1 he
    rw [if_neg (by omega)] at h3
    obtain ⟨n, rfl⟩ : ∃ n, k = n + 1 := ⟨k - 1, by omega⟩
    exact precedes hl.ordered ((hl.init _ x).2 ⟨h1, completed_le hr h2, h3⟩) he Event.noConfusion
      (hnot id id (by simp [Event.place]))
  · intro he
    obtain ⟨h1, h2, h3⟩ := (hl.init k x).1 he
    have hrd := round_rank hr (by omega)
    have hg : Event.GlobalPublicParamsCreated ∈ log := hl.gpp.2 (by rw [hrd]; exact le_rfl)
    obtain ⟨a, b, hab⟩ := List.append_of_mem he
    have hpre : ∀ e ∈ log, ¬ e.Stray → e.place < 3 * k + 1 → e ∈ a := by
      intro e hel hns hpl
      obtain ⟨a', b', hab', hea⟩ := precedes hl.ordered hel he
        (by rintro rfl; exact lt_irrefl _ hpl) (hnot (e' := .RandomInitiated k x) hns id hpl)
      have hnd := (C66_order env hk h).2
      rw [hab] at hnd hab'
      obtain ⟨i, hi, hia⟩ := List.getElem_of_mem hea
      -- the same event occurs once, so the two splittings agree
      have : a = a' := by
        have hn1 : Event.RandomInitiated k x ∉ a := fun hm =>
          (List.nodup_append.1 hnd).2.2 _ hm _ (List.mem_cons_self ..) rfl
        have hn2 : Event.RandomInitiated k x ∉ a' := by
          rw [hab'] at hnd
          exact fun hm => (List.nodup_append.1 hnd).2.2 _ hm _ (List.mem_cons_self ..) rfl
        have e1 := List.takeWhile_append_of_pos (p := fun e => decide (e ≠ .RandomInitiated k x))
          (l₁ := a) (l₂ := .RandomInitiated k x :: b)
          (by intro e he; simp only [decide_eq_true_eq]; rintro rfl; exact hn1 he)
        have e2 := List.takeWhile_append_of_pos (p := fun e => decide (e ≠ .RandomInitiated k x))
          (l₁ := a') (l₂ := .RandomInitiated k x :: b')
          (by intro e he; simp only [decide_eq_true_eq]; rintro rfl; exact hn2 he)
        rw [List.takeWhile_cons_of_neg (by simp), List.append_nil] at e1 e2
        rw [← e1, ← e2, hab']
      rw [this]
      exact hea
    refine ⟨a, b, hab, hpre _ hg id (by simp [Event.place]; omega), ?_⟩
    intro j hj1 hj2
    have hc : Completed s j := (roundInv hr).done j hj1 (by omega)
    obtain ⟨n, rfl⟩ : ∃ n, j = n + 1 := ⟨j - 1, by omega⟩
    refine hpre _ ((hl.ready _ _).2 ⟨hc, ?_⟩) id (by simp [Event.place]; omega)
    rw [if_neg (by omega)]
    rfl
  · intro he
    exact precedes hl.ordered ((hl.completed _).2 ⟨rfl, le_trans (by decide) (hl.gpp.1 he)⟩) he
      Event.noConfusion (hnot id id (by simp [Event.place]))
  · intro he
    exact precedes hl.ordered (hl.started.2 (le_trans (by decide) ((hl.completed _).1 he).2)) he
      Event.noConfusion (hnot id id (by simp [Event.place]))
  · intro he hm
    have h1 := hl.started.1 he
    have h2 := (regInv hr).started (by rintro h0; rw [h0] at h1; exact absurd h1 (by decide))
    exact precedes hl.ordered ((hl.reg _).2 ⟨rfl, h2, hm⟩) he
      Event.noConfusion (hnot id id (by simp [Event.place]))

/-- C66. Once `RandomReady` has been announced for a round, every later read of that round returns the
same random; for a round `k ≥ 1` it is the one determined by the group key and the announced input. -/
theorem C66_ready (env : Env) (hk : ∀ b, b.length = 64 → env.keccak b ≠ 0) {s : State}
    {log : List Event} (h : History env s log) (k : ℕ) (x : List Byte)
    (he : .RandomReady k x ∈ log) :
    ∃ rnd, (∀ s', Later env s s' → getRandomAtRound s' k = some rnd) ∧
      rnd.value = env.keccak (Word.bytes rnd.proof.x ++ Word.bytes rnd.proof.y) ∧
      (1 ≤ k → ∃ a : Fr, decodeG2 s.gpkVal = some (smul2 a g2) ∧
        rnd.proof = encodeG1 (a • evalHash env.keccak x)) := by
  have hl := logInv hk h
  have hr := h.reachable
  obtain ⟨h1, h2⟩ := (hl.ready k x).1 he
  refine ⟨s.roundToRandom k, ?_, (roundInv hr).hash k h1, ?_⟩
  · intro s' hl'
    have := (hl'.keeps hr).random k h1
    unfold getRandomAtRound
    rw [this]
    exact if_pos h1
  · intro hk1
    have hrd := round_rank hr (le_trans hk1 (completed_le hr h1))
    obtain ⟨a, ha, hv⟩ := C36_value_determined env hr hrd
    rw [if_neg (by omega)] at h2
    refine ⟨a, ha, ?_⟩
    rw [h2]
    exact (hv k hk1 h1).1

theorem zero_members {env : Env} {s : State} (hr : Reachable env s) (h0 : s.memberCount = 0) :
    s.contractPhase.rank ≤ 1 := by
  revert h0
  refine reach_induct (fun s => s.memberCount = 0 → s.contractPhase.rank ≤ 1) ?_ ?_ ?_ hr
  · intro m t n a b c d s hm hc _
    rw [constructor_some] at hc
    obtain ⟨_, _, _, _, _, _, hb, rfl⟩ := hc
    exact Nat.zero_le _
  · intro s m c s' hr ih hm he h0
    have hk := keeps_exec hr hm he
    rw [hk.memberCount] at h0
    have ih := ih h0
    cases c with
    | startNidkg => obtain ⟨_, _, _, _, rfl⟩ := startNidkg_some.1 he; exact le_rfl
    | submitPublicParams pp pr =>
      obtain ⟨_, h2, h3, h4, h5, h6, h7, rfl⟩ := submitPublicParams_some.1 he
      simp only
      rw [if_neg (by omega)]
      exact ih
    | computeVk gpk =>
      obtain ⟨_, h2, _⟩ := computeVk_some.1 he
      rw [h2] at ih
      exact absurd ih (by decide)
    | addPermissionedNodes a => obtain ⟨_, _, _, _, _, _, rfl⟩ := addPermissionedNodes_some.1 he; exact ih
    | registerNode pk => obtain ⟨_, _, _, _, _, _, _, rfl⟩ := registerNode_some.1 he; exact ih
    | initiateRandom => obtain ⟨_, _, _, _, _, rfl⟩ := initiateRandom_some.1 he; exact ih
    | submitPartialEval pe => obtain ⟨_, _, _, _, _, _, _, _, rfl⟩ := submitPartialEval_some.1 he; exact ih
    | submitRandom pr => obtain ⟨_, _, _, _, _, rfl⟩ := submitRandom_some.1 he; exact ih
    | transferOwnership a => obtain ⟨_, _, _, rfl⟩ := transferOwnership_some.1 he; exact ih
    | renounceOwnership => obtain ⟨_, _, rfl⟩ := renounceOwnership_some.1 he; exact ih
  · intro s a ih h0; exact ih h0

/-- C66 (limits). The constructor does not check its numbers.  Without members the DKG never
completes; with a threshold of 0 or above the number of members no quorum is ever announced, so an
administrator waiting for `RandomThresholdReached` waits forever. -/
theorem C66_never (env : Env) (hk : ∀ b, b.length = 64 → env.keccak b ≠ 0) {s : State}
    {log : List Event} (h : History env s log) :
    (s.memberCount = 0 → ∀ c, .RegistrationCompleted c ∉ log ∧ .NidkgCompleted c ∉ log) ∧
    (s.threshold = 0 ∨ s.memberCount < s.threshold → ∀ k x, .RandomThresholdReached k x ∉ log) := by
  have hl := logInv hk h
  have hr := h.reachable
  refine ⟨fun h0 c => ⟨fun he => ?_, fun he => ?_⟩, fun h0 k x he => ?_⟩
  · have := ((hl.reg c).1 he).2.2; omega
  · have := ((hl.completed c).1 he).2
    have := zero_members hr h0
    omega
  · obtain ⟨h1, h2, _⟩ := (hl.thr k x).1 he
    have := (C35_evaluations env hr ⟨s.threshold, s.memberCount⟩ rfl k 0).2.2
    omega

/-- C66 (violation). The stray event exists: in every history that has not reached phase `Ready`, unless
it has happened already, the owner can make the contract announce a random for round 0. -/
theorem C66_stray (env : Env) (hk : ∀ b, b.length = 64 → env.keccak b ≠ 0) {s : State}
    {log : List Event} (h : History env s log) (ho : s.owner ≠ 0) (hp : s.contractPhase ≠ .Ready)
    (hn : .RandomReady 0 [] ∉ log) :
    ∃ s', History env s' (log ++ [.RandomReady 0 []]) ∧ s'.contractPhase ≠ .Ready := by
  have hl := logInv hk h
  have hr := h.reachable
  have hopen : ¬ Completed s 0 := fun hc => hn ((hl.ready 0 []).2 ⟨hc, by simp⟩)
  obtain ⟨pr, s', he, h1, h2, _⟩ := C37_violation_round_zero env hr hp hopen
    (hk _ (by rw [List.length_append, length_wordBytes]))
  refine ⟨s', ?_, h2⟩
  have := History.step (.call ⟨s.owner, 0⟩ (.submitRandom pr)) ho h
  have e1 : step env s (.call ⟨s.owner, 0⟩ (.submitRandom pr)) = s' :=
    congrArg (Option.getD · _) he
  have hc0 : s'.currentRoundNum = 0 := ((dkgInv (hr.call (m := ⟨s.owner, 0⟩) ho he)).pre h2).2.2
  have hin := (roundInv (hr.call (m := ⟨s.owner, 0⟩) ho he)).input 0
  rw [if_neg (by omega)] at hin
  have e2 : txEvents env s (.call ⟨s.owner, 0⟩ (.submitRandom pr)) = [.RandomReady 0 []] := by
    unfold txEvents
    dsimp only
    rw [he]
    change [Event.RandomReady s'.currentRoundNum (s'.roundInput s'.currentRoundNum)] = _
    rw [hc0, hin]
  rw [e1, e2] at this
  exact this

/-- C66. The contract with precomputed hashes, with a positive threshold: the same, and without the
exception: no event is stray, and a random is announced only after the quorum of its round. -/
theorem C66_pre (env : Env) (hk : ∀ b, b.length = 64 → env.keccak b ≠ 0) {p : ZkdvrfPre.State}
    {log : List Event} (h : ZkdvrfPre.History env p log) (ht : 1 ≤ p.threshold) :
    log.Pairwise (fun e e' => e.place < e'.place) ∧
    (∀ c, .RegistrationCompleted c ∈ log ↔
      c = p.memberCount ∧ p.registeredCount = p.memberCount ∧ 0 < p.memberCount) ∧
    (.NidkgStarted ∈ log ↔ p.contractPhase ≠ .Unregistered ∧ p.contractPhase ≠ .Registered) ∧
    (∀ c, .NidkgCompleted c ∈ log ↔ c = p.memberCount ∧
      (p.contractPhase = .NidkgComplete ∨ p.contractPhase = .Ready)) ∧
    (.GlobalPublicParamsCreated ∈ log ↔ p.contractPhase = .Ready) ∧
    (∀ k x, .RandomInitiated k x ∈ log ↔
      1 ≤ k ∧ k ≤ p.currentRoundNum ∧ x = strBytes "zkRand-v1-2024:" ++ decimal k) ∧
    (∀ k x, .RandomThresholdReached k x ∈ log ↔
      p.threshold ≤ Nat.card {i : ℕ // i < p.memberCount ∧ ZkdvrfPre.Submitted p k i} ∧
      x = strBytes "zkRand-v1-2024:" ++ decimal k) ∧
    (∀ k x, .RandomReady k x ∈ log ↔
      ZkdvrfPre.Completed p k ∧ x = strBytes "zkRand-v1-2024:" ++ decimal k) ∧
    (∀ k x, .RandomReady k x ∈ log → ∃ a b, log = a ++ .RandomReady k x :: b ∧
      .RandomThresholdReached k x ∈ a) := by
  obtain ⟨hx, o1, o2, hz⟩ := ZkdvrfPre.sim_history h ht
  have hl := logInv hk hz
  obtain ⟨g1, g2, g3, g4, g5, g6, g7⟩ := C66_log env hk hz
  have hq := ZkdvrfPre.quorum h.reachable ht
  have hns : ∀ e ∈ log, ¬ e.Stray := by
    intro e he hs
    cases e with
    | RandomReady k x =>
      cases k with
      | zero =>
        have := (hq 0 ((hl.ready 0 x).1 he).1).1
        omega
      | succ k => exact hs
    | _ => exact hs
  have hready : ∀ k x, .RandomReady k x ∈ log ↔
      ZkdvrfPre.Completed p k ∧ x = strBytes "zkRand-v1-2024:" ++ decimal k := by
    intro k x
    rw [g7]
    constructor
    · rintro ⟨h1, h2⟩
      have := (hq k h1).1
      rw [if_neg (by omega)] at h2
      exact ⟨h1, h2⟩
    · rintro ⟨h1, h2⟩
      have := (hq k h1).1
      rw [if_neg (by omega)]
      exact ⟨h1, h2⟩
  refine ⟨?_, g1, ?_, ?_, ?_, g5, ?_, hready, ?_⟩
  · refine List.Pairwise.imp_of_mem ?_ hl.ordered
    rintro a b ha hb (⟨_, _, h⟩ | ⟨h, _⟩ | ⟨_, h, _⟩)
    · exact h
    · exact absurd h (hns a ha)
    · exact absurd h (hns b hb)
  · rw [g2]
    change p.contractPhase.toZk ≠ _ ↔ _
    cases p.contractPhase <;> simp [ZkdvrfPre.Phase.toZk]
  · intro c
    rw [g3]
    change _ ∧ (p.contractPhase.toZk = _ ∨ p.contractPhase.toZk = _) ↔ _
    rw [ZkdvrfPre.toZk_complete, ZkdvrfPre.toZk_ready]
    rfl
  · rw [g4]
    exact ZkdvrfPre.toZk_ready
  · intro k x
    rw [g6]
    exact ⟨fun h => h.2, fun h => ⟨ht, h⟩⟩
  · intro k x he
    obtain ⟨h1, h2⟩ := (hready k x).1 he
    obtain ⟨h3, h4⟩ := hq k h1
    obtain ⟨n, rfl⟩ : ∃ n, k = n + 1 := ⟨k - 1, by omega⟩
    refine precedes hl.ordered ((hl.thr _ x).2 ⟨ht, h4, h2⟩) he Event.noConfusion ?_
    rintro (⟨_, _, h⟩ | ⟨h, _⟩ | ⟨_, h, _⟩)
    · simp [Event.place] at h
    · exact h
    · exact h

/-- The hypotheses of C66 are met by a history through a whole round, whose log is as expected. -/
theorem toy_log : ∃ s log, History (toyEnv 1 2) s log ∧
    .RegistrationCompleted 2 ∈ log ∧ .NidkgStarted ∈ log ∧ .NidkgCompleted 2 ∈ log ∧
    .GlobalPublicParamsCreated ∈ log ∧
    .RandomInitiated 1 (strBytes "zkRand-v1-2024:1") ∈ log ∧
    .RandomReady 1 (strBytes "zkRand-v1-2024:1") ∈ log ∧ 6 ≤ log.length := by
  obtain ⟨s, h1, h2, h3, h4, h5, h6, h7, h8⟩ := toy_done
  obtain ⟨log, hh⟩ := h1.history
  obtain ⟨g1, g2, g3, g4, g5, g6, g7⟩ := C66_log (toyEnv 1 2)
    (fun _ _ => by change (1 : Word) ≠ 0; decide) hh
  have hrc := (regInv h1).started (by rw [h2]; exact Phase.noConfusion)
  have a1 := (g1 2).2 ⟨h3.symm, hrc, by omega⟩
  have a2 := g2.2 (by rw [h2]; exact Phase.noConfusion)
  have a3 := (g3 2).2 ⟨h3.symm, Or.inr h2⟩
  have a4 := g4.2 h2
  have hd : strBytes "zkRand-v1-2024:" ++ decimal 1 = strBytes "zkRand-v1-2024:1" := by
    rw [show decimal 1 = [49] by unfold decimal; rfl]; decide
  have a5 := (g5 1 _).2 ⟨le_rfl, by omega, hd.symm⟩
  have a6 := (g7 1 _).2 ⟨h7, by rw [if_neg (by omega), hd]⟩
  refine ⟨s, log, hh, a1, a2, a3, a4, a5, a6, ?_⟩
  have hnd := (C66_order (toyEnv 1 2) (fun _ _ => by change (1 : Word) ≠ 0; decide) hh).2
  have hsub : [Event.RegistrationCompleted 2, .NidkgStarted, .NidkgCompleted 2,
      .GlobalPublicParamsCreated, .RandomInitiated 1 (strBytes "zkRand-v1-2024:1"),
      .RandomReady 1 (strBytes "zkRand-v1-2024:1")] ⊆ log := by
    intro e he
    simp only [List.mem_cons, List.not_mem_nil, or_false] at he
    rcases he with rfl | rfl | rfl | rfl | rfl | rfl <;> assumption
  have := (List.subperm_of_subset (by simp) hsub).length_le
  exact this

/-- A history of the contract with precomputed hashes through the setup. -/
example : ∃ p log, ZkdvrfPre.History (toyEnv 1 2) p log ∧ 1 ≤ p.threshold ∧
    .GlobalPublicParamsCreated ∈ log := by
  obtain ⟨p, h1, h2, h3, h4, _⟩ := toy_pre_ready
  obtain ⟨log, hh⟩ := h1.history
  have ht : 1 ≤ p.threshold := by omega
  exact ⟨p, log, hh, ht, (C66_pre (toyEnv 1 2) (fun _ _ => by change (1 : Word) ≠ 0; decide) hh
    ht).2.2.2.2.1.2 h2⟩

/-- In that log the round is announced after the public parameters, and before its random, which can be read
ever after. -/
example : ∃ s log, History (toyEnv 1 2) s log ∧
    (∃ a b, log = a ++ .RandomReady 1 (strBytes "zkRand-v1-2024:1") :: b ∧
      .RandomInitiated 1 (strBytes "zkRand-v1-2024:1") ∈ a) ∧
    (∃ a b, log = a ++ .RandomInitiated 1 (strBytes "zkRand-v1-2024:1") :: b ∧ .GlobalPublicParamsCreated ∈ a) ∧
    ∃ rnd, ∀ s', Later (toyEnv 1 2) s s' → getRandomAtRound s' 1 = some rnd := by
  obtain ⟨s, log, hh, a1, a2, a3, a4, a5, a6, _⟩ := toy_log
  obtain ⟨_, c2, c3, _⟩ := C66_causes (toyEnv 1 2) (fun _ _ => by change (1 : Word) ≠ 0; decide) hh 1
    (strBytes "zkRand-v1-2024:1")
  obtain ⟨rnd, h, _⟩ := C66_ready (toyEnv 1 2) (fun _ _ => by change (1 : Word) ≠ 0; decide) hh 1 _ a6
  obtain ⟨a, b, h1, h2, _⟩ := c3 a5
  exact ⟨s, log, hh, c2 le_rfl a6, ⟨a, b, h1, h2⟩, rnd, h⟩

/-- The owner 7 of a fresh contract can make it announce a random for round 0. -/
example : ∃ s', History (toyEnv 1 2) s' [.RandomReady 0 []] ∧ s'.contractPhase ≠ .Ready := by
  have hc : Zkdvrf.constructor ⟨7, 0⟩ 1 2 true true true 5 = some _ :=
    constructor_some.2 ⟨rfl, by decide, rfl, by norm_num, by norm_num, by norm_num, by norm_num, rfl⟩
  exact C66_stray (toyEnv 1 2) (fun _ _ => by change (1 : Word) ≠ 0; decide)
    (History.deploy (m := ⟨7, 0⟩) (by decide) hc) (by change (7 : Address) ≠ 0; decide)
    (fun h => by cases h) List.not_mem_nil

/-- A contract with threshold 3 and two members never announces that a threshold is reached. -/
example : ∃ s, History (toyEnv 3 2) s [] ∧ s.threshold = 3 ∧ s.memberCount = 2 ∧
    ∀ s' log, History (toyEnv 3 2) s' log → s'.threshold = 3 → s'.memberCount = 2 →
      ∀ k x, .RandomThresholdReached k x ∉ log := by
  have hc : Zkdvrf.constructor ⟨7, 0⟩ 3 2 true true true 5 = some _ :=
    constructor_some.2 ⟨rfl, by decide, rfl, by norm_num, by norm_num, by norm_num, by norm_num, rfl⟩
  refine ⟨_, History.deploy (m := ⟨7, 0⟩) (by decide) hc, rfl, rfl, fun s' log h h1 h2 => ?_⟩
  exact (C66_never (toyEnv 3 2) (fun _ _ => by change (1 : Word) ≠ 0; decide) h).2 (Or.inr (by omega))

end Verif.Props
