import Verif.Spec.Events
import Verif.Lemmas.ZkdvrfMono
import Verif.Lemmas.Bytes

/-! The event log of contracts/zkdvrf.sol against its state. -/

namespace Verif.Zkdvrf

theorem History.reachable {env : Env} {s : State} {log : List Event} (h : History env s log) :
    Reachable env s := by
  induction h with
  | deploy hm h => exact .deploy hm h
  | step tx hv _ ih => exact .step tx hv ih

theorem Reachable.history {env : Env} {s : State} (h : Reachable env s) :
    ∃ log, History env s log := by
  induction h with
  | deploy hm h => exact ⟨[], .deploy hm h⟩
  | step tx hv _ ih => obtain ⟨log, h⟩ := ih; exact ⟨_, .step tx hv h⟩

/-- Induction over histories with logs. -/
theorem hist_induct {env : Env} (P : State → List Event → Prop)
    (hd : ∀ m t n a b c d s, m.sender ≠ 0 → constructor m t n a b c d = some s → P s [])
    (hs : ∀ s log m c s', History env s log → P s log → m.sender ≠ 0 → exec env s m c = some s' →
      P s' (log ++ emits s' c))
    (hf : ∀ s log a, P s log → P { s with balance := s.balance + a } log) {s : State}
    {log : List Event} (h : History env s log) : P s log := by
  induction h with
  | deploy hm h => exact hd _ _ _ _ _ _ _ _ hm h
  | @step s log tx hv h ih =>
    cases tx with
    | forceEther a =>
      have : txEvents env s (.forceEther a) = [] := rfl
      rw [this, List.append_nil]
      exact hf _ _ _ ih
    | call m c =>
      unfold step txEvents
      dsimp only
      cases he : exec env s m c with
      | none => dsimp only; rw [List.append_nil]; exact ih
      | some s' => exact hs _ _ _ _ _ h ih hv he

/-- What the log says about the state and conversely. -/
structure LogInv (s : State) (log : List Event) : Prop where
  reg : ∀ c, .RegistrationCompleted c ∈ log ↔
    c = s.memberCount ∧ s.registeredCount = s.memberCount ∧ 0 < s.memberCount
  started : .NidkgStarted ∈ log ↔ 1 ≤ s.contractPhase.rank
  completed : ∀ c, .NidkgCompleted c ∈ log ↔ c = s.memberCount ∧ 2 ≤ s.contractPhase.rank
  gpp : .GlobalPublicParamsCreated ∈ log ↔ 3 ≤ s.contractPhase.rank
  init : ∀ k x, .RandomInitiated k x ∈ log ↔
    1 ≤ k ∧ k ≤ s.currentRoundNum ∧ x = inputPrefix ++ decimal k
  thr : ∀ k x, .RandomThresholdReached k x ∈ log ↔
    1 ≤ s.threshold ∧ s.threshold ≤ s.roundSubmissionCount k ∧ x = inputPrefix ++ decimal k
  ready : ∀ k x, .RandomReady k x ∈ log ↔
    Completed s k ∧ x = if k = 0 then [] else inputPrefix ++ decimal k
  ordered : log.Pairwise Event.MayPrecede

theorem eval_opened {env : Env} {s : State} (hr : Reachable env s) {k : ℕ}
    (h : 0 < s.roundSubmissionCount k) : 1 ≤ k ∧ k ≤ s.currentRoundNum := by
  rw [(evalInv hr).count k] at h
  obtain ⟨i, hi⟩ := Finset.card_pos.1 h
  exact ((evalInv hr).stored k i (Finset.mem_filter.1 hi).2).1

theorem completed_le {env : Env} {s : State} (hr : Reachable env s) {k : ℕ}
    (h : Completed s k) : k ≤ s.currentRoundNum := by
  by_contra hgt
  unfold Completed at h
  rw [(roundInv hr).future k (by omega)] at h
  exact h rfl

theorem round_rank {env : Env} {s : State} (hr : Reachable env s) (h : 1 ≤ s.currentRoundNum) :
    s.contractPhase = .Ready := by
  by_contra hne
  have := ((dkgInv hr).pre hne).2.2
  omega

/-- Where the events of a log are. -/
theorem LogInv.bound {env : Env} {s : State} {log : List Event} (h : LogInv s log)
    (hr : Reachable env s) (e : Event) (he : e ∈ log) :
    e.Stray ∨ (¬ e.Stray ∧ e.place = 0 ∧ s.registeredCount = s.memberCount) ∨
    (¬ e.Stray ∧ 1 ≤ e.place ∧ e.place ≤ 3 ∧ e.place ≤ s.contractPhase.rank) ∨
    (¬ e.Stray ∧ ∃ k, 1 ≤ k ∧ k ≤ s.currentRoundNum ∧ (e.place = 3 * k + 1 ∨
      (e.place = 3 * k + 2 ∧ 1 ≤ s.threshold ∧ s.threshold ≤ s.roundSubmissionCount k) ∨
      (e.place = 3 * k + 3 ∧ Completed s k))) := by
  cases e with
  | RegistrationCompleted c => exact Or.inr (Or.inl ⟨id, rfl, ((h.reg c).1 he).2.1⟩)
  | NidkgStarted => exact Or.inr (Or.inr (Or.inl ⟨id, le_rfl, by simp [Event.place], h.started.1 he⟩))
  | NidkgCompleted c =>
    exact Or.inr (Or.inr (Or.inl ⟨id, by simp [Event.place], by simp [Event.place],
      ((h.completed c).1 he).2⟩))
  | GlobalPublicParamsCreated =>
    exact Or.inr (Or.inr (Or.inl ⟨id, by simp [Event.place], by simp [Event.place], h.gpp.1 he⟩))
  | RandomInitiated k x =>
    obtain ⟨h1, h2, _⟩ := (h.init k x).1 he
    exact Or.inr (Or.inr (Or.inr ⟨id, k, h1, h2, Or.inl rfl⟩))
  | RandomThresholdReached k x =>
    obtain ⟨h1, h2, _⟩ := (h.thr k x).1 he
    obtain ⟨h3, h4⟩ := eval_opened hr (k := k) (by omega)
    exact Or.inr (Or.inr (Or.inr ⟨id, k, h3, h4, Or.inr (Or.inl ⟨rfl, h1, h2⟩)⟩))
  | RandomReady k x =>
    obtain ⟨h1, _⟩ := (h.ready k x).1 he
    cases k with
    | zero => exact Or.inl trivial
    | succ k =>
      exact Or.inr (Or.inr (Or.inr ⟨id, k + 1, by omega, completed_le hr h1,
        Or.inr (Or.inr ⟨rfl, h1⟩)⟩))

/-- Adding an event at the end. -/
theorem ordered_snoc {log : List Event} (h : log.Pairwise Event.MayPrecede) (e' : Event)
    (hn : ¬ e'.Stray) (hb : ∀ e ∈ log, e.Stray ∨ (¬ e.Stray ∧ e.place < e'.place)) :
    (log ++ [e']).Pairwise Event.MayPrecede := by
  rw [List.pairwise_append]
  refine ⟨h, List.pairwise_singleton _ _, ?_⟩
  intro a ha b hb'
  rw [List.mem_singleton.1 hb']
  rcases hb a ha with h1 | ⟨h1, h2⟩
  · exact Or.inr (Or.inl ⟨h1, hn⟩)
  · exact Or.inl ⟨h1, hn, h2⟩

/-- Events that leave the log alone. -/
theorem LogInv.silent {s s' : State} {log : List Event} (h : LogInv s log)
    (h1 : s'.memberCount = s.memberCount)
    (h2 : s'.registeredCount = s'.memberCount ↔ s.registeredCount = s.memberCount)
    (h3 : s'.contractPhase = s.contractPhase) (h4 : s'.currentRoundNum = s.currentRoundNum)
    (h5 : s'.threshold = s.threshold)
    (h6 : ∀ k, 1 ≤ s.threshold →
      (s.threshold ≤ s'.roundSubmissionCount k ↔ s.threshold ≤ s.roundSubmissionCount k))
    (h7 : s'.roundToRandom = s.roundToRandom) : LogInv s' log where
  reg c := by rw [h.reg, h2, h1]
  started := by rw [h3]; exact h.started
  completed c := by rw [h1, h3]; exact h.completed c
  gpp := by rw [h3]; exact h.gpp
  init k x := by rw [h4]; exact h.init k x
  thr k x := by
    rw [h5, h.thr]
    constructor
    · rintro ⟨a, b, c⟩; exact ⟨a, (h6 k a).2 b, c⟩
    · rintro ⟨a, b, c⟩; exact ⟨a, (h6 k a).1 b, c⟩
  ready k x := by rw [h.ready]; unfold Completed; rw [h7]
  ordered := h.ordered

theorem logInv {env : Env} (hk : ∀ b, b.length = 64 → env.keccak b ≠ 0) {s : State}
    {log : List Event} (h : History env s log) : LogInv s log := by
  refine hist_induct LogInv ?_ ?_ ?_ h
  · intro m t n a b c d s hm hc
    rw [constructor_some] at hc
    obtain ⟨_, _, _, _, _, _, hb, rfl⟩ := hc
    exact {
      reg := by intro c; simp; omega
      started := by simp [Phase.rank]
      completed := by simp [Phase.rank]
      gpp := by simp [Phase.rank]
      init := by intro k x; simp; omega
      thr := by intro k x; simp; omega
      ready := by intro k x; simp [Completed, SolRandom.empty]
      ordered := List.Pairwise.nil }
  · intro s log m c s' hh ih hm he
    have hr := hh.reachable
    have hreg := regInv hr
    have hb := ih.bound hr
    cases c with
    | addPermissionedNodes a =>
      obtain ⟨_, _, _, _, _, _, rfl⟩ := addPermissionedNodes_some.1 he
      simp only [emits, List.append_nil]
      exact ih.silent rfl (by simp) rfl rfl rfl (fun _ _ => Iff.rfl) rfl
    | registerNode pk =>
      have hle := (regInv (hr.call hm he)).reg_card
      have hle2 := (regInv (hr.call hm he)).idx_le
      obtain ⟨h1, h2, h3, h4, h5, h6, h7, rfl⟩ := registerNode_some.1 he
      simp only at hle hle2
      have hnot : s.registeredCount ≠ s.memberCount := by omega
      simp only [emits]
      split
      case isFalse hc =>
        rw [List.append_nil]
        exact ih.silent rfl (by simp [hc, hnot]) rfl rfl rfl (fun _ _ => Iff.rfl) rfl
      case isTrue hc =>
        exact {
          reg := by
            intro c
            rw [List.mem_append, ih.reg, List.mem_singleton, Event.RegistrationCompleted.injEq]
            simp only [hc, hnot]
            constructor
            · rintro (⟨_, h, _⟩ | h)
              · exact h.elim
              · exact ⟨h, trivial, by omega⟩
            · rintro ⟨h, _⟩; exact Or.inr h
          started := by simpa using ih.started
          completed := by simpa using ih.completed
          gpp := by simpa using ih.gpp
          init := by simpa using ih.init
          thr := by simpa using ih.thr
          ready := by simpa [Completed] using ih.ready
          ordered := by
            apply ordered_snoc ih.ordered _ id
            intro e he'
            rcases hb e he' with h | ⟨_, _, h⟩ | ⟨_, h8, _, h9⟩ | ⟨_, k, h8, h9, _⟩
            · exact Or.inl h
            · exact absurd h hnot
            · rw [h1, Phase.rank] at h9; omega
            · rw [round_rank hr (by omega)] at h1; cases h1 }
    | startNidkg =>
      obtain ⟨_, _, h3, h4, rfl⟩ := startNidkg_some.1 he
      have i2 := ih.started
      have i3 := ih.completed
      have i4 := ih.gpp
      rw [h3] at i2 i3 i4
      exact {
        reg := by simpa [emits] using ih.reg
        started := by simp [emits, Phase.rank]
        completed := by simpa [emits, Phase.rank] using i3
        gpp := by simpa [emits, Phase.rank] using i4
        init := by simpa [emits] using ih.init
        thr := by simpa [emits] using ih.thr
        ready := by simpa [emits, Completed] using ih.ready
        ordered := by
          apply ordered_snoc ih.ordered _ id
          intro e he'
          rcases hb e he' with h | ⟨h, h8, _⟩ | ⟨_, h8, _, h9⟩ | ⟨_, k, h8, h9, _⟩
          · exact Or.inl h
          · exact Or.inr ⟨h, by rw [h8]; exact Nat.one_pos⟩
          · rw [h3, Phase.rank] at h9; omega
          · rw [round_rank hr (by omega)] at h3; cases h3 }
    | submitPublicParams pp pr =>
      obtain ⟨_, h2, h3, h4, h5, h6, h7, rfl⟩ := submitPublicParams_some.1 he
      have i2 := ih.started
      have i3 := ih.completed
      have i4 := ih.gpp
      rw [h3] at i2 i3 i4
      simp only [emits]
      split
      case isFalse hc =>
        rw [List.append_nil]
        exact ih.silent rfl (by simp) rfl rfl rfl (fun _ _ => Iff.rfl) rfl
      case isTrue hc =>
        exact {
          reg := by simpa using ih.reg
          started := by simpa [Phase.rank] using i2
          completed := by
            intro c
            rw [List.mem_append, i3, List.mem_singleton, Event.NidkgCompleted.injEq]
            simp only [Phase.rank, hc]
            constructor
            · rintro (⟨_, h⟩ | h)
              · omega
              · exact ⟨h, by simp⟩
            · rintro ⟨h, _⟩; exact Or.inr h
          gpp := by simpa [Phase.rank] using i4
          init := by simpa using ih.init
          thr := by simpa using ih.thr
          ready := by simpa [Completed] using ih.ready
          ordered := by
            apply ordered_snoc ih.ordered _ id
            intro e he'
            rcases hb e he' with h | ⟨h, h8, _⟩ | ⟨h, h8, _, h9⟩ | ⟨_, k, h8, h9, _⟩
            · exact Or.inl h
            · exact Or.inr ⟨h, by rw [h8]; exact Nat.two_pos⟩
            · rw [h3, Phase.rank] at h9
              exact Or.inr ⟨h, by change e.place < 2; omega⟩
            · rw [round_rank hr (by omega)] at h3; cases h3 }
    | computeVk gpk =>
      obtain ⟨_, h3, out, _, rfl⟩ := computeVk_some.1 he
      have i2 := ih.started
      have i3 := ih.completed
      have i4 := ih.gpp
      rw [h3] at i2 i3 i4
      exact {
        reg := by simpa [emits] using ih.reg
        started := by simpa [emits, Phase.rank] using i2
        completed := by simpa [emits, Phase.rank] using i3
        gpp := by simp [emits, Phase.rank]
        init := by simpa [emits] using ih.init
        thr := by simpa [emits] using ih.thr
        ready := by simpa [emits, Completed] using ih.ready
        ordered := by
          apply ordered_snoc ih.ordered _ id
          intro e he'
          rcases hb e he' with h | ⟨h, h8, _⟩ | ⟨h, h8, _, h9⟩ | ⟨_, k, h8, h9, _⟩
          · exact Or.inl h
          · exact Or.inr ⟨h, by rw [h8]; exact (by decide : 0 < 3)⟩
          · rw [h3, Phase.rank] at h9
            exact Or.inr ⟨h, by change e.place < 3; omega⟩
          · rw [round_rank hr (by omega)] at h3; cases h3 }
    | initiateRandom =>
      obtain ⟨_, _, h3, h4, h5, rfl⟩ := initiateRandom_some.1 he
      simp only [emits, Function.update_self]
      exact {
        reg := by simpa using ih.reg
        started := by simpa using ih.started
        completed := by simpa using ih.completed
        gpp := by simpa using ih.gpp
        init := by
          intro k x
          rw [List.mem_append, ih.init, List.mem_singleton, Event.RandomInitiated.injEq]
          constructor
          · rintro (⟨a, b, c⟩ | ⟨rfl, rfl⟩)
            · exact ⟨a, by simp only; omega, c⟩
            · exact ⟨by omega, le_rfl, rfl⟩
          · rintro ⟨a, b, c⟩
            simp only at b
            by_cases hk' : k = s.currentRoundNum + 1
            · exact Or.inr ⟨hk', by rw [c, hk']⟩
            · exact Or.inl ⟨a, by omega, c⟩
        thr := by simpa using ih.thr
        ready := by simpa [Completed] using ih.ready
        ordered := by
          apply ordered_snoc ih.ordered _ id
          intro e he'
          have : (Event.RandomInitiated (s.currentRoundNum + 1)
            (inputPrefix ++ decimal (s.currentRoundNum + 1))).place =
              3 * (s.currentRoundNum + 1) + 1 := rfl
          rw [this]
          rcases hb e he' with h | ⟨h, h8, _⟩ | ⟨h, h8, h9, _⟩ | ⟨h, k, h8, h9, h10⟩
          · exact Or.inl h
          · exact Or.inr ⟨h, by omega⟩
          · exact Or.inr ⟨h, by omega⟩
          · refine Or.inr ⟨h, ?_⟩
            rcases h10 with h10 | ⟨h10, _⟩ | ⟨h10, _⟩ <;> omega }
    | submitPartialEval pe =>
      obtain ⟨_, h2, h3, h4, h5, h6, h7, h8, rfl⟩ := submitPartialEval_some.1 he
      have hin := (roundInv hr).input s.currentRoundNum
      rw [if_pos ⟨by omega, le_rfl⟩] at hin
      simp only [emits, Function.update_self, hin]
      split
      case isFalse hc =>
        rw [List.append_nil]
        refine ih.silent rfl (by simp) rfl rfl rfl ?_ rfl
        intro k hk'
        by_cases hkk : k = s.currentRoundNum
        · subst hkk
          simp only [Function.update_self]
          omega
        · simp only [Function.update_of_ne hkk]
      case isTrue hc =>
        exact {
          reg := by simpa using ih.reg
          started := by simpa using ih.started
          completed := by simpa using ih.completed
          gpp := by simpa using ih.gpp
          init := by simpa using ih.init
          thr := by
            intro k x
            rw [List.mem_append, ih.thr, List.mem_singleton, Event.RandomThresholdReached.injEq]
            by_cases hkk : k = s.currentRoundNum
            · subst hkk
              simp only [Function.update_self]
              constructor
              · rintro (⟨a, b, c⟩ | ⟨_, c⟩)
                · omega
                · exact ⟨by omega, by omega, c⟩
              · rintro ⟨_, _, c⟩; exact Or.inr ⟨trivial, c⟩
            · simp only [Function.update_of_ne hkk]
              constructor
              · rintro (h | ⟨h, _⟩)
                · exact h
                · exact absurd h hkk
              · exact Or.inl
          ready := by simpa [Completed] using ih.ready
          ordered := by
            apply ordered_snoc ih.ordered _ id
            intro e he'
            have : (Event.RandomThresholdReached s.currentRoundNum
              (inputPrefix ++ decimal s.currentRoundNum)).place = 3 * s.currentRoundNum + 2 := rfl
            rw [this]
            rcases hb e he' with h | ⟨h, h8, _⟩ | ⟨h, h8, h9, _⟩ | ⟨h, k, h8, h9, h10⟩
            · exact Or.inl h
            · exact Or.inr ⟨h, by omega⟩
            · exact Or.inr ⟨h, by omega⟩
            · refine Or.inr ⟨h, ?_⟩
              rcases h10 with h10 | ⟨h10, h11, h12⟩ | ⟨h10, h11⟩
              · omega
              · by_cases hkk : k = s.currentRoundNum
                · subst hkk; omega
                · omega
              · by_cases hkk : k = s.currentRoundNum
                · subst hkk; exact absurd h3 h11
                · omega }
    | submitRandom pr =>
      obtain ⟨_, _, h3, h4, h5, rfl⟩ := submitRandom_some.1 he
      have hne : pr.value ≠ 0 := by
        rw [h5]
        exact hk _ (by rw [List.length_append, length_wordBytes, length_wordBytes])
      have hin := (roundInv hr).input s.currentRoundNum
      have hin' : s.roundInput s.currentRoundNum = if s.currentRoundNum = 0 then [] else
          inputPrefix ++ decimal s.currentRoundNum := by
        rw [hin]
        by_cases h0 : s.currentRoundNum = 0
        · rw [if_neg (by omega), if_pos h0]
        · rw [if_pos ⟨by omega, le_rfl⟩, if_neg h0]
      simp only [emits]
      exact {
        reg := by simpa using ih.reg
        started := by simpa using ih.started
        completed := by simpa using ih.completed
        gpp := by simpa using ih.gpp
        init := by simpa using ih.init
        thr := by simpa using ih.thr
        ready := by
          intro k x
          rw [List.mem_append, ih.ready, List.mem_singleton, Event.RandomReady.injEq]
          unfold Completed
          by_cases hkk : k = s.currentRoundNum
          · subst hkk
            simp only [Function.update_self]
            constructor
            · rintro (⟨a, b⟩ | ⟨_, c⟩)
              · exact absurd h3 a
              · exact ⟨hne, by rw [c, hin']⟩
            · rintro ⟨_, c⟩; exact Or.inr ⟨trivial, by rw [c, hin']⟩
          · simp only [Function.update_of_ne hkk]
            constructor
            · rintro (h | ⟨h, _⟩)
              · exact h
              · exact absurd h hkk
            · exact Or.inl
        ordered := by
          have hpl : (Event.RandomReady s.currentRoundNum (s.roundInput s.currentRoundNum)).place =
            3 * s.currentRoundNum + 3 := rfl
          by_cases h0 : s.currentRoundNum = 0
          · have hst : (Event.RandomReady s.currentRoundNum
                (s.roundInput s.currentRoundNum)).Stray := by rw [h0]; exact trivial
            rw [List.pairwise_append]
            refine ⟨ih.ordered, List.pairwise_singleton _ _, ?_⟩
            intro e he' b hb'
            rw [List.mem_singleton.1 hb']
            rcases hb e he' with h | ⟨h, h8, _⟩ | ⟨h, h8, h9, _⟩ | ⟨h, k, h8, h9, h10⟩
            · exfalso
              cases e with
              | RandomReady k x =>
                cases k with
                | zero =>
                  have := ((ih.ready 0 x).1 he').1
                  rw [h0] at h3
                  exact this h3
                | succ k => exact h
              | _ => exact h
            · exact Or.inr (Or.inr ⟨h, hst, by omega⟩)
            · exact Or.inr (Or.inr ⟨h, hst, by omega⟩)
            · omega
          · obtain ⟨n, hn⟩ : ∃ n, s.currentRoundNum = n + 1 := ⟨s.currentRoundNum - 1, by omega⟩
            have hst : ¬ (Event.RandomReady s.currentRoundNum
                (s.roundInput s.currentRoundNum)).Stray := by rw [hn]; exact id
            apply ordered_snoc ih.ordered _ hst
            intro e he'
            rw [hpl]
            rcases hb e he' with h | ⟨h, h8, _⟩ | ⟨h, h8, h9, _⟩ | ⟨h, k, h8, h9, h10⟩
            · exact Or.inl h
            · exact Or.inr ⟨h, by omega⟩
            · exact Or.inr ⟨h, by omega⟩
            · refine Or.inr ⟨h, ?_⟩
              rcases h10 with h10 | ⟨h10, h11, h12⟩ | ⟨h10, h11⟩
              · omega
              · omega
              · by_cases hkk : k = s.currentRoundNum
                · subst hkk; exact absurd h3 h11
                · omega }
    | transferOwnership a =>
      obtain ⟨_, _, _, rfl⟩ := transferOwnership_some.1 he
      simp only [emits, List.append_nil]
      exact ih.silent rfl (by simp) rfl rfl rfl (fun _ _ => Iff.rfl) rfl
    | renounceOwnership =>
      obtain ⟨_, _, rfl⟩ := renounceOwnership_some.1 he
      simp only [emits, List.append_nil]
      exact ih.silent rfl (by simp) rfl rfl rfl (fun _ _ => Iff.rfl) rfl
  · intro s log a ih
    exact ih.silent rfl (by simp) rfl rfl rfl (fun _ _ => Iff.rfl) rfl

end Verif.Zkdvrf
