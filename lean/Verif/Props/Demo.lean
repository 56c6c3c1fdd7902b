import Verif.Model.Demo
import Verif.Props.Events
import Verif.Props.ServicesLive
import Verif.Props.Lottery

/-! C67, C68: the event handlers of the demo scripts. -/

namespace Verif.Props
open Verif ZkdvrfPre Services
open Verif.Zkdvrf (Event Call)

/-- A successful call extends the history by its events. -/
theorem history_call {env : Env} {p p' : ZkdvrfPre.State} {log : List Event} {m : Msg} {c : Call}
    (h : ZkdvrfPre.History env p log) (hm : m.sender ≠ 0) (he : exec env p m c = some p') :
    ZkdvrfPre.History env p' (log ++ ZkdvrfPre.emits p' c) := by
  have := ZkdvrfPre.History.step (.call m c) hm h
  have e1 : step env p (.call m c) = p' := congrArg (Option.getD · _) he
  have e2 : ZkdvrfPre.txEvents env p (.call m c) = ZkdvrfPre.emits p' c := by
    unfold ZkdvrfPre.txEvents
    dsimp only
    rw [he]
  rw [e1, e2] at this
  exact this

private theorem opens (M : Machine) {p : State}
    {log : List Event} (h : ZkdvrfPre.History M.env p log) (ht : 1 ≤ p.threshold)
    (ho : p.owner ≠ 0) (hp : p.contractPhase = .Ready) (hb : p.currentRoundNum + 1 < 2 ^ 256)
    (hd : p.currentRoundNum = 0 ∨ Completed p p.currentRoundNum) :
    ∃ p', exec M.env p ⟨p.owner, 0⟩ .initiateRandom = some p' ∧
      ZkdvrfPre.History M.env p' (log ++ [.RandomInitiated (p.currentRoundNum + 1)
        (strBytes "zkRand-v1-2024:" ++ decimal (p.currentRoundNum + 1))]) := by
  obtain ⟨hx, o1, o2, hz⟩ := sim h.reachable ht
  obtain ⟨s', hs', _⟩ := C41_round_opens M.env (s := p.toZk o1 o2) (toZk_ready.2 hp) hb hd
  have hn : p.memberCount ≠ 0 := by
    intro h0
    have : p.contractPhase.toZk.rank ≤ 1 := zero_members hz h0
    rw [hp] at this
    exact absurd this (by decide)
  obtain ⟨p', o1', o2', he, -⟩ := sim_back hz hx ho hn (Or.inl rfl) hs'
  refine ⟨p', he, ?_⟩
  have hh := history_call h (m := ⟨p.owner, 0⟩) ho he
  obtain ⟨_, _, _, _, _, _, _, rfl⟩ := initiateRandom_some.1 he
  simp only [ZkdvrfPre.emits, Function.update_self] at hh
  exact hh

/-- C67. Every setup event whose successor is missing is followed up: at any time after the event (not
only right after it) and whatever happened since, the transaction that the owner's handler sends is
accepted and emits the successor.
* `RegistrationCompleted` without `NidkgStarted`: `startNidkg`;
* `NidkgCompleted` without `GlobalPublicParamsCreated`: `computeVk`, if the coordinates of all submitted
  points are reduced (see C53), and the files of the handler hold the contract's keys;
* `GlobalPublicParamsCreated` without a first round: `initiateRandom`;
* `RandomReady k` without round `k + 1`: `initiateRandom`, if the user wants it. -/
theorem C67_setup (M : Machine) (hk : ∀ b, b.length = 64 → M.env.keccak b ≠ 0) {p : State}
    {log : List Event} (h : ZkdvrfPre.History M.env p log) (ht : 1 ≤ p.threshold)
    (ho : p.owner ≠ 0) (members : ℕ) (again : Bool) (f : Files) :
    (∀ c, .RegistrationCompleted c ∈ log → .NidkgStarted ∉ log →
      Demo.onEvent M members again p f (.RegistrationCompleted c) = .send f .startNidkg ∧
      ∃ p', exec M.env p ⟨p.owner, 0⟩ .startNidkg = some p' ∧
        ZkdvrfPre.History M.env p' (log ++ [.NidkgStarted])) ∧
    (∀ c, .NidkgCompleted c ∈ log → .GlobalPublicParamsCreated ∉ log →
      Spec.SnarkSound M.env p.threshold p.memberCount →
      (∀ w ∈ p.ppList, Spec.Reduced p.memberCount w) →
      ∃ gf vf gpk p', Client.derive ⟨p.threshold, p.memberCount⟩ (Client.instancesFile p.ppList) none =
          .ok ⟨gf, vf, none⟩ ∧
        Demo.onEvent M members again p f (.NidkgCompleted c) =
          .send { f with gpk := some gf, vks := some vf } (.computeVk gpk) ∧
        exec M.env p ⟨p.owner, 0⟩ (.computeVk gpk) = some p' ∧
        ZkdvrfPre.History M.env p' (log ++ [.GlobalPublicParamsCreated])) ∧
    (.GlobalPublicParamsCreated ∈ log →
      (∀ x, .RandomInitiated 1 x ∉ log) →
      Demo.onEvent M members again p f .GlobalPublicParamsCreated = .send f .initiateRandom ∧
      ∃ p', exec M.env p ⟨p.owner, 0⟩ .initiateRandom = some p' ∧
        ZkdvrfPre.History M.env p' (log ++ [.RandomInitiated 1
          (strBytes "zkRand-v1-2024:" ++ decimal 1)])) ∧
    (∀ k x, .RandomReady k x ∈ log → (∀ y, .RandomInitiated (k + 1) y ∉ log) → k + 1 < 2 ^ 256 →
      Demo.onEvent M members true p f (.RandomReady k x) = .send f .initiateRandom ∧
      Demo.onEvent M members false p f (.RandomReady k x) = .idle ∧
      ∃ p', exec M.env p ⟨p.owner, 0⟩ .initiateRandom = some p' ∧
        ZkdvrfPre.History M.env p' (log ++ [.RandomInitiated (k + 1)
          (strBytes "zkRand-v1-2024:" ++ decimal (k + 1))])) := by
  obtain ⟨hx, o1, o2, hz⟩ := sim h.reachable ht
  obtain ⟨_, g1, g2, g3, g4, g5, g6, g7, _⟩ := C66_pre M.env hk h ht
  refine ⟨?_, ?_, ?_, ?_⟩
  · intro c hc hn
    obtain ⟨-, h1, h2⟩ := (g1 c).1 hc
    refine ⟨rfl, ?_⟩
    have hph : p.contractPhase = .Registered := by
      by_contra hne
      by_cases hu : p.contractPhase = .Unregistered
      · rcases hx.unreg hu with h | h <;> omega
      · exact hn (g2.2 ⟨hu, hne⟩)
    have he : exec M.env p ⟨p.owner, 0⟩ .startNidkg = some _ :=
      startNidkg_some.2 ⟨rfl, rfl, hph, rfl⟩
    exact ⟨_, he, history_call h (m := ⟨p.owner, 0⟩) ho he⟩
  · intro c hc hn hs hred
    have hph : p.contractPhase = .NidkgComplete := by
      rcases ((g3 c).1 hc).2 with h | h
      · exact h
      · exact absurd (g4.2 h) hn
    have hn0 : p.memberCount ≠ 0 := by
      intro h0
      have : p.contractPhase.toZk.rank ≤ 1 := zero_members hz h0
      rw [hph] at this
      exact absurd this (by decide)
    obtain ⟨gf, vf, gpk, q1, q2, q3, q4⟩ := C53_compute_vk M.env hz (toZk_complete.2 hph) hs p.owner
    obtain ⟨s', hs'⟩ := q3.2 hred
    obtain ⟨p', o1', o2', he, -⟩ := sim_back hz hx ho hn0 (Or.inl rfl) hs'
    refine ⟨gf, vf, gpk, p', q1, ?_, he, history_call h (m := ⟨p.owner, 0⟩) ho he⟩
    have q1' : Client.derive (config p) (Client.instancesFile p.ppList) none = .ok ⟨gf, vf, none⟩ := q1
    change Services.createGpp p f = _
    unfold Services.createGpp
    rw [q1']
    dsimp only
    rw [q2]
  · intro hg hn
    have hp := g4.1 hg
    have h0 : p.currentRoundNum = 0 := by
      by_contra hne
      exact hn _ ((g5 1 _).2 ⟨le_rfl, by omega, rfl⟩)
    obtain ⟨p', e1, e2⟩ := opens M h ht ho hp (by rw [h0]; norm_num) (Or.inl h0)
    rw [h0] at e2
    exact ⟨rfl, p', e1, e2⟩
  · intro k x hx' hn hb
    obtain ⟨h1, _⟩ := (g7 k x).1 hx'
    have hle : k ≤ p.currentRoundNum := Zkdvrf.completed_le hz h1
    have h1k := (quorum h.reachable ht k h1).1
    have hcur : p.currentRoundNum = k := by
      by_contra hne
      exact hn _ ((g5 (k + 1) _).2 ⟨by omega, by omega, rfl⟩)
    have hp : p.contractPhase = .Ready := toZk_ready.1 (Zkdvrf.round_rank hz
      (by change 1 ≤ p.currentRoundNum; omega))
    obtain ⟨p', e1, e2⟩ := opens M h ht ho hp (by rw [hcur]; exact hb)
      (Or.inr (by rw [hcur]; exact h1))
    rw [hcur] at e2
    exact ⟨rfl, rfl, p', e1, e2⟩

/-- C67. Every announced quorum is followed up: at any time after `RandomThresholdReached k x`, as long as
`RandomReady k x` is missing, the owner's handler (for the configured members, with the key files of
`C67_setup`) sends a random that the contract accepts and announces, provided the stored evaluations
of the round have reduced responses and the secrets of their keys. -/
theorem C67_random (M : Machine) (hk : ∀ b, b.length = 64 → M.env.keccak b ≠ 0) {p : State}
    {log : List Event} (h : ZkdvrfPre.History M.env p log) (ht : 1 ≤ p.threshold)
    (ho : p.owner ≠ 0) (hs : Spec.SnarkSound M.env p.threshold p.memberCount) (again : Bool)
    (f : Files) {gf : Point2Serde} {vf : List PointSerde}
    (hf : Client.derive ⟨p.threshold, p.memberCount⟩ (Client.instancesFile p.ppList) none =
      .ok ⟨gf, vf, none⟩) (hg : f.gpk = some gf) (hv : f.vks = some vf)
    (k : ℕ) (x : List Byte) (hin : .RandomThresholdReached k x ∈ log)
    (hout : .RandomReady k x ∉ log)
    (hz : ∀ i, Submitted p k i → (p.roundToEval k i).z.toNat < r)
    (hdl : ∀ i, Submitted p k i → ∀ v V,
      decodeG1 (p.roundToEval k i).value = some v → p.vkList[i]? = some (encodeG1 V) →
      Spec.SameLog (evalHash M.env.keccak x) V v) :
    ∃ rnd p', Demo.onEvent M p.memberCount again p f (.RandomThresholdReached k x) =
        .send f (.submitRandom rnd) ∧
      exec M.env p ⟨p.owner, 0⟩ (.submitRandom rnd) = some p' ∧
      ZkdvrfPre.History M.env p' (log ++ [.RandomReady k x]) := by
  obtain ⟨hx, o1, o2, hzk⟩ := sim h.reachable ht
  obtain ⟨_, g1, g2, g3, g4, g5, g6, g7, _⟩ := C66_pre M.env hk h ht
  obtain ⟨h1, h2⟩ := (g6 k x).1 hin
  have hcard := (C35_pre_evaluations M.env h.reachable ht ⟨p.threshold, p.memberCount⟩ rfl k 0).2.1
  rw [← hcard] at h1
  obtain ⟨h3, h4⟩ := Zkdvrf.eval_opened hzk (k := k) (by
    change 0 < p.roundSubmissionCount k; omega)
  have hnc : ¬ Completed p k := fun hc => hout ((g7 k x).2 ⟨hc, h2⟩)
  have hcur : k = p.currentRoundNum := by
    by_contra hne
    exact hnc ((Zkdvrf.roundInv hzk).done k h3 (by
      change k < p.currentRoundNum
      have : k ≤ p.currentRoundNum := h4
      omega))
  have hp : p.contractPhase = .Ready := toZk_ready.1 (Zkdvrf.round_rank hzk
    (by change 1 ≤ p.currentRoundNum; omega))
  have hinp : p.roundInput k = x := by
    have := (Zkdvrf.roundInv hzk).input k
    rw [if_pos ⟨h3, h4⟩] at this
    exact this.trans h2.symm
  subst hcur
  obtain ⟨gf', vf', q1, out, q2, rnd, q3, s', q4, q5⟩ := C52_combine_with_derived_files M.env hzk
    (toZk_ready.2 hp) hnc ht hs h1 hz (by
      intro i hi v V e1 e2
      have e : (p.toZk o1 o2).roundInput (p.toZk o1 o2).currentRoundNum = x := hinp
      rw [e]
      exact hdl i hi v V e1 e2)
  have q1 : Client.derive ⟨p.threshold, p.memberCount⟩ (Client.instancesFile p.ppList) none =
      .ok ⟨gf', vf', none⟩ := q1
  have heq := Except.ok.inj (q1.symm.trans hf)
  have hgg : gf' = gf := congrArg Client.DeriveOut.gpk heq
  have hvv : vf' = vf := congrArg Client.DeriveOut.vks heq
  have q2 : Client.combine M.env.E M.env.keccak (evalHash M.env.keccak) (config p)
    (Client.evalsFile p.memberCount (p.roundToEval p.currentRoundNum)) gf' vf'
    (p.roundInput p.currentRoundNum) false = .ok out := q2
  rw [hgg, hvv, hinp] at q2
  have qv := (C46_output_verifies _ _ _ _ _ _ _ _ _ _ q2).2
  have hn0 : p.memberCount ≠ 0 := by
    intro h0
    have : p.contractPhase.toZk.rank ≤ 1 := zero_members hzk h0
    rw [hp] at this
    exact absurd this (by decide)
  obtain ⟨p', o1', o2', he, -⟩ := sim_back hzk hx ho hn0 (Or.inr ⟨h3, h1⟩) q4
  refine ⟨rnd, p', ?_, he, ?_⟩
  · change Demo.onThreshold M p.memberCount p f p.currentRoundNum x = _
    unfold Demo.onThreshold
    dsimp only
    rw [hg, hv]
    dsimp only
    rw [q2]
    dsimp only
    rw [qv]
    dsimp only
    rw [q3]
  · have hh := history_call h (m := ⟨p.owner, 0⟩) ho he
    obtain ⟨_, _, _, _, _, _, rfl⟩ := submitRandom_some.1 he
    simp only [ZkdvrfPre.emits] at hh
    rw [hinp] at hh
    exact hh

/-- C67. A repeated or late event does no harm: when the successor is already in the log, the
transaction of the handler, whoever sends it, is rejected. -/
theorem C67_repeated (M : Machine) (hk : ∀ b, b.length = 64 → M.env.keccak b ≠ 0) {p : State}
    {log : List Event} (h : ZkdvrfPre.History M.env p log) (ht : 1 ≤ p.threshold) (m : Msg) :
    (.NidkgStarted ∈ log → exec M.env p m .startNidkg = none) ∧
    (.GlobalPublicParamsCreated ∈ log → ∀ gpk, exec M.env p m (.computeVk gpk) = none) ∧
    (∀ k x, .RandomInitiated k x ∈ log → .RandomReady k x ∉ log →
      exec M.env p m .initiateRandom = none) ∧
    (∀ k x, .RandomReady k x ∈ log → (∀ y, .RandomInitiated (k + 1) y ∉ log) → ∀ rnd,
      exec M.env p m (.submitRandom rnd) = none) := by
  obtain ⟨hx, o1, o2, hz⟩ := sim h.reachable ht
  obtain ⟨_, g1, g2, g3, g4, g5, g6, g7, _⟩ := C66_pre M.env hk h ht
  refine ⟨?_, ?_, ?_, ?_⟩
  · intro hs
    rw [Option.eq_none_iff_forall_ne_some]
    intro p' he
    exact (g2.1 hs).2 (startNidkg_some.1 he).2.2.1
  · intro hs gpk
    rw [Option.eq_none_iff_forall_ne_some]
    intro p' he
    have := (computeVk_some.1 he).2.1
    rw [g4.1 hs] at this
    cases this
  · intro k x hs hn
    rw [Option.eq_none_iff_forall_ne_some]
    intro p' he
    obtain ⟨_, _, _, h4, _⟩ := initiateRandom_some.1 he
    obtain ⟨h5, h6, h7⟩ := (g5 k x).1 hs
    have hnc : ¬ Completed p k := fun hc => hn ((g7 k x).2 ⟨hc, h7⟩)
    have hcur : k = p.currentRoundNum := by
      by_contra hne
      exact hnc ((Zkdvrf.roundInv hz).done k h5 (by change k < p.currentRoundNum; omega))
    rcases h4 with h4 | h4
    · omega
    · exact hnc (by rw [hcur]; exact h4)
  · intro k x hs hn rnd
    rw [Option.eq_none_iff_forall_ne_some]
    intro p' he
    obtain ⟨_, _, h3, _⟩ := submitRandom_some.1 he
    obtain ⟨h1, _⟩ := (g7 k x).1 hs
    have hle : k ≤ p.currentRoundNum := Zkdvrf.completed_le hz h1
    have hcur : p.currentRoundNum = k := by
      by_contra hne
      exact hn _ ((g5 (k + 1) _).2 ⟨by omega, by omega, rfl⟩)
    rw [hcur] at h3
    exact h1 h3

/-- The stages of the history met by C67: the services of three members stop after any number of
transactions. -/
private theorem toy_stage (N : ℕ) (hN : N ≤ 44) : ∃ (w : World) (log : List Event),
    ZkdvrfPre.History toyMachine.env w.p log ∧ SInv toyMachine 7 [1, 2, 3] 2 3 N w ∧
    (N = 3 → w.p.contractPhase = .Registered) ∧ (N = 7 → w.p.contractPhase = .NidkgComplete) ∧
    (N = 8 → w.p.contractPhase = .Ready ∧ w.p.currentRoundNum = 0) ∧
    (N = 11 → w.p.currentRoundNum = 1 ∧ ¬ Completed w.p 1 ∧ w.p.roundSubmissionCount 1 = 2) ∧
    (N = 12 → w.p.currentRoundNum = 1 ∧ Completed w.p 1) := by
  obtain ⟨w0, hp, -, hw⟩ := toy_world
  obtain ⟨w, h1⟩ := hw N hN
  have hlt : N < 2 ^ 255 := lt_of_le_of_lt hN (lt_trans (show 44 < 2 ^ 10 by norm_num)
    (by decide +kernel))
  have hi := honest_inv toy_faithful hp h1 hlt.le
  obtain ⟨-, s2, -, s4, s5, s6⟩ := C55_stage toyMachine toy_faithful hp h1 hlt
  obtain ⟨log, hh⟩ := ZkdvrfPre.Reachable.history hi.reach
  refine ⟨w, log, hh, hi, fun h => (s2 h).1, fun h => (s4 h).1, fun h => ?_, fun h => ?_, fun h => ?_⟩
  · obtain ⟨a, b, _⟩ := s5 0 h
    exact ⟨a, b⟩
  · obtain ⟨a, b, c, d⟩ := s6 0 2 le_rfl h
    exact ⟨b, c, d⟩
  · obtain ⟨a, b, c⟩ := s5 1 h
    exact ⟨b, c one_ne_zero⟩

private theorem toy_keccak : ∀ b : List Byte, b.length = 64 → toyMachine.env.keccak b ≠ 0 :=
  fun _ _ => toy_faithful.hash _

/-- The hypotheses of `C67_setup` are met at each of the four events. -/
example : ∀ e : ℕ, e < 4 → ∃ (p : State) (log : List Event),
    ZkdvrfPre.History toyMachine.env p log ∧ 1 ≤ p.threshold ∧ p.owner ≠ 0 ∧
    (e = 0 → .RegistrationCompleted 3 ∈ log ∧ .NidkgStarted ∉ log) ∧
    (e = 1 → .NidkgCompleted 3 ∈ log ∧ .GlobalPublicParamsCreated ∉ log ∧
      Spec.SnarkSound toyMachine.env p.threshold p.memberCount ∧
      ∀ w ∈ p.ppList, Spec.Reduced p.memberCount w) ∧
    (e = 2 → .GlobalPublicParamsCreated ∈ log ∧ ∀ x, .RandomInitiated 1 x ∉ log) ∧
    (e = 3 → ∃ x, .RandomReady 1 x ∈ log ∧ ∀ y, .RandomInitiated 2 y ∉ log) := by
  intro e he
  obtain ⟨w, log, hh, hi, n3, n7, n8, -, n12⟩ := toy_stage
    (if e = 0 then 3 else if e = 1 then 7 else if e = 2 then 8 else 12) (by split_ifs <;> norm_num)
  have ht : 1 ≤ w.p.threshold := by rw [hi.thr]; norm_num
  obtain ⟨_, g1, g2, g3, g4, g5, g6, g7, _⟩ := C66_pre toyMachine.env toy_keccak hh ht
  refine ⟨w.p, log, hh, ht, by rw [hi.owner]; decide, ?_, ?_, ?_, ?_⟩
  · rintro rfl
    have hp := n3 rfl
    obtain ⟨_, o1, o2, hz⟩ := sim hi.reach ht
    have hr := hi.tx
    refine ⟨(g1 3).2 ⟨hi.cnt.symm, ?_, by rw [hi.cnt]; norm_num⟩, fun h => (g2.1 h).2 hp⟩
    have hx := (sim hi.reach ht).1
    exact (hx.reg hp).1
  · rintro rfl
    have hp := n7 rfl
    refine ⟨(g3 3).2 ⟨hi.cnt.symm, Or.inl hp⟩, fun h => ?_, ?_, ?_⟩
    · have := g4.1 h
      rw [hp] at this
      cases this
    · rw [hi.thr, hi.cnt]; exact toy_faithful.sound
    · rw [hi.cnt]; exact hi.red
  · rintro rfl
    obtain ⟨hp, hc⟩ := n8 rfl
    refine ⟨g4.2 hp, fun x hx => ?_⟩
    have := (g5 1 x).1 hx
    omega
  · rintro rfl
    obtain ⟨hc, hd⟩ := n12 rfl
    refine ⟨_, (g7 1 _).2 ⟨hd, rfl⟩, fun y hy => ?_⟩
    have := (g5 2 y).1 hy
    omega

/-- The hypotheses of `C67_random` are met. -/
example : ∃ (p : State) (log : List Event) (f : Files) (gf : Point2Serde) (vf : List PointSerde)
    (x : List Byte), ZkdvrfPre.History toyMachine.env p log ∧ 1 ≤ p.threshold ∧ p.owner ≠ 0 ∧
    Spec.SnarkSound toyMachine.env p.threshold p.memberCount ∧
    Client.derive ⟨p.threshold, p.memberCount⟩ (Client.instancesFile p.ppList) none =
      .ok ⟨gf, vf, none⟩ ∧ f.gpk = some gf ∧ f.vks = some vf ∧
    .RandomThresholdReached 1 x ∈ log ∧ .RandomReady 1 x ∉ log ∧
    (∀ i, Submitted p 1 i → (p.roundToEval 1 i).z.toNat < r) ∧
    ∀ i, Submitted p 1 i → ∀ v V,
      decodeG1 (p.roundToEval 1 i).value = some v → p.vkList[i]? = some (encodeG1 V) →
      Spec.SameLog (evalHash toyMachine.env.keccak x) V v := by
  obtain ⟨w, log, hh, hi, -, -, -, n11, -⟩ := toy_stage 11 (by norm_num)
  obtain ⟨h1, h2, h3⟩ := n11 rfl
  have ht : 1 ≤ w.p.threshold := by rw [hi.thr]; norm_num
  obtain ⟨hx, o1, o2, hz⟩ := sim hi.reach ht
  have hrd : w.p.contractPhase = .Ready := toZk_ready.1 (Zkdvrf.round_rank hz
    (by change 1 ≤ w.p.currentRoundNum; omega))
  obtain ⟨gf, vf, e1, e2, e3⟩ := hi.adm hrd
  obtain ⟨_, g1, g2, g3, g4, g5, g6, g7, _⟩ := C66_pre toyMachine.env toy_keccak hh ht
  have hcard := (C35_pre_evaluations toyMachine.env hi.reach ht ⟨w.p.threshold, w.p.memberCount⟩
    rfl 1 0).2.1
  have hinp : w.p.roundInput 1 = strBytes "zkRand-v1-2024:" ++ decimal 1 := by
    have := (Zkdvrf.roundInv hz).input 1
    rw [if_pos ⟨le_rfl, by change 1 ≤ w.p.currentRoundNum; omega⟩] at this
    exact this
  refine ⟨w.p, log, w.admin, gf, vf, strBytes "zkRand-v1-2024:" ++ decimal 1, hh, ht,
    by rw [hi.owner]; decide, ?_, ?_, e2, e3, (g6 1 _).2 ⟨?_, rfl⟩, fun h => h2 ((g7 1 _).1 h).1,
    fun i h => (hi.evs 1 i h).1, fun i h => ?_⟩
  · rw [hi.thr, hi.cnt]; exact toy_faithful.sound
  · rw [hi.thr, hi.cnt]; exact e1
  · rw [← hcard, hi.thr, h3]
  · have := (hi.evs 1 i h).2
    rw [hinp] at this
    exact this

/-! ### The lottery scripts -/

/-- C68. `RandomReady` for the chosen round is the signal that the draw works, and there is no other: in
an open lottery with players, whatever happened since, the owner's `pickWinner` gets as far as paying
the winner if the event is in the log, and nobody's does if it is not.  So the administrator's handler
sends a transaction that works, and it sends one on this event only. -/
theorem C68_draw (env : Env) (hk : ∀ b, b.length = 64 → env.keccak b ≠ 0) {w : Lottery.World}
    {log : List Event} (h : Zkdvrf.History env w.zk log) (ho : w.lot.contractPhase = .Open)
    (hp : w.lot.players ≠ []) :
    ((∃ x, .RandomReady w.lot.randRoundNum x ∈ log) ↔
      ∃ l, Lottery.pickStart env.keccak w.zk w.lot ⟨w.lot.owner, 0⟩ = some l) ∧
    ((∀ x, .RandomReady w.lot.randRoundNum x ∉ log) →
      ∀ m, Lottery.pickStart env.keccak w.zk w.lot m = none) ∧
    ∀ e, Demo.lotteryPicks w.lot.randRoundNum e = true ↔
      ∃ x, e = .RandomReady w.lot.randRoundNum x := by
  obtain ⟨-, -, -, -, -, -, g7⟩ := C66_log env hk h
  have hne : ∀ m l, Lottery.pickStart env.keccak w.zk w.lot m = some l →
      ∃ x, .RandomReady w.lot.randRoundNum x ∈ log :=
    fun m l hl => ⟨_, (g7 _ _).2 ⟨(C42_pickWinner env w m l hl).2.2.1, rfl⟩⟩
  refine ⟨⟨?_, fun ⟨l, hl⟩ => hne _ l hl⟩, fun hn m => ?_, fun e => ?_⟩
  · rintro ⟨x, hx⟩
    exact C42_pick_possible env w ho hp ((g7 _ _).1 hx).1
  · rw [Option.eq_none_iff_forall_ne_some]
    intro l hl
    obtain ⟨x, hx⟩ := hne m l hl
    exact hn x hx
  · cases e with
    | RandomReady k x =>
      simp only [Demo.lotteryPicks, decide_eq_true_eq]
      constructor
      · rintro rfl; exact ⟨x, rfl⟩
      · rintro ⟨y, hy⟩; exact (Event.RandomReady.inj hy).1
    | _ =>
      simp only [Demo.lotteryPicks, Bool.false_eq_true, false_iff]
      rintro ⟨x, hx⟩
      cases hx

/-- C68. A bet is accepted only while no event of the chosen round is in the log. -/
theorem C68_bets (env : Env) (hk : ∀ b, b.length = 64 → env.keccak b ≠ 0) {w w' : Lottery.World}
    (hr : Lottery.Reachable env w) (hs : Lottery.Steps env w w')
    {log : List Event} (h : Zkdvrf.History env w'.zk log) (m : Msg) (l : Lottery.State)
    (he : Lottery.exec w'.zk w'.lot m .enter = some l) (x : List Byte) :
    .RandomInitiated w'.lot.randRoundNum x ∉ log ∧
    .RandomThresholdReached w'.lot.randRoundNum x ∉ log ∧
    .RandomReady w'.lot.randRoundNum x ∉ log := by
  obtain ⟨h1, h2, h3, -⟩ := C42_enter_before_random env hr hs m l he
  obtain ⟨-, -, -, -, g5, g6, g7⟩ := C66_log env hk h
  refine ⟨fun hx => h1 ?_, fun hx => ?_, fun hx => h2 ((g7 _ _).1 hx).1⟩
  · exact ((g5 _ _).1 hx).2.1
  · obtain ⟨t1, t2, -⟩ := (g6 _ _).1 hx
    have : {i : ℕ // i < w'.zk.memberCount ∧ Zkdvrf.Submitted w'.zk w'.lot.randRoundNum i} → False :=
      fun i => h3 i.1 i.2.2
    have : IsEmpty {i : ℕ // i < w'.zk.memberCount ∧
        Zkdvrf.Submitted w'.zk w'.lot.randRoundNum i} := ⟨this⟩
    rw [Nat.card_of_isEmpty] at t2
    omega

private theorem steps_trans {env : Env} {w1 w2 w3 : Lottery.World} (h : Lottery.Steps env w1 w2)
    (h' : Lottery.Steps env w2 w3) : Lottery.Steps env w1 w3 := by
  induction h' with
  | refl => exact h
  | zkdvrf tx hv _ ih => exact .zkdvrf tx hv (ih h)
  | call m c hm _ he ih => exact .call m c hm (ih h) he
  | force a _ ih => exact .force a (ih h)
  | pickWinner m hm _ he h2 ih _ => exact .pickWinner m hm (ih h) he h2

/-- C68. The players' script: if the lottery is open and its round is not, every configured player not
yet in the lottery gets in, in the configured order, each for exactly the minimum bet (as announced by
`BetOpen`), and once even if configured twice; nothing else changes. -/
theorem C68_play (env : Env) {w : Lottery.World} (hr : Lottery.Reachable env w)
    (ho : w.lot.contractPhase = .Open) (hn : ¬ Lottery.RoundOpened w) (wallets : List Address)
    (h0 : ∀ a ∈ wallets, a ≠ 0) :
    ∃ new : List Address, new.Sublist wallets ∧ new.Nodup ∧
      (∀ a, a ∈ new ↔ a ∈ wallets ∧ a ∉ w.lot.players) ∧
      (wallets.Nodup → (∀ a ∈ wallets, a ∉ w.lot.players) → new = wallets) ∧
      (Demo.play w.zk w.lot.minBet w.lot wallets).players = w.lot.players ++ new ∧
      (Demo.play w.zk w.lot.minBet w.lot wallets).balance =
        w.lot.balance + new.length * w.lot.minBet ∧
      (Demo.play w.zk w.lot.minBet w.lot wallets).bets =
        w.lot.bets ++ new.map (fun a => (a, w.lot.minBet)) ∧
      (Demo.play w.zk w.lot.minBet w.lot wallets).contractPhase = .Open ∧
      Lottery.Steps env w ⟨Demo.play w.zk w.lot.minBet w.lot wallets, w.zk⟩ := by
  have hround : w.zk.currentRoundNum < w.lot.randRoundNum := by
    unfold Lottery.RoundOpened at hn; omega
  have hent := (Lottery.inv hr).entered
  clear hr hn
  obtain ⟨l, z⟩ := w
  dsimp only at *
  induction wallets generalizing l with
  | nil =>
    refine ⟨[], List.Sublist.refl _, List.nodup_nil, by simp, fun _ _ => rfl, ?_, ?_, ?_, ho, .refl _⟩ <;>
      simp [Demo.play]
  | cons a as ih =>
    by_cases hin : a ∈ l.players
    · have hnone : Lottery.exec z l ⟨a, l.minBet⟩ .enter = none := by
        rw [Option.eq_none_iff_forall_ne_some]
        intro l' he
        have := (Lottery.enter_some.1 he).2.2.1
        rw [(hent a).1 hin] at this
        cases this
      have hp : Demo.play z l.minBet l (a :: as) = Demo.play z l.minBet l as := by
        simp only [Demo.play, List.foldl_cons, hnone, Option.getD_none]
      obtain ⟨new, g1, g2, g3, g4, g5⟩ := ih (fun b hb => h0 b (List.mem_cons_of_mem _ hb)) l ho hround
        hent
      rw [hp]
      refine ⟨new, g1.cons a, g2, fun b => ?_, fun _ hd => absurd hin (hd a List.mem_cons_self), g5⟩
      rw [g3, List.mem_cons]
      constructor
      · rintro ⟨x, y⟩; exact ⟨Or.inr x, y⟩
      · rintro ⟨rfl | x, y⟩
        · exact absurd hin y
        · exact ⟨x, y⟩
    · have hsome := (Lottery.enter_some (z := z) (s := l) (m := ⟨a, l.minBet⟩)).2 ⟨ho, hround, by
        have := mt (hent a).2 hin
        simpa using this, le_rfl, rfl⟩
      dsimp only at hsome
      have he : Lottery.exec z l ⟨a, l.minBet⟩ .enter = some _ := hsome
      have hp : Demo.play z l.minBet l (a :: as) = Demo.play z l.minBet { l with
          players := l.players ++ [a], hasEntered := Function.update l.hasEntered a true
          balance := l.balance + l.minBet, bets := l.bets ++ [(a, l.minBet)] } as := by
        simp only [Demo.play, List.foldl_cons]
        rw [he, Option.getD_some]
      obtain ⟨new, g1, g2, g3, g4, g5, g6, g7, g8, g9⟩ := ih
        (fun b hb => h0 b (List.mem_cons_of_mem _ hb)) { l with
          players := l.players ++ [a], hasEntered := Function.update l.hasEntered a true
          balance := l.balance + l.minBet, bets := l.bets ++ [(a, l.minBet)] } ho hround (by
          intro b
          simp only [List.mem_append, List.mem_singleton, Function.update_apply]
          by_cases hb : b = a
          · simp [hb]
          · simp [hb, hent b])
      rw [hp]
      have hna : a ∉ new := fun h => ((g3 a).1 h).2 (List.mem_append_right _ List.mem_cons_self)
      refine ⟨a :: new, g1.cons_cons a, List.nodup_cons.2 ⟨hna, g2⟩, fun b => ?_, fun hd hnot => ?_, ?_,
        ?_, ?_, g8, ?_⟩
      · rw [List.mem_cons, List.mem_cons, g3]
        simp only [List.mem_append, List.mem_singleton]
        by_cases hb : b = a
        · subst hb; simp [hin]
        · simp [hb]
      · rw [g4 (List.nodup_cons.1 hd).2]
        intro b hb
        simp only [List.mem_append, List.mem_singleton]
        rintro (h | rfl)
        · exact hnot b (List.mem_cons_of_mem _ hb) h
        · exact (List.nodup_cons.1 hd).1 hb
      · rw [g5, List.append_assoc]; rfl
      · rw [g6, List.length_cons, Nat.add_mul, Nat.one_mul]; dsimp only; omega
      · rw [g7, List.append_assoc]; rfl
      · exact steps_trans (Lottery.Steps.call (w' := ⟨l, z⟩) ⟨a, l.minBet⟩ .enter
          (h0 a List.mem_cons_self) (.refl _) he) g9

/-- The hypotheses of `C68_draw` are met with the event in the log. -/
example : ∃ (w : Lottery.World) (log : List Event), Zkdvrf.History (toyEnv 1 2) w.zk log ∧
    w.lot.contractPhase = .Open ∧ w.lot.players ≠ [] ∧
    ∃ x, .RandomReady w.lot.randRoundNum x ∈ log := by
  obtain ⟨w, h1, h2, h3, _, h5, h6⟩ := toy_lottery
  have hz := (Lottery.inv h1).zk
  obtain ⟨log, hh⟩ := hz.history
  refine ⟨w, log, hh, h2, by rw [h3]; simp, _, ((C66_log (toyEnv 1 2)
    (fun _ _ => by change (1 : Word) ≠ 0; decide) hh).2.2.2.2.2.2 _ _).2 ⟨h5, rfl⟩⟩

/-- Those of `C68_bets` and `C68_play` are met before the round. -/
example : ∃ (w : Lottery.World) (log : List Event), Lottery.Reachable (toyEnv 1 2) w ∧
    Zkdvrf.History (toyEnv 1 2) w.zk log ∧ w.lot.contractPhase = .Open ∧ ¬ Lottery.RoundOpened w ∧
    (∃ l, Lottery.exec w.zk w.lot ⟨11, 5⟩ .enter = some l) ∧
    (Demo.play w.zk w.lot.minBet w.lot [11, 12, 13]).players = [11, 12, 13] ∧
    (Demo.play w.zk w.lot.minBet w.lot [11, 12, 13]).balance = 15 := by
  obtain ⟨z, hz, _⟩ := toy_done
  obtain ⟨z0, h0, hr0, -⟩ := after_deploy hz
  obtain ⟨log, hh⟩ := h0.history
  let l0 : Lottery.State := ⟨5, [], fun _ => false, 0, 0, 0, .Setup, 0, [], [], 0⟩
  let l1 : Lottery.State := { l0 with randRoundNum := 3, minBet := 5, contractPhase := .Open }
  have hc : Lottery.constructor ⟨5, 0⟩ = some l0 := rfl
  have hs : Lottery.exec z0 l0 ⟨5, 0⟩ (.setup 3 5) = some l1 := rfl
  have hr1 : Lottery.Reachable (toyEnv 1 2) ⟨l1, z0⟩ :=
    .steps (.deploy h0 hc) (.call ⟨5, 0⟩ (.setup 3 5) (by decide) (.refl _) hs)
  have hn : ¬ Lottery.RoundOpened ⟨l1, z0⟩ := by
    change ¬ 3 ≤ z0.currentRoundNum
    omega
  have he : ∃ l, Lottery.exec z0 l1 ⟨11, 5⟩ .enter = some l :=
    ⟨_, Lottery.enter_some.2 ⟨rfl, by change z0.currentRoundNum < 3; omega, rfl, le_rfl, rfl⟩⟩
  obtain ⟨new, -, -, -, g4, g5, g6, -⟩ := C68_play (toyEnv 1 2) hr1 rfl hn [11, 12, 13] (by
    intro a ha
    simp only [List.mem_cons, List.not_mem_nil, or_false] at ha
    rcases ha with rfl | rfl | rfl <;> decide)
  rw [g4 (by decide) (by simp [l1, l0])] at g5 g6
  exact ⟨⟨l1, z0⟩, log, hr1, hh, rfl, hn, he, g5, g6⟩

end Verif.Props
