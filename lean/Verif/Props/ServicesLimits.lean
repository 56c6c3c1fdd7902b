import Verif.Props.ServicesLive

/-!
C57: circumstances in which the services of services/admin.ts and services/node.ts do not get any
further.
-/

namespace Verif.Props
open Verif.Services
open Verif.ZkdvrfPre

private theorem run_later {M : Machine} {o : Address} {ws : List Address} {w w' : World} (ho : o ≠ 0)
    (hws : ∀ a ∈ ws, a ≠ 0) (h : Run M o ws w w') : Later M.env w.p w'.p := by
  induction h with
  | refl => exact .refl
  | @node v a d ha _ ih =>
    unfold World.nodeStep
    split
    · exact ih
    · exact ih
    · next c _ => exact Later.step (.call ⟨a, 0⟩ c) (hws a ha) ih
  | @admin v b _ ih =>
    cases adminPass M v.p v.admin b with
    | idle => exact ih
    | failed f => exact ih
    | send f c => exact Later.step (.call ⟨o, 0⟩ c) ho ih
  | @tick v b e _ ih =>
    cases adminTick v.p v.admin b e with
    | idle => exact ih
    | failed f => exact ih
    | send f c => exact Later.step (.call ⟨o, 0⟩ c) ho ih
  | @other v m c hm _ _ _ ih => exact Later.step (.call m c) hm ih

/-- Randoms change only through `submitRandom`. -/
private theorem exec_randoms {env : Env} {p p' : State} {m : Msg} {c : Zkdvrf.Call}
    (he : exec env p m c = some p') (hc : ∀ w, c ≠ .submitRandom w) :
    p'.roundToRandom = p.roundToRandom := by
  cases c with
  | addPermissionedNodes a => obtain ⟨_, _, _, _, _, _, rfl⟩ := addPermissionedNodes_some.1 he; rfl
  | registerNode pk => obtain ⟨_, _, _, _, _, _, _, rfl⟩ := registerNode_some.1 he; rfl
  | startNidkg => obtain ⟨_, _, _, rfl⟩ := startNidkg_some.1 he; rfl
  | submitPublicParams pp pr => obtain ⟨_, _, _, _, _, _, _, rfl⟩ := submitPublicParams_some.1 he; rfl
  | computeVk g => obtain ⟨_, _, _, _, rfl⟩ := computeVk_some.1 he; rfl
  | initiateRandom => obtain ⟨_, _, _, _, _, _, _, rfl⟩ := initiateRandom_some.1 he; rfl
  | submitPartialEval w => obtain ⟨_, _, _, _, _, _, _, _, rfl⟩ := submitPartialEval_some.1 he; rfl
  | submitRandom x => exact absurd rfl (hc x)
  | transferOwnership a => obtain ⟨_, _, _, rfl⟩ := transferOwnership_some.1 he; rfl
  | renounceOwnership => obtain ⟨_, _, rfl⟩ := renounceOwnership_some.1 he; rfl

/-- The phase changes from `Ready` to nothing else. -/
private theorem exec_ready {env : Env} {p p' : State} {m : Msg} {c : Zkdvrf.Call}
    (he : exec env p m c = some p') (hp : p.contractPhase = .Ready) : p'.contractPhase = .Ready := by
  cases c with
  | addPermissionedNodes a => obtain ⟨_, _, _, _, _, _, rfl⟩ := addPermissionedNodes_some.1 he; exact hp
  | registerNode pk => rw [(registerNode_some.1 he).1] at hp; cases hp
  | startNidkg => rw [(startNidkg_some.1 he).2.2.1] at hp; cases hp
  | submitPublicParams pp pr => rw [(submitPublicParams_some.1 he).2.2.1] at hp; cases hp
  | computeVk g => rw [(computeVk_some.1 he).2.1] at hp; cases hp
  | initiateRandom => obtain ⟨_, _, _, _, _, _, _, rfl⟩ := initiateRandom_some.1 he; exact hp
  | submitPartialEval w => obtain ⟨_, _, _, _, _, _, _, _, rfl⟩ := submitPartialEval_some.1 he; exact hp
  | submitRandom x => obtain ⟨_, _, _, _, _, _, rfl⟩ := submitRandom_some.1 he; exact hp
  | transferOwnership a => obtain ⟨_, _, _, rfl⟩ := transferOwnership_some.1 he; exact hp
  | renounceOwnership => obtain ⟨_, _, rfl⟩ := renounceOwnership_some.1 he; exact hp

/-- What somebody else can do: nothing, unless the parameters are complete. -/
private theorem other_same {M : Machine} {o : Address} {ws : List Address} {p : State} {m : Msg}
    {c : Zkdvrf.Call} (hm : m.sender ≠ 0) (ho : m.sender ≠ o) (hn : m.sender ∉ ws)
    (howner : p.owner = o) (hadd : ∀ a, Added p a → a ∈ ws) (hp : p.contractPhase ≠ .NidkgComplete) :
    step M.env p (.call m c) = p := by
  rcases C39_pre_outsiders M.env p m c hm (by rw [howner]; exact ho) (fun h => hn (hadd _ h)) with
    h | ⟨_, _, _, h, _⟩
  · exact h
  · exact absurd h hp

/-! ### A deposit is asked -/

/-- C57. If the contract asks for a deposit, the node services, which attach no ether, never register:
as long as the registration phase lasts nothing that the services or others do changes the contract. -/
theorem C57_violation_deposit (M : Machine) {o : Address} {ws : List Address} {w w' : World}
    (howner : w.p.owner = o) (hadd : ∀ a, Added w.p a → a ∈ ws)
    (hp : w.p.contractPhase = .Unregistered) (hd : 0 < w.p.minNodeDeposit)
    (hrun : Run M o ws w w') : w'.p = w.p := by
  induction hrun with
  | refl => rfl
  | @node v a d ha _ ih =>
    unfold World.nodeStep
    split
    · exact ih
    · exact ih
    · next f c hs =>
      change mine M v.p a c = w.p
      unfold mine
      have hn : exec M.env v.p ⟨a, 0⟩ c = none := by
        rw [ih] at hs ⊢
        rcases nodePass_send hs with ⟨pk, rfl⟩ | ⟨pp, pr, rfl⟩ | ⟨_, h, _⟩
        · by_contra hne
          obtain ⟨p', he⟩ := Option.ne_none_iff_exists'.1 hne
          have := (registerNode_some.1 he).2.2.2.1
          change w.p.minNodeDeposit ≤ 0 at this
          omega
        · by_contra hne
          obtain ⟨p', he⟩ := Option.ne_none_iff_exists'.1 hne
          have := (submitPublicParams_some.1 he).2.2.1
          rw [hp] at this
          cases this
        · rw [hp] at h; cases h
      rw [step_none hn]
      exact ih
  | @admin v b _ ih =>
    have e : adminPass M v.p v.admin b = .idle := by unfold adminPass; rw [ih, hp]
    rw [e]
    exact ih
  | @tick v b e _ ih =>
    have e : adminTick v.p v.admin b e = .idle := by unfold adminTick; rw [ih, hp]
    rw [e]
    exact ih
  | @other v m c hm ho hn _ ih =>
    change step M.env v.p (.call m c) = w.p
    rw [ih]
    exact other_same hm ho hn howner hadd (by rw [hp]; exact Phase.noConfusion)

/-- A contract with a deposit of one wei and an added node. -/
example : ∃ w : World, Reachable toyMachine.env w.p ∧ w.p.owner = 7 ∧ Added w.p 1 ∧
    (∀ a, Added w.p a → a ∈ [(1 : Address)]) ∧ w.p.contractPhase = .Unregistered ∧
    0 < w.p.minNodeDeposit ∧
    ∀ w', Run toyMachine 7 [1] w w' → ¬ Registered w'.p 1 := by
  obtain ⟨p, hr, h1, h2, h3, h4⟩ : ∃ p : State, Reachable toyMachine.env p ∧ p.owner = 7 ∧
      p.contractPhase = .Unregistered ∧ p.minNodeDeposit = 1 ∧
      p.addrToNode = Function.update (fun _ => .empty) 1 ⟨1, false, 0, false, 0⟩ := by
    obtain ⟨p0, e0⟩ : ∃ p0, constructor ⟨7, 0⟩ 2 3 7 true true true 1 = some p0 :=
      ⟨_, constructor_some.2 ⟨rfl, by decide, rfl, by norm_num, by norm_num, by norm_num, by norm_num,
        rfl⟩⟩
    have r0 := Reachable.deploy (env := toyMachine.env) e0
    obtain ⟨_, _, _, _, _, _, _, rfl⟩ := constructor_some.1 e0
    have add : ∀ p : State, Reachable toyMachine.env p → p.owner = 7 → p.currentIndex = 0 →
        p.memberCount = 3 → p.addrToNode = (fun _ => .empty) → ∃ p' : State,
        Reachable toyMachine.env p' ∧ p' = { p with
          addrToNode := Function.update p.addrToNode 1 ⟨1, false, 0, false, 0⟩
          currentIndex := p.currentIndex + 1 } := by
      intro p hr h1 h2 h3 h4
      have e : exec toyMachine.env p ⟨7, 0⟩ (.addPermissionedNodes 1) = some _ :=
        addPermissionedNodes_some.2 ⟨rfl, h1.symm, by rw [h2, h3]; norm_num, by decide, by rw [h4]; rfl,
          by rw [h2]; norm_num, rfl⟩
      exact ⟨_, reach_next hr (a := 7) (by decide) e, rfl⟩
    obtain ⟨p1, r1, rfl⟩ := add _ r0 rfl rfl rfl rfl
    exact ⟨_, r1, rfl, rfl, rfl, rfl⟩
  have hadd : ∀ a, Added p a → a ∈ [(1 : Address)] := by
    intro a ha
    unfold Added at ha
    rw [h4] at ha
    by_cases h1 : a = 1
    · rw [h1]; exact List.mem_singleton.2 rfl
    · rw [Function.update_of_ne h1] at ha
      exact absurd rfl ha
  refine ⟨⟨p, .none, fun _ => .none⟩, hr, h1, ?_, hadd, h2, by rw [h3]; norm_num, ?_⟩
  · unfold Added
    rw [h4, Function.update_self]
    decide
  · intro w' h hreg
    unfold Registered at hreg
    rw [C57_violation_deposit toyMachine h1 hadd h2 (by rw [h3]; norm_num) h] at hreg
    change (p.addrToNode 1).status = true at hreg
    rw [h4, Function.update_self] at hreg
    cases hreg

/-! ### The admin service without the key files -/

/-- C57. Once the contract is ready, an admin service without the files `gpk.json` and `vks.json`
never obtains them, and no random is ever stored again. -/
theorem C57_violation_missing_files (M : Machine) {o : Address} {ws : List Address} {w w' : World}
    (howner : w.p.owner = o) (hadd : ∀ a, Added w.p a → a ∈ ws) (hp : w.p.contractPhase = .Ready)
    (hf : w.admin.gpk = none ∨ w.admin.vks = none) (hrun : Run M o ws w w') :
    w'.admin = w.admin ∧ ∀ k, w'.p.roundToRandom k = w.p.roundToRandom k := by
  suffices h : w'.p.owner = o ∧ (∀ a, Added w'.p a → a ∈ ws) ∧ w'.p.contractPhase = .Ready ∧
      w'.admin = w.admin ∧ w'.p.roundToRandom = w.p.roundToRandom from
    ⟨h.2.2.2.1, fun k => congrFun h.2.2.2.2 k⟩
  have key : ∀ (p : State) (a : Address) (c : Zkdvrf.Call),
      (∃ pk, c = .registerNode pk) ∨ (∃ pp pr, c = .submitPublicParams pp pr) ∨
        (∃ w, c = .submitPartialEval w) ∨ c = .initiateRandom →
      p.owner = o → (∀ a, Added p a → a ∈ ws) → p.contractPhase = .Ready →
      p.roundToRandom = w.p.roundToRandom →
      (mine M p a c).owner = o ∧ (∀ b, Added (mine M p a c) b → b ∈ ws) ∧
        (mine M p a c).contractPhase = .Ready ∧ (mine M p a c).roundToRandom = w.p.roundToRandom := by
    intro p a c hc h1 h2 h3 h4
    unfold mine
    cases he : exec M.env p ⟨a, 0⟩ c with
    | none => rw [step_none he]; exact ⟨h1, h2, h3, h4⟩
    | some p' =>
      rw [step_some he]
      obtain ⟨i1, i2⟩ := exec_ids he (by
        rcases hc with h | h | h | h
        · exact Or.inl h
        · exact Or.inr (Or.inl h)
        · exact Or.inr (Or.inr (Or.inl h))
        · exact Or.inr (Or.inr (Or.inr (Or.inr (Or.inr (Or.inl h))))))
      refine ⟨i1.trans h1, fun b hb => h2 b ?_, exec_ready he h3, ?_⟩
      · unfold Added at hb ⊢; rwa [i2 b] at hb
      · refine (exec_randoms he ?_).trans h4
        rintro x rfl
        rcases hc with ⟨_, h⟩ | ⟨_, _, h⟩ | ⟨_, h⟩ | h <;> cases h
  induction hrun with
  | refl => exact ⟨howner, hadd, hp, rfl, rfl⟩
  | @node v a d ha _ ih =>
    obtain ⟨i1, i2, i3, i4, i5⟩ := ih
    unfold World.nodeStep
    split
    · exact ⟨i1, i2, i3, i4, i5⟩
    · exact ⟨i1, i2, i3, i4, i5⟩
    · next f c hs =>
      obtain ⟨k1, k2, k3, k4⟩ := key v.p a c (by
        rcases nodePass_send hs with h | h | h
        · exact Or.inl h
        · exact Or.inr (Or.inl h)
        · exact Or.inr (Or.inr (Or.inl h.1))) i1 i2 i3 i5
      exact ⟨k1, k2, k3, i4, k4⟩
  | @admin v b _ ih =>
    obtain ⟨i1, i2, i3, i4, i5⟩ := ih
    have hout : adminPass M v.p v.admin b = .idle ∨ adminPass M v.p v.admin b = .failed v.admin ∨
        adminPass M v.p v.admin b = .send v.admin .initiateRandom := by
      have hnone : createRandom M v.p v.admin = .failed v.admin := by
        rw [← i4] at hf
        unfold createRandom
        dsimp only
        split
        · next h1 h2 =>
          rcases hf with h | h
          · rw [h] at h1; cases h1
          · rw [h] at h2; cases h2
        · rfl
      unfold adminPass
      rw [i3]
      dsimp only
      split
      · exact Or.inl rfl
      · split
        · exact Or.inr (Or.inr rfl)
        · split
          · exact Or.inr (Or.inl hnone)
          · exact Or.inl rfl
    rcases hout with e | e | e
    · rw [e]; exact ⟨i1, i2, i3, i4, i5⟩
    · rw [e]; exact ⟨i1, i2, i3, i4, i5⟩
    · rw [e]
      obtain ⟨k1, k2, k3, k4⟩ := key v.p o .initiateRandom (Or.inr (Or.inr (Or.inr rfl))) i1 i2 i3 i5
      exact ⟨k1, k2, k3, i4, k4⟩
  | @tick v b e _ ih =>
    obtain ⟨i1, i2, i3, i4, i5⟩ := ih
    cases hs : adminTick v.p v.admin b e with
    | idle => exact ⟨i1, i2, i3, i4, i5⟩
    | failed f =>
      exfalso
      unfold adminTick at hs
      split at hs
      · split at hs <;> cases hs
      · cases hs
    | send f c =>
      have hf : f = v.admin := by
        unfold adminTick at hs
        split at hs
        · split at hs
          · cases hs; rfl
          · cases hs
        · cases hs
      obtain ⟨k1, k2, k3, k4⟩ := key v.p o c (Or.inr (Or.inr (Or.inr (adminTick_send hs)))) i1 i2 i3 i5
      exact ⟨k1, k2, k3, hf.trans i4, k4⟩
  | @other v m c hm ho hn _ ih =>
    obtain ⟨i1, i2, i3, i4, i5⟩ := ih
    have := other_same (M := M) (c := c) hm ho hn i1 i2 (by rw [i3]; exact Phase.noConfusion)
    change (step M.env v.p (.call m c)).owner = o ∧
      (∀ a, Added (step M.env v.p (.call m c)) a → a ∈ ws) ∧
      (step M.env v.p (.call m c)).contractPhase = .Ready ∧ v.admin = w.admin ∧
      (step M.env v.p (.call m c)).roundToRandom = w.p.roundToRandom
    rw [this]
    exact ⟨i1, i2, i3, i4, i5⟩

private theorem small {M : Machine} {o : Address} {ws : List Address} {t n : ℕ} {p : State}
    (h0 : Fresh M o ws t n p) : 2 * n + 1 < 2 ^ 255 := by
  have ht' : 1 ≤ p.threshold := by rw [h0.threshold]; exact h0.t_pos
  obtain ⟨_, o1, o2, hz⟩ := sim h0.reachable ht'
  have hb : 7 * p.memberCount + 14 < 2 ^ 32 := (Zkdvrf.regInv hz).bound
  rw [h0.members] at hb
  exact lt_trans (show 2 * n + 1 < 2 ^ 40 by omega) (by decide +kernel)

/-- Before the group key is set the admin service has not touched its files. -/
private theorem files_before {M : Machine} {o : Address} {ws : List Address} {t n : ℕ} {aux1 : G1}
    {aux2 : G2} (hM : Faithful M t n aux1 aux2) {w w' : World} (h0 : Fresh M o ws t n w.p) {N : ℕ}
    (h : Honest M o ws t n aux1 aux2 w N w') (hN : N ≤ 2 * n + 1) : w'.admin = w.admin := by
  have hs := small h0
  induction h with
  | refl => rfl
  | @node N v a d ha hd _ ih =>
    have : (v.nodeStep M a d).admin = v.admin := by
      unfold World.nodeStep
      split <;> rfl
    rw [this]
    exact ih (by omega)
  | @admin N v b hv ih =>
    have hN' : N ≤ 2 * n + 1 := by omega
    have hlt : N < 2 ^ 255 := lt_of_le_of_lt hN' hs
    have ih := ih hN'
    obtain ⟨s1, s2, s3, s4, _⟩ := C55_stage M hM h0 hv hlt
    have hp : (adminPass M v.p v.admin b = .idle) ∨
        (adminPass M v.p v.admin b = .send v.admin .startNidkg) ∨
        (N = 2 * n + 1 ∧ v.p.contractPhase = .NidkgComplete) := by
      rcases lt_trichotomy N n with h | h | h
      · left; unfold adminPass; rw [(s1 h).1]
      · right; left; unfold adminPass; rw [(s2 h).1]
      · by_cases h2 : N = 2 * n + 1
        · exact Or.inr (Or.inr ⟨h2, (s4 h2).1⟩)
        · left; unfold adminPass; rw [(s3 (N - n - 1) (by omega) (by omega)).1]
    rcases hp with e | e | ⟨e, hp⟩
    · rw [e]; exact ih
    · rw [e]; exact ih
    · exfalso
      have hf := (C55_no_failure M hM h0 hv hlt).2.1 b
      have he : adminPass M v.p v.admin b = Services.createGpp v.p v.admin := by
        unfold adminPass; rw [hp]
      rw [he] at hf hN
      cases hg : Services.createGpp v.p v.admin with
      | idle =>
        unfold Services.createGpp at hg
        split at hg
        · cases hg
        · dsimp only at hg
          split at hg <;> cases hg
      | failed f => rw [hg] at hf; exact hf
      | send f c =>
        rw [hg] at hN
        change N + 1 ≤ 2 * n + 1 at hN
        omega
  | @tick N v b e he hv ih =>
    have hN' : N ≤ 2 * n + 1 := by omega
    have hlt : N < 2 ^ 255 := lt_of_le_of_lt hN' hs
    have ih := ih hN'
    obtain ⟨s1, s2, s3, s4, _⟩ := C55_stage M hM h0 hv hlt
    have hp : adminTick v.p v.admin b e = .idle := by
      unfold adminTick
      rcases lt_trichotomy N n with h | h | h
      · rw [(s1 h).1]
      · rw [(s2 h).1]
      · by_cases h2 : N = 2 * n + 1
        · rw [(s4 h2).1]
        · rw [(s3 (N - n - 1) (by omega) (by omega)).1]
    rw [hp]
    exact ih

/-- C57. In an otherwise honest run, anybody outside who makes the call `computeVk` (with the key that
the client's `derive` computes from public data) before the admin service does, stops the
services for good: the admin never writes its key files, and no round is ever completed. -/
theorem C57_violation_front_run (M : Machine) {o : Address} {ws : List Address} {t n : ℕ} {aux1 : G1}
    {aux2 : G2} (hM : Faithful M t n aux1 aux2) {w w' : World} (h0 : Fresh M o ws t n w.p)
    (hfiles : w.admin = .none) (h : Honest M o ws t n aux1 aux2 w (2 * n + 1) w')
    (x : Address) :
    ∃ out gpk p', Client.derive (config w'.p) (Client.instancesFile w'.p.ppList) none = .ok out ∧
      Client.gpkSubmission out.gpk = some gpk ∧
      exec M.env w'.p ⟨x, 0⟩ (.computeVk gpk) = some p' ∧
      ∀ w'', Run M o ws { w' with p := p' } w'' → ∀ k, ¬ Completed w''.p k := by
  have hs := small h0
  have hfine := (C55_no_failure M hM h0 h hs).2.1 true
  have hstage := (C55_stage M hM h0 h hs).2.2.2.1 rfl
  have hi := honest_inv hM h0 h hs.le
  have ht : 1 ≤ w'.p.threshold := by rw [hi.thr]; exact h0.t_pos
  have hadmin := files_before hM h0 h le_rfl
  have he : adminPass M w'.p w'.admin true = Services.createGpp w'.p w'.admin := by
    unfold adminPass; rw [hstage.1]
  rw [he] at hfine
  unfold Services.createGpp at hfine
  cases hd : Client.derive (config w'.p) (Client.instancesFile w'.p.ppList) none with
  | error e => rw [hd] at hfine; exact hfine.elim
  | ok out =>
    rw [hd] at hfine
    dsimp only at hfine
    cases hg : Client.gpkSubmission out.gpk with
    | none => rw [hg] at hfine; exact hfine.elim
    | some gpk =>
      rw [hg] at hfine
      obtain ⟨p', hp'⟩ := hfine
      obtain ⟨c1, c2, out2, c3, rfl⟩ := computeVk_some.1 hp'
      refine ⟨out, gpk, _, rfl, hg, computeVk_some.2 ⟨rfl, c2, out2, c3, rfl⟩, ?_⟩
      intro w'' hrun k hk
      have := (C57_violation_missing_files M (by exact hi.owner)
        (by exact fun a ha => (hi.added a).1 ha) rfl
        (by left; change w'.admin.gpk = none; rw [hadmin, hfiles]; rfl) hrun).2 k
      unfold Completed at hk
      rw [this] at hk
      have := (C37_pre_quorum M.env hi.reach ht k hk).2.2.1
      rw [hstage.1] at this
      cases this

/-- The hypotheses of `C57_violation_front_run` are met. -/
example : ∃ w w', Fresh toyMachine 7 [1, 2, 3] 2 3 w.p ∧ w.admin = .none ∧
    Honest toyMachine 7 [1, 2, 3] 2 3 (5 • g1) FixedPoint.aux2 w (2 * 3 + 1) w' := by
  obtain ⟨w, h0, ha, hw⟩ := toy_world
  obtain ⟨w', h⟩ := hw 7 (by norm_num)
  exact ⟨w, w', h0, ha, h⟩

/-! ### An evaluation with an unreduced response -/

/-- C57. If an evaluation of the open round is stored whose response `z` is not reduced (the contract
accepts it, see `C57_violation_unreduced_accepted`), the services never complete that round. -/
theorem C57_violation_unreduced_response (M : Machine) {o : Address} {ws : List Address} {w w' : World}
    (hr : Reachable M.env w.p) (howner : w.p.owner = o) (ho : o ≠ 0) (ht : 1 ≤ w.p.threshold)
    (hadd : ∀ a, Added w.p a → a ∈ ws) (hws : ∀ a ∈ ws, a ≠ 0)
    (hp : w.p.contractPhase = .Ready) (h1 : 1 ≤ w.p.currentRoundNum)
    (hopen : ¬ Completed w.p w.p.currentRoundNum) (i : ℕ)
    (hi : Submitted w.p w.p.currentRoundNum i)
    (hz : r ≤ (w.p.roundToEval w.p.currentRoundNum i).z.toNat) (hrun : Run M o ws w w') :
    w'.p.currentRoundNum = w.p.currentRoundNum ∧ ¬ Completed w'.p w.p.currentRoundNum := by
  suffices h : w'.p.owner = o ∧ (∀ a, Added w'.p a → a ∈ ws) ∧ w'.p.contractPhase = .Ready ∧
      w'.p.currentRoundNum = w.p.currentRoundNum ∧ ¬ Completed w'.p w.p.currentRoundNum from
    ⟨h.2.2.2.1, h.2.2.2.2⟩
  have hne : w.p.currentRoundNum ≠ 0 := by omega
  have key : ∀ (p : State) (a : Address) (c : Zkdvrf.Call),
      (∃ pk, c = .registerNode pk) ∨ (∃ pp pr, c = .submitPublicParams pp pr) ∨
        (∃ w, c = .submitPartialEval w) ∨ c = .initiateRandom →
      p.owner = o → (∀ a, Added p a → a ∈ ws) → p.contractPhase = .Ready →
      p.currentRoundNum = w.p.currentRoundNum → ¬ Completed p w.p.currentRoundNum →
      (mine M p a c).owner = o ∧ (∀ b, Added (mine M p a c) b → b ∈ ws) ∧
        (mine M p a c).contractPhase = .Ready ∧
        (mine M p a c).currentRoundNum = w.p.currentRoundNum ∧
        ¬ Completed (mine M p a c) w.p.currentRoundNum := by
    intro p a c hc h1 h2 h3 h4 h5
    unfold mine
    cases he : exec M.env p ⟨a, 0⟩ c with
    | none => rw [step_none he]; exact ⟨h1, h2, h3, h4, h5⟩
    | some p' =>
      rw [step_some he]
      obtain ⟨i1, i2⟩ := exec_ids he (by
        rcases hc with h | h | h | h
        · exact Or.inl h
        · exact Or.inr (Or.inl h)
        · exact Or.inr (Or.inr (Or.inl h))
        · exact Or.inr (Or.inr (Or.inr (Or.inr (Or.inr (Or.inl h))))))
      have hrd : p'.roundToRandom = p.roundToRandom := by
        refine exec_randoms he ?_
        rintro x rfl
        rcases hc with ⟨_, h⟩ | ⟨_, _, h⟩ | ⟨_, h⟩ | h <;> cases h
      refine ⟨i1.trans h1, fun b hb => h2 b ?_, exec_ready he h3, ?_, ?_⟩
      · unfold Added at hb ⊢; rwa [i2 b] at hb
      · rcases hc with ⟨_, rfl⟩ | ⟨_, _, rfl⟩ | ⟨_, rfl⟩ | rfl
        · rw [(registerNode_some.1 he).1] at h3; cases h3
        · rw [(submitPublicParams_some.1 he).2.2.1] at h3; cases h3
        · obtain ⟨_, _, _, _, _, _, _, _, rfl⟩ := submitPartialEval_some.1 he; exact h4
        · exfalso
          have := (initiateRandom_some.1 he).2.2.2.1
          rw [h4] at this
          rcases this with h | h
          · exact hne h
          · exact h5 h
      · unfold Completed at h5 ⊢; rwa [hrd]
  have hpanic : ∀ v, Run M o ws w v → v.p.currentRoundNum = w.p.currentRoundNum →
      ∀ f, createRandom M v.p f = .failed f := by
    intro v hv hk f
    have hl := run_later ho hws hv
    have hrv := hl.reachable hr
    have htv : 1 ≤ v.p.threshold := by rw [hl.threshold.1]; exact ht
    have hw := (C36_pre_write_once M.env hr ht hl).2 _ i hi
    obtain ⟨_, o1, o2, hzk⟩ := sim hrv htv
    have := combine_panics M.env hzk w.p.currentRoundNum i
      (show (v.p.roundToEval w.p.currentRoundNum i).indexPlus ≠ 0 by rw [hw]; exact hi)
      (show r ≤ (v.p.roundToEval w.p.currentRoundNum i).z.toNat by rw [hw]; exact hz)
    unfold createRandom
    dsimp only
    split
    · next gpk vks _ _ =>
      have e := this (config v.p) gpk vks (v.p.roundInput v.p.currentRoundNum) false
      change Client.combine M.env.E M.env.keccak (evalHash M.env.keccak) (config v.p)
        (Client.evalsFile v.p.memberCount (v.p.roundToEval w.p.currentRoundNum)) gpk vks
        (v.p.roundInput v.p.currentRoundNum) false = _ at e
      rw [← hk] at e
      rw [e]
    · rfl
  induction hrun with
  | refl => exact ⟨howner, hadd, hp, rfl, hopen⟩
  | @node v a d ha _ ih =>
    unfold World.nodeStep
    split
    · exact ih
    · exact ih
    · next f c hs =>
      obtain ⟨i1, i2, i3, i4, i5⟩ := ih
      exact key v.p a c (by
        rcases nodePass_send hs with h | h | h
        · exact Or.inl h
        · exact Or.inr (Or.inl h)
        · exact Or.inr (Or.inr (Or.inl h.1))) i1 i2 i3 i4 i5
  | @admin v b hv ih =>
    obtain ⟨i1, i2, i3, i4, i5⟩ := ih
    have hout : adminPass M v.p v.admin b = .idle ∨ adminPass M v.p v.admin b = .failed v.admin ∨
        adminPass M v.p v.admin b = .send v.admin .initiateRandom := by
      unfold adminPass
      rw [i3]
      dsimp only
      split
      · exact Or.inl rfl
      · split
        · exact Or.inr (Or.inr rfl)
        · split
          · exact Or.inr (Or.inl (hpanic v hv i4 _))
          · exact Or.inl rfl
    rcases hout with e | e | e
    · rw [e]; exact ⟨i1, i2, i3, i4, i5⟩
    · rw [e]; exact ⟨i1, i2, i3, i4, i5⟩
    · rw [e]
      exact key v.p o .initiateRandom (Or.inr (Or.inr (Or.inr rfl))) i1 i2 i3 i4 i5
  | @tick v b e _ ih =>
    obtain ⟨i1, i2, i3, i4, i5⟩ := ih
    cases hs : adminTick v.p v.admin b e with
    | idle => exact ⟨i1, i2, i3, i4, i5⟩
    | failed f => exact ⟨i1, i2, i3, i4, i5⟩
    | send f c => exact key v.p o c (Or.inr (Or.inr (Or.inr (adminTick_send hs)))) i1 i2 i3 i4 i5
  | @other v m c hm ho hn _ ih =>
    obtain ⟨i1, i2, i3, i4, i5⟩ := ih
    have := other_same (M := M) (c := c) hm ho hn i1 i2 (by rw [i3]; exact Phase.noConfusion)
    change (step M.env v.p (.call m c)).owner = o ∧
      (∀ a, Added (step M.env v.p (.call m c)) a → a ∈ ws) ∧
      (step M.env v.p (.call m c)).contractPhase = .Ready ∧
      (step M.env v.p (.call m c)).currentRoundNum = w.p.currentRoundNum ∧
      ¬ Completed (step M.env v.p (.call m c)) w.p.currentRoundNum
    rw [this]
    exact ⟨i1, i2, i3, i4, i5⟩

/-- C57. The contract accepts such an evaluation: a member that adds the group order to the response of
its own evaluation stops the services in the open round. -/
theorem C57_violation_unreduced_accepted (M : Machine) {o : Address} {ws : List Address} {w : World}
    (hr : Reachable M.env w.p) (howner : w.p.owner = o) (ho : o ≠ 0) (ht : 1 ≤ w.p.threshold)
    (hadd : ∀ a, Added w.p a → a ∈ ws) (hws : ∀ a ∈ ws, a ≠ 0)
    (hp : w.p.contractPhase = .Ready) (hopen : ¬ Completed w.p w.p.currentRoundNum)
    (a : Address) (ha : Registered w.p a) (hl : w.p.lastSubmittedRound a < w.p.currentRoundNum)
    (sk nonce : Fr) (hvk : w.p.vkList[indexOf w.p a]? = some (encodeG1 (sk • g1))) :
    let pe := DkgShareKey.evaluate M.env.keccak (evalHash M.env.keccak)
      ⟨indexOf w.p a + 1, sk, sk • g1⟩ (w.p.roundInput w.p.currentRoundNum) nonce
    ∃ p', exec M.env w.p ⟨a, 0⟩ (.submitPartialEval
        { evalWords pe with z := BitVec.ofNat 256 (pe.proof.z.val + r) }) = some p' ∧
      ∀ w'', Run M o ws { w with p := p' } w'' →
        w''.p.currentRoundNum = w.p.currentRoundNum ∧ ¬ Completed w''.p w.p.currentRoundNum := by
  intro pe
  have ha0 : a ≠ 0 := hws a (hadd a ((C31_pre_registration M.env hr ht).1 a ha))
  obtain ⟨hx, o1, o2, hz⟩ := sim hr ht
  obtain ⟨s', e1, _⟩ := C46_violation_noncanonical_z M.env hz hopen a ha0 ha hl sk nonce hvk
  have hn : w.p.memberCount ≠ 0 := by
    have h4 := (C31_pre_registration M.env hr ht).2.1 a ha
    have h5 := (C31_pre_registration M.env hr ht).2.2.2.2.1
    omega
  obtain ⟨p', a1, a2, e2, rfl⟩ := sim_back hz hx ha0 hn (Or.inl rfl) e1
  change exec M.env w.p ⟨a, 0⟩ (.submitPartialEval
        { evalWords pe with z := BitVec.ofNat 256 (pe.proof.z.val + r) }) = some p' at e2
  have hzn : (BitVec.ofNat 256 (pe.proof.z.val + r) : Word).toNat = pe.proof.z.val + r := by
    rw [BitVec.toNat_ofNat]
    refine Nat.mod_eq_of_lt ?_
    have h1 : pe.proof.z.val < r := ZMod.val_lt _
    have h2 : r + r < 2 ^ 256 := by decide +kernel
    omega
  have hr' := reach_next hr ha0 e2
  have hp' := exec_ready e2 hp
  have hq' := exec_randoms e2 (fun w hw => by cases hw)
  obtain ⟨i1, i2⟩ := exec_ids e2 (Or.inr (Or.inr (Or.inl ⟨_, rfl⟩)))
  have ht' := step_threshold M.env w.p (.call ⟨a, 0⟩ (.submitPartialEval
        { evalWords pe with z := BitVec.ofNat 256 (pe.proof.z.val + r) }))
  rw [step_some e2] at ht'
  have hst : p'.currentRoundNum = w.p.currentRoundNum ∧
      p'.roundToEval w.p.currentRoundNum (indexOf w.p a) =
        { evalWords pe with z := BitVec.ofNat 256 (pe.proof.z.val + r) } := by
    obtain ⟨_, _, _, _, _, _, _, _, e3⟩ := submitPartialEval_some.1 e2
    rw [← e3]
    refine ⟨rfl, ?_⟩
    simp only [Function.update_self]
    exact Function.update_self _ _ _
  refine ⟨p', e2, fun w'' hrun => ?_⟩
  have := C57_violation_unreduced_response M (w := { w with p := p' }) hr' (i1.trans howner) ho
    (by rw [ht'.1]; exact ht)
    (by intro b hb; refine hadd b ?_; unfold Added at hb ⊢; rwa [i2 b] at hb) hws hp'
    (by change 1 ≤ p'.currentRoundNum; rw [hst.1]; omega)
    (by
      change ¬ Completed p' p'.currentRoundNum
      rw [hst.1]; unfold Completed at hopen ⊢; rwa [hq'])
    (indexOf w.p a)
    (by
      change (p'.roundToEval p'.currentRoundNum (indexOf w.p a)).indexPlus ≠ 0
      rw [hst.1, hst.2]
      exact Nat.succ_ne_zero _)
    (by
      change r ≤ (p'.roundToEval p'.currentRoundNum (indexOf w.p a)).z.toNat
      rw [hst.1, hst.2]
      dsimp only
      rw [hzn]
      omega) hrun
  dsimp only at this
  rwa [hst.1] at this

/-- It applies to the first round of honest services. -/
example : ∃ (w : World) (sk : Fr), Reachable toyMachine.env w.p ∧ w.p.owner = 7 ∧ 1 ≤ w.p.threshold ∧
    (∀ a, Added w.p a → a ∈ [(1 : Address), 2, 3]) ∧ w.p.contractPhase = .Ready ∧
    ¬ Completed w.p w.p.currentRoundNum ∧ Registered w.p 1 ∧
    w.p.lastSubmittedRound 1 < w.p.currentRoundNum ∧
    w.p.vkList[indexOf w.p 1]? = some (encodeG1 (sk • g1)) := by
  obtain ⟨w, h0, _, hw⟩ := toy_world
  obtain ⟨w', h⟩ := hw 9 (by norm_num)
  have hN : 9 < 2 ^ 255 := lt_trans (show 9 < 2 ^ 10 by norm_num) (by decide +kernel)
  obtain ⟨s1, s2, s3, s4⟩ := (C55_stage toyMachine toy_faithful h0 h hN).2.2.2.2.2 0 0 (by norm_num)
    (by norm_num)
  have hi := honest_inv toy_faithful h0 h hN.le
  have ht : 1 ≤ w'.p.threshold := by rw [hi.thr]; norm_num
  have hc := C31_pre_registration toyMachine.env hi.reach ht
  have hreg : Registered w'.p 1 :=
    (hc.2.2.2.2.2.2 (by rw [s1]; exact Phase.noConfusion)).2 1 ((hi.added 1).2 (by decide))
  obtain ⟨F, _, _, hF⟩ := C33_pre_group_polynomial toyMachine.env hi.reach ht s1
    (by rw [hi.thr, hi.cnt]; exact toy_sound 2 3)
  have hlt : indexOf w'.p 1 < w'.p.memberCount := by
    have h4 := hc.2.1 1 hreg
    have h5 := hc.2.2.2.2.1
    omega
  obtain ⟨vk, hv1, hv2⟩ := hF _ hlt
  have hl : w'.p.lastSubmittedRound 1 = 0 := by
    obtain ⟨_, o1, o2, hz⟩ := sim hi.reach ht
    have hev := Zkdvrf.evalInv hz
    by_contra hne
    have hst := (hev.last_stored 1 (Nat.pos_of_ne_zero hne))
    have hle : w'.p.lastSubmittedRound 1 ≤ w'.p.currentRoundNum := hev.last_le 1
    have hone : w'.p.lastSubmittedRound 1 = 1 := by omega
    have hsub : Submitted w'.p 1 (indexOf w'.p 1) := by
      have := hst.2
      change (w'.p.roundToEval (w'.p.lastSubmittedRound 1) (indexOf w'.p 1)).indexPlus ≠ 0 at this
      rwa [hone] at this
    have hcnt := hev.count 1
    change w'.p.roundSubmissionCount 1 = _ at hcnt
    rw [s4] at hcnt
    have hmem := Finset.card_eq_zero.1 hcnt.symm
    rw [Finset.filter_eq_empty_iff] at hmem
    exact hmem (Finset.mem_range.2 hlt) hsub
  refine ⟨w', Spec.poly F ((indexOf w'.p 1 + 1 : ℕ) : Fr), hi.reach, hi.owner, ht, fun a ha => (hi.added a).1 ha, s1, by rw [s2]; exact s3, hreg,
    by rw [hl, s2]; norm_num, ?_⟩
  · rw [hv1, decodeG1_eq_some.1 hv2]

/-! ### The interval between rounds -/

/-- C57. If the interval elapses while a round is open, the admin service asks for the next round, and
this transaction reverts, whoever sends it. -/
theorem C57_violation_interval (M : Machine) (p : State) (f : Files) (hp : p.contractPhase = .Ready)
    (h1 : 1 ≤ p.currentRoundNum) (hopen : ¬ Completed p p.currentRoundNum) :
    adminTick p f true true = .send f .initiateRandom ∧
    ∀ m : Msg, exec M.env p m .initiateRandom = none := by
  constructor
  · unfold adminTick
    rw [hp]
    dsimp only
    rw [if_pos]
    rw [Bool.true_and, Bool.and_true]
    exact decide_eq_true (by omega)
  · intro m
    by_contra hne
    obtain ⟨p', he⟩ := Option.ne_none_iff_exists'.1 hne
    rcases (initiateRandom_some.1 he).2.2.2.1 with h | h
    · omega
    · exact hopen h

end Verif.Props
