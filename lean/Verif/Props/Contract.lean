import Verif.Props.Liveness

/-! Properties C16 and C30 to C40 for contracts/zkdvrf.sol: statements about every reachable state
and every history of calls. -/

namespace Verif.Props
open Verif Zkdvrf WeierstrassCurve.Affine

/-! ### C16 -/

/-- C16. In every reachable state `checkPublicParams` returns true exactly when all keys are
registered, the vector has `7n + 14` entries and its last `2n` entries are the registered keys in
order; it never returns false (it reverts instead). -/
theorem C16_checkPublicParams_iff (env : Env) {s : State} (hr : Reachable env s) (pp : List Word) :
    (checkPublicParams s pp = some true ↔ s.pkList.length = s.memberCount ∧
      pp.length = 7 * s.memberCount + 14 ∧
      pp.drop (pp.length - 2 * s.memberCount) = s.pkList.flatMap (fun k => [k.x, k.y])) ∧
    checkPublicParams s pp ≠ some false := by
  have hreg := regInv hr
  constructor
  · rw [checkPublicParams_true hreg.len hreg.bound]
    constructor
    · rintro ⟨h1, h2, h3⟩
      refine ⟨h1, h2, ?_⟩
      rw [h2, show 7 * s.memberCount + 14 - 2 * s.memberCount = 5 * s.memberCount + 14 by omega]
      exact h3
    · rintro ⟨h1, h2, h3⟩
      refine ⟨h1, h2, ?_⟩
      rw [h2, show 7 * s.memberCount + 14 - 2 * s.memberCount = 5 * s.memberCount + 14 by omega] at h3
      exact h3
  · intro h
    unfold checkPublicParams at h
    simp only [require_bind, u32_bind] at h
    exact checkLoop_not_false _ _ _ _ _ h.2.2.2.2

/-- C16. The library's instance for keys `pks` passes the check exactly when the contract's list
holds the words of `pks`, in the same order. -/
theorem C16_library_instance (env : Env) {s : State} (hr : Reachable env s) (ip : Bool)
    (pp : DkgMemberPublicParams) (pks : List Gk) (hs : pp.publicShares.length = s.memberCount)
    (hc : pp.ciphers.length = s.memberCount) (hp : pks.length = s.memberCount) (ins : List Fr)
    (hi : pp.toInstance ip pks = .ok ins) :
    checkPublicParams s (wordsOf ins) = some true ↔ s.pkList = pks.map keyWords := by
  have hreg := regInv hr
  rw [checkPublicParams_true hreg.len hreg.bound]
  have e : (wordsOf ins).length = 7 * s.memberCount + 14 ∧
      (wordsOf ins).drop (5 * s.memberCount + 14) =
        (pks.map keyWords).flatMap (fun k => [k.x, k.y]) := instance_keys hs hc hp hi
  constructor
  · rintro ⟨h1, _, h3⟩
    rw [e.2] at h3
    exact (key_list_inj _ _ (by rw [List.length_map, hp, h1]) h3).symm
  · intro h
    exact ⟨by rw [h, List.length_map, hp], e.1, by rw [e.2, h]⟩

/-- A reachable state with registered keys and an accepted vector: the ready deployment. -/
example : ∃ s, Reachable (toyEnv 1 2) s ∧ s.pkList.length = s.memberCount ∧ s.ppList ≠ [] ∧
    ∀ pp ∈ s.ppList, checkPublicParams s pp = some true := by
  obtain ⟨s, h1, h2, h3, _⟩ := toy_ready
  have hd := dkgInv h1
  have hreg := regInv h1
  have hm : s.pkList.length = s.memberCount := by
    rw [hreg.pkLen]; exact hreg.started (by rw [h2]; exact Phase.noConfusion)
  refine ⟨s, h1, hm, ?_, ?_⟩
  · intro h0
    have := hd.ppLen
    rw [h0, hd.late (Or.inr h2), h3] at this
    cases this
  · intro pp hpp
    obtain ⟨_, _, h5, h6⟩ := hd.ppOk pp hpp
    exact (checkPublicParams_true hreg.len hreg.bound pp).2 ⟨hm, h5, h6⟩

/-! ### C30 -/

/-- C30. One event moves the phase at most one step forward, and each step happens only through its
own entry point with its guard: the owner's `startNidkg` when all members are registered; the last
member's `submitPublicParams`; `computeVk` with a key accepted for the stored submissions. -/
theorem C30_phase_step (env : Env) {s : State} (hr : Reachable env s) (tx : Tx) (hv : tx.valid) :
    (step env s tx).contractPhase = s.contractPhase ∨
    (s.contractPhase = .Unregistered ∧ (step env s tx).contractPhase = .Nidkg ∧
      s.registeredCount = s.memberCount ∧ ∃ m, tx = .call m .startNidkg ∧ m.sender = s.owner) ∨
    (s.contractPhase = .Nidkg ∧ (step env s tx).contractPhase = .NidkgComplete ∧
      ∃ m pp pr, tx = .call m (.submitPublicParams pp pr) ∧ Registered s m.sender ∧
        s.ppList.length + 1 = s.memberCount ∧ (step env s tx).ppList = s.ppList ++ [pp]) ∨
    (s.contractPhase = .NidkgComplete ∧ (step env s tx).contractPhase = .Ready ∧
      ∃ m gpk vks, tx = .call m (.computeVk gpk) ∧
        Gpp.createGpp env.E s.memberCount gpk s.ppList = some (gpk, vks)) := by
  have hreg := regInv hr
  cases tx with
  | forceEther a => exact Or.inl rfl
  | call m c =>
    unfold step
    dsimp only
    cases he : exec env s m c with
    | none => exact Or.inl rfl
    | some s' =>
      rw [Option.getD_some]
      cases c with
      | addPermissionedNodes a =>
        obtain ⟨_, _, _, _, _, _, rfl⟩ := addPermissionedNodes_some.1 he; exact Or.inl rfl
      | registerNode pk =>
        obtain ⟨_, _, _, _, _, _, _, rfl⟩ := registerNode_some.1 he; exact Or.inl rfl
      | startNidkg =>
        obtain ⟨_, h2, h3, h4, rfl⟩ := startNidkg_some.1 he
        exact Or.inr (Or.inl ⟨h3, rfl, h4, m, rfl, h2⟩)
      | submitPublicParams pp pr =>
        obtain ⟨_, h2, h3, h4, h5, h6, h7, rfl⟩ := submitPublicParams_some.1 he
        by_cases hl : s.ppSubmissionCount + 1 = s.memberCount
        · refine Or.inr (Or.inr (Or.inl ⟨h3, if_pos hl, m, pp, pr, rfl, ?_, ?_, rfl⟩))
          · exact hreg.all_registered (hreg.started (by rw [h3]; exact Phase.noConfusion)) _
              (by rw [← h2]; exact hv)
          · rw [(dkgInv hr).ppLen]; exact hl
        · exact Or.inl (if_neg hl)
      | computeVk gpk =>
        obtain ⟨_, h2, out, h3, rfl⟩ := computeVk_some.1 he
        refine Or.inr (Or.inr (Or.inr ⟨h2, rfl, m, gpk, out.2, rfl, ?_⟩))
        rw [h3]
        have := (createGpp_key h3).choose_spec.2.2.1
        rw [← this]
      | initiateRandom =>
        obtain ⟨_, _, _, _, _, rfl⟩ := initiateRandom_some.1 he; exact Or.inl rfl
      | submitPartialEval pe =>
        obtain ⟨_, _, _, _, _, _, _, _, rfl⟩ := submitPartialEval_some.1 he; exact Or.inl rfl
      | submitRandom pr =>
        obtain ⟨_, _, _, _, _, rfl⟩ := submitRandom_some.1 he; exact Or.inl rfl
      | transferOwnership a =>
        obtain ⟨_, _, _, rfl⟩ := transferOwnership_some.1 he; exact Or.inl rfl
      | renounceOwnership =>
        obtain ⟨_, _, rfl⟩ := renounceOwnership_some.1 he; exact Or.inl rfl

/-- C30. Over any history the phase never goes back. -/
theorem C30_never_back (env : Env) {s s' : State} (hr : Reachable env s) (h : Later env s s') :
    s.contractPhase.rank ≤ s'.contractPhase.rank := (h.keeps hr).phase

/-- All four phases are reached by one history. -/
example : ∃ s s', Reachable (toyEnv 1 2) s ∧ Reachable (toyEnv 1 2) s' ∧
    s.contractPhase = .Unregistered ∧ s'.contractPhase = .Ready := by
  obtain ⟨s, h1, h2, _⟩ := toy_deploy
  obtain ⟨s', h3, h4, _⟩ := toy_ready
  exact ⟨s, s', h1, h3, h2, h4⟩

/-! ### C31 -/

/-- C31. In every reachable state: registered nodes are added ones, at most `memberCount` many;
their indices are exactly `0, …, registeredCount - 1`, each held by one node; the key list has one
on-curve entry per registered node; after registration is closed every added node is registered. -/
theorem C31_registration (env : Env) {s : State} (hr : Reachable env s) :
    (∀ a, Registered s a → Added s a) ∧
    (∀ a, Registered s a → indexOf s a < s.pkList.length) ∧
    (∀ a b, Registered s a → Registered s b → indexOf s a = indexOf s b → a = b) ∧
    (∀ i, i < s.pkList.length → ∃ a, Registered s a ∧ indexOf s a = i) ∧
    s.pkList.length ≤ s.memberCount ∧
    (∀ k ∈ s.pkList, GrumpkinSol.isOnCurve k = true) ∧
    (s.contractPhase ≠ .Unregistered →
      s.pkList.length = s.memberCount ∧ ∀ a, Added s a → Registered s a) := by
  have h := regInv hr
  have hl := h.pkLen
  refine ⟨?_, ?_, ?_, ?_, ?_, h.curve, ?_⟩
  · intro a ha h0
    unfold Registered at ha
    rw [h.empty a h0] at ha
    cases ha
  · intro a ha; rw [hl]; exact (h.reg_idx a ha).1
  · intro a b ha hb hab
    have e1 := (h.reg_idx a ha).2.1
    have e2 := (h.reg_idx b hb).2.1
    unfold indexOf at hab
    rw [← e1, ← e2, hab]
  · intro i hi
    rw [hl] at hi
    exact ⟨s.nodes i, h.reg_node i hi⟩
  · rw [hl]; exact h.reg_card.trans h.idx_le
  · intro hp
    have := h.started hp
    exact ⟨by rw [hl, this], fun a ha => h.all_registered this a ha⟩

/-- C31. A successful registration: the caller was added by then and not registered, the key is on
the curve, and from then on, through every later history, the caller is registered, keeps its index
and the key list keeps its key at that index; a second registration always reverts. -/
theorem C31_register_once (env : Env) {s s1 s2 : State} (hr : Reachable env s) (m : Msg)
    (hm : m.sender ≠ 0) (pk : GrumpkinSol.Point)
    (he : exec env s m (.registerNode pk) = some s1) (hl : Later env s1 s2) :
    Added s m.sender ∧ ¬ Registered s m.sender ∧ s.minNodeDeposit ≤ m.value ∧
    Registered s2 m.sender ∧ indexOf s2 m.sender = s.pkList.length ∧
    s2.pkList[s.pkList.length]? = some pk ∧
    ∀ v pk', exec env s2 ⟨m.sender, v⟩ (.registerNode pk') = none := by
  have hreg := regInv hr
  have r1 := hr.call hm he
  have hk := hl.keeps r1
  obtain ⟨h1, h2, h3, h4, h5, h6, h7, hs⟩ := registerNode_some.1 he
  have hst : (s1.addrToNode m.sender).status = true := by
    rw [← hs]; simp only [Function.update_self]
  have hix : (s1.addrToNode m.sender).pkIndex = s.pkList.length := by
    rw [← hs]; simp only [Function.update_self]; rw [hreg.pkIdx, hreg.pkLen]
  have hpl : s1.pkList = s.pkList ++ [pk] := by rw [← hs]
  obtain ⟨k1, k2, _⟩ := hk.status _ hst
  refine ⟨?_, ?_, h4, k1, k2.trans hix, ?_, ?_⟩
  · unfold Added; rw [← h2]; exact hm
  · unfold Registered; rw [h3]; exact Bool.false_ne_true
  · obtain ⟨t, ht⟩ := hk.pkList
    rw [← ht, hpl, List.append_assoc, List.getElem?_append_right le_rfl, Nat.sub_self]
    rfl
  · intro v pk'
    cases hc : exec env s2 ⟨m.sender, v⟩ (.registerNode pk') with
    | none => rfl
    | some s3 =>
      have := (registerNode_some.1 hc).2.2.1
      dsimp only at this
      rw [k1] at this
      cases this

/-- C31. Only the owner adds addresses: an event after which a new address is added is the owner's
call of `addPermissionedNodes` for it, made while fewer than `memberCount` addresses were added; and
a new registration comes only from a `registerNode` call of the node itself. -/
theorem C31_only_owner_adds (env : Env) (s : State) (tx : Tx) (hv : tx.valid) (a : Address) :
    (¬ Added s a → Added (step env s tx) a → ∃ m, tx = .call m (.addPermissionedNodes a) ∧
      m.sender = s.owner ∧ s.currentIndex < s.memberCount) ∧
    (¬ Registered s a → Registered (step env s tx) a →
      ∃ v pk, tx = .call ⟨a, v⟩ (.registerNode pk)) := by
  cases tx with
  | forceEther x => exact ⟨fun h h' => absurd h' h, fun h h' => absurd h' h⟩
  | call m c =>
    unfold step
    dsimp only
    cases he : exec env s m c with
    | none => exact ⟨fun h h' => absurd h' h, fun h h' => absurd h' h⟩
    | some s' =>
      rw [Option.getD_some]
      cases c with
      | addPermissionedNodes b =>
        obtain ⟨_, h2, h3, _, _, _, rfl⟩ := addPermissionedNodes_some.1 he
        by_cases hb : a = b
        · subst hb
          refine ⟨fun _ _ => ⟨m, rfl, h2, h3⟩, fun _ h => ?_⟩
          unfold Registered at h
          simp only [Function.update_self] at h
          cases h
        · unfold Added Registered
          simp only [Function.update_of_ne hb]
          exact ⟨fun h h' => absurd h' h, fun h h' => absurd h' h⟩
      | registerNode pk =>
        obtain ⟨_, _, _, _, _, _, _, rfl⟩ := registerNode_some.1 he
        by_cases hb : a = m.sender
        · subst hb
          unfold Added
          simp only [Function.update_self]
          exact ⟨fun h h' => absurd h' h, fun _ _ => ⟨m.value, pk, rfl⟩⟩
        · unfold Added Registered
          simp only [Function.update_of_ne hb]
          exact ⟨fun h h' => absurd h' h, fun h h' => absurd h' h⟩
      | startNidkg =>
        obtain ⟨_, _, _, _, rfl⟩ := startNidkg_some.1 he
        exact ⟨fun h h' => absurd h' h, fun h h' => absurd h' h⟩
      | submitPublicParams pp pr =>
        obtain ⟨_, _, _, _, _, _, _, rfl⟩ := submitPublicParams_some.1 he
        by_cases hb : a = m.sender
        · subst hb
          unfold Added Registered
          simp only [Function.update_self]
          exact ⟨fun h h' => absurd h' h, fun h h' => absurd h' h⟩
        · unfold Added Registered
          simp only [Function.update_of_ne hb]
          exact ⟨fun h h' => absurd h' h, fun h h' => absurd h' h⟩
      | computeVk gpk =>
        obtain ⟨_, _, _, _, rfl⟩ := computeVk_some.1 he
        exact ⟨fun h h' => absurd h' h, fun h h' => absurd h' h⟩
      | initiateRandom =>
        obtain ⟨_, _, _, _, _, rfl⟩ := initiateRandom_some.1 he
        exact ⟨fun h h' => absurd h' h, fun h h' => absurd h' h⟩
      | submitPartialEval pe =>
        obtain ⟨_, _, _, _, _, _, _, _, rfl⟩ := submitPartialEval_some.1 he
        exact ⟨fun h h' => absurd h' h, fun h h' => absurd h' h⟩
      | submitRandom pr =>
        obtain ⟨_, _, _, _, _, rfl⟩ := submitRandom_some.1 he
        exact ⟨fun h h' => absurd h' h, fun h h' => absurd h' h⟩
      | transferOwnership b =>
        obtain ⟨_, _, _, rfl⟩ := transferOwnership_some.1 he
        exact ⟨fun h h' => absurd h' h, fun h h' => absurd h' h⟩
      | renounceOwnership =>
        obtain ⟨_, _, rfl⟩ := renounceOwnership_some.1 he
        exact ⟨fun h h' => absurd h' h, fun h h' => absurd h' h⟩

/-- A deployment with two registered nodes exists. -/
example : ∃ s, Reachable (toyEnv 1 2) s ∧ s.pkList.length = 2 ∧ s.contractPhase ≠ .Unregistered := by
  obtain ⟨s, h1, h2, h3, _⟩ := toy_ready
  have hp : s.contractPhase ≠ .Unregistered := by rw [h2]; exact Phase.noConfusion
  exact ⟨s, h1, by rw [((C31_registration _ h1).2.2.2.2.2.2 hp).1, h3], hp⟩

/-! ### C32 -/

/-- C32. Once the parameter phase is over, exactly `memberCount` vectors are stored, their
submitters are pairwise distinct and are exactly the registered nodes; each vector passed the proof
check, has `7n + 14` entries and ends with the registered keys. -/
theorem C32_parameters (env : Env) {s : State} (hr : Reachable env s)
    (hp : s.contractPhase = .NidkgComplete ∨ s.contractPhase = .Ready) :
    s.ppList.length = s.memberCount ∧ s.ppListOrder.length = s.memberCount ∧
    s.ppListOrder.Nodup ∧ (∀ a, a ∈ s.ppListOrder ↔ Registered s a) ∧
    ∀ pp ∈ s.ppList, (∃ proof, env.verifyProof proof pp = some true) ∧
      pp.length = 7 * s.memberCount + 14 ∧
      pp.drop (5 * s.memberCount + 14) = s.pkList.flatMap (fun k => [k.x, k.y]) := by
  have h := dkgInv hr
  have hreg := regInv hr
  have hc := h.late hp
  have hst : s.registeredCount = s.memberCount := hreg.started (by
    rcases hp with hp | hp <;> rw [hp] <;> exact Phase.noConfusion)
  refine ⟨by rw [h.ppLen, hc], by rw [h.ordLen, hc], h.nodup, ?_, ?_⟩
  · -- submitters are registered and there are as many as registered nodes
    have hsub : s.ppListOrder.toFinset ⊆ (Finset.range s.registeredCount).image s.nodes := by
      intro a ha
      have := h.ppReg a ((h.ppMem a).1 (List.mem_toFinset.1 ha))
      have h2 := hreg.reg_idx a this
      exact Finset.mem_image.2 ⟨_, Finset.mem_range.2 h2.1, h2.2.1⟩
    have hcard : ((Finset.range s.registeredCount).image s.nodes).card ≤
        s.ppListOrder.toFinset.card := by
      rw [List.toFinset_card_of_nodup h.nodup, h.ordLen, hc, ← hst]
      exact Finset.card_image_le.trans (by simp)
    have heq := Finset.eq_of_subset_of_card_le hsub hcard
    intro a
    rw [← List.mem_toFinset, heq, Finset.mem_image]
    constructor
    · rintro ⟨i, hi, rfl⟩
      exact (hreg.reg_node i (Finset.mem_range.1 hi)).1
    · intro ha
      have h2 := hreg.reg_idx a ha
      exact ⟨_, Finset.mem_range.2 h2.1, h2.2.1⟩
  · intro pp hpp
    obtain ⟨proof, h1, h2, h3⟩ := h.ppOk pp hpp
    exact ⟨⟨proof, h1⟩, h2, h3⟩

/-- C32. A successful submission stores the vector under the sender, which had not submitted before;
it stays at its position through every later history, and a second submission by the same node
always reverts. After the phase is over the list never changes. -/
theorem C32_submission_kept (env : Env) {s s1 s2 : State} (hr : Reachable env s) (m : Msg)
    (hm : m.sender ≠ 0) (pp : List Word) (pr : List Byte)
    (he : exec env s m (.submitPublicParams pp pr) = some s1) (hl : Later env s1 s2) :
    Registered s m.sender ∧ m.sender ∉ s.ppListOrder ∧
    s2.ppList[s.ppList.length]? = some pp ∧ s2.ppListOrder[s.ppList.length]? = some m.sender ∧
    (∀ pp' pr', exec env s2 ⟨m.sender, 0⟩ (.submitPublicParams pp' pr') = none) ∧
    (s1.contractPhase = .NidkgComplete → s2.ppList = s1.ppList) := by
  have hreg := regInv hr
  have hdkg := dkgInv hr
  have r1 := hr.call hm he
  have hk := hl.keeps r1
  have hd2 := dkgInv (hl.reachable r1)
  obtain ⟨_, h2, h3, h4, h5, h6, h7, hs⟩ := submitPublicParams_some.1 he
  have e1 : s1.ppList = s.ppList ++ [pp] := by rw [← hs]
  have e2 : s1.ppListOrder = s.ppListOrder ++ [m.sender] := by rw [← hs]
  have hlen : s.ppList.length = s.ppListOrder.length := by rw [hdkg.ppLen, hdkg.ordLen]
  have hmem : m.sender ∈ s2.ppListOrder := by
    obtain ⟨t, ht⟩ := hk.ppOrder
    rw [← ht, e2]; simp
  refine ⟨?_, ?_, ?_, ?_, ?_, ?_⟩
  · exact hreg.all_registered (hreg.started (by rw [h3]; exact Phase.noConfusion)) _
      (by rw [← h2]; exact hm)
  · rw [hdkg.ppMem, h4]; exact Bool.false_ne_true
  · obtain ⟨t, ht⟩ := hk.ppList
    rw [← ht, e1, List.append_assoc, List.getElem?_append_right le_rfl, Nat.sub_self]
    rfl
  · obtain ⟨t, ht⟩ := hk.ppOrder
    rw [← ht, e2, hlen, List.append_assoc, List.getElem?_append_right le_rfl, Nat.sub_self]
    rfl
  · intro pp' pr'
    cases hc : exec env s2 ⟨m.sender, 0⟩ (.submitPublicParams pp' pr') with
    | none => rfl
    | some s3 =>
      have := (submitPublicParams_some.1 hc).2.2.2.1
      dsimp only at this
      rw [(hd2.ppMem _).1 hmem] at this
      cases this
  · intro h
    exact (hk.ppDone (by rw [h]; exact le_rfl)).1

/-- A finished parameter phase exists. -/
example : ∃ s, Reachable (toyEnv 1 2) s ∧ s.contractPhase = .Ready ∧ s.ppList.length = 2 := by
  obtain ⟨s, h1, h2, h3, _⟩ := toy_ready
  exact ⟨s, h1, h2, by rw [(C32_parameters _ h1 (Or.inr h2)).1, h3]⟩

/-! ### C33 -/

/-- C33. In phase `Ready` the stored keys are the output of `createGpp` on the full list of
submissions, and no other key would have been accepted; there is one verification key per member. -/
theorem C33_keys_from_submissions (env : Env) {s : State} (hr : Reachable env s)
    (hp : s.contractPhase = .Ready) :
    Gpp.createGpp env.E s.memberCount s.gpkVal s.ppList = some (s.gpkVal, s.vkList) ∧
    s.ppList.length = s.memberCount ∧ s.vkList.length = s.memberCount ∧
    ∀ gpk out, Gpp.createGpp env.E s.memberCount gpk s.ppList = some out →
      gpk = s.gpkVal ∧ out = (s.gpkVal, s.vkList) := by
  have h := (dkgInv hr).ready hp
  obtain ⟨a, _, _, _, _, hl⟩ := createGpp_key h
  exact ⟨h, (C32_parameters env hr (Or.inr hp)).1, hl, fun gpk out h' => createGpp_unique h' h⟩

/-- C33. Before `Ready` no keys are stored; from `Ready` on nothing changes them, in any history. -/
theorem C33_keys_fixed (env : Env) {s s' : State} (hr : Reachable env s) :
    (s.contractPhase ≠ .Ready → s.vkList = [] ∧ s.gpkVal = ⟨0, 0, 0, 0⟩) ∧
    (s.contractPhase = .Ready → Later env s s' → s'.contractPhase = .Ready ∧
      s'.vkList = s.vkList ∧ s'.gpkVal = s.gpkVal ∧ s'.pkList = s.pkList ∧ s'.ppList = s.ppList) := by
  constructor
  · intro h
    obtain ⟨h1, h2, _⟩ := (dkgInv hr).pre h
    exact ⟨h1, h2⟩
  · intro hp hl
    have hk := hl.keeps hr
    have h1 := hk.phase
    rw [hp] at h1
    obtain ⟨h2, h3⟩ := hk.keys hp
    obtain ⟨h4, _, h5⟩ := hk.ppDone (by rw [hp]; exact (by decide : 2 ≤ Phase.rank .Ready))
    exact ⟨rank_ready h1, h2, h3, h5, h4⟩

/-- C33. If the proof system is sound, the stored keys are those of one polynomial with `threshold`
coefficients: the group key is its value at zero and the `i`-th verification key its value at
`i + 1`, in the exponent. -/
theorem C33_group_polynomial (env : Env) {s : State} (hr : Reachable env s)
    (hp : s.contractPhase = .Ready) (hs : Spec.SnarkSound env s.threshold s.memberCount) :
    ∃ F : List Fr, F.length = s.threshold ∧
      decodeG2 s.gpkVal = some (smul2 (Spec.poly F 0) g2) ∧
      ∀ i, i < s.memberCount → ∃ vk, s.vkList[i]? = some vk ∧
        decodeG1 vk = some (Spec.poly F ((i + 1 : ℕ) : Fr) • g1) := by
  obtain ⟨F, h1, h2, h3⟩ := group_poly hr hp hs
  refine ⟨F, h1, by rw [h2, decodeG2_encode, if_pos (smul2_torsion _)], ?_⟩
  intro i hi
  refine ⟨_, by rw [h3, List.getElem?_map, List.getElem?_range hi]; rfl, decode_encode _⟩

/-- The hypotheses are met by the ready deployment. -/
example : ∃ s, Reachable (toyEnv 1 2) s ∧ s.contractPhase = .Ready ∧
    Spec.SnarkSound (toyEnv 1 2) s.threshold s.memberCount := by
  obtain ⟨s, h1, h2, h3, h4, _⟩ := toy_ready
  exact ⟨s, h1, h2, by rw [h3, h4]; exact toy_sound 1 2⟩

/-! ### C34 -/

/-- C34. The round number changes only by the owner's `initiateRandom` in phase `Ready`, by one, and
only if the current round is complete or no round was opened. -/
theorem C34_round_step (env : Env) (s : State) (tx : Tx) :
    (step env s tx).currentRoundNum = s.currentRoundNum ∨
    ((step env s tx).currentRoundNum = s.currentRoundNum + 1 ∧ s.contractPhase = .Ready ∧
      (s.currentRoundNum = 0 ∨ Completed s s.currentRoundNum) ∧
      ∃ m, tx = .call m .initiateRandom ∧ m.sender = s.owner) := by
  cases tx with
  | forceEther a => exact Or.inl rfl
  | call m c =>
    unfold step
    dsimp only
    cases he : exec env s m c with
    | none => exact Or.inl rfl
    | some s' =>
      rw [Option.getD_some]
      cases c with
      | addPermissionedNodes a =>
        obtain ⟨_, _, _, _, _, _, rfl⟩ := addPermissionedNodes_some.1 he; exact Or.inl rfl
      | registerNode pk =>
        obtain ⟨_, _, _, _, _, _, _, rfl⟩ := registerNode_some.1 he; exact Or.inl rfl
      | startNidkg =>
        obtain ⟨_, _, _, _, rfl⟩ := startNidkg_some.1 he; exact Or.inl rfl
      | submitPublicParams pp pr =>
        obtain ⟨_, _, _, _, _, _, _, rfl⟩ := submitPublicParams_some.1 he; exact Or.inl rfl
      | computeVk gpk =>
        obtain ⟨_, _, _, _, rfl⟩ := computeVk_some.1 he; exact Or.inl rfl
      | initiateRandom =>
        obtain ⟨_, h2, h3, h4, _, rfl⟩ := initiateRandom_some.1 he
        exact Or.inr ⟨rfl, h3, h4, m, rfl, h2⟩
      | submitPartialEval pe =>
        obtain ⟨_, _, _, _, _, _, _, _, rfl⟩ := submitPartialEval_some.1 he; exact Or.inl rfl
      | submitRandom pr =>
        obtain ⟨_, _, _, _, _, rfl⟩ := submitRandom_some.1 he; exact Or.inl rfl
      | transferOwnership a =>
        obtain ⟨_, _, _, rfl⟩ := transferOwnership_some.1 he; exact Or.inl rfl
      | renounceOwnership =>
        obtain ⟨_, _, rfl⟩ := renounceOwnership_some.1 he; exact Or.inl rfl

/-- C34. In every reachable state all rounds from 1 below the current one are complete; the input of
an opened round `k` is the prefix followed by the decimal digits of `k`, and two opened rounds have
different inputs. A round is open only in phase `Ready`. -/
theorem C34_rounds (env : Env) {s : State} (hr : Reachable env s) :
    (∀ k, 1 ≤ k → k < s.currentRoundNum → Completed s k) ∧
    (∀ k, 1 ≤ k → k ≤ s.currentRoundNum →
      s.roundInput k = strBytes "zkRand-v1-2024:" ++ decimal k) ∧
    (∀ j k, 1 ≤ j → j ≤ s.currentRoundNum → 1 ≤ k → k ≤ s.currentRoundNum → j ≠ k →
      s.roundInput j ≠ s.roundInput k) ∧
    (1 ≤ s.currentRoundNum → s.contractPhase = .Ready) := by
  have h := roundInv hr
  have hin : ∀ k, 1 ≤ k → k ≤ s.currentRoundNum →
      s.roundInput k = strBytes "zkRand-v1-2024:" ++ decimal k := by
    intro k h1 h2
    rw [h.input, if_pos ⟨h1, h2⟩]; rfl
  refine ⟨h.done, hin, ?_, ?_⟩
  · intro j k hj1 hj2 hk1 hk2 hne heq
    rw [hin j hj1 hj2, hin k hk1 hk2] at heq
    exact hne (decimal_inj _ _ (List.append_cancel_left heq))
  · intro h1
    by_contra hc
    have := ((dkgInv hr).pre hc).2.2
    omega

/-- The digits are the usual ones. -/
example : decimal 0 = strBytes "0" ∧ decimal 7 = strBytes "7" ∧ decimal 2024 = strBytes "2024" := by
  simp [decimal, strBytes]

/-- A state with an open round exists. -/
example : ∃ s, Reachable (toyEnv 1 2) s ∧ s.currentRoundNum = 1 := by
  obtain ⟨s, h1, _, _, _, _, h6, _⟩ := toy_open
  exact ⟨s, h1, h6⟩

end Verif.Props
