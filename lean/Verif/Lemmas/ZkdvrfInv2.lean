import Verif.Lemmas.ZkdvrfInv

/-! Invariants of contracts/zkdvrf.sol: parameter submissions, keys, rounds, evaluations. -/

set_option linter.unusedSimpArgs false

namespace Verif.Zkdvrf

theorem createGpp_fst {E : BnPairing} {n : ℕ} {gpk : SolG2} {inst : List (List Word)}
    {out : SolG2 × List SolG1} (h : Gpp.createGpp E n gpk inst = some out) : out.1 = gpk := by
  unfold Gpp.createGpp at h
  simp only [require_bind, u32_bind, bool_bind, g1_bind] at h
  obtain ⟨_, _, _, _, ga, _, h⟩ := h
  rw [opt_bind] at h
  obtain ⟨vks, _, h⟩ := h
  simp only [require_bind, u32_bind, bool_bind, g1_bind] at h
  obtain ⟨_, _, _, h⟩ := h
  have := Option.some.inj h
  rw [← this]

/-- A parameter vector that passed both checks against the registered keys. -/
def Accepted (env : Env) (s : State) (pp : List Word) : Prop :=
  ∃ proof, env.verifyProof proof pp = some true ∧ pp.length = 7 * s.memberCount + 14 ∧
    pp.drop (5 * s.memberCount + 14) = s.pkList.flatMap (fun k => [k.x, k.y])

/-- Facts about parameter submissions and the keys computed from them. -/
structure DkgInv (env : Env) (s : State) : Prop where
  ppLen : s.ppList.length = s.ppSubmissionCount
  ordLen : s.ppListOrder.length = s.ppSubmissionCount
  nodup : s.ppListOrder.Nodup
  ppMem : ∀ a, a ∈ s.ppListOrder ↔ (s.addrToNode a).statusPP = true
  ppReg : ∀ a, (s.addrToNode a).statusPP = true → (s.addrToNode a).status = true
  ppOk : ∀ pp ∈ s.ppList, Accepted env s pp
  unreg : s.contractPhase = .Unregistered → s.ppList = []
  nidkg : s.contractPhase = .Nidkg → s.ppSubmissionCount < s.memberCount ∨ s.memberCount = 0
  late : s.contractPhase = .NidkgComplete ∨ s.contractPhase = .Ready →
    s.ppSubmissionCount = s.memberCount
  pre : s.contractPhase ≠ .Ready → s.vkList = [] ∧ s.gpkVal = ⟨0, 0, 0, 0⟩ ∧ s.currentRoundNum = 0
  ready : s.contractPhase = .Ready →
    Gpp.createGpp env.E s.memberCount s.gpkVal s.ppList = some (s.gpkVal, s.vkList)

theorem dkgInv {env : Env} {s : State} (h : Reachable env s) : DkgInv env s := by
  refine reach_induct (DkgInv env) ?_ ?_ ?_ h
  · intro m t n a b c d s hm hc
    rw [constructor_some] at hc
    obtain ⟨_, _, _, _, _, _, hb, rfl⟩ := hc
    exact {
      ppLen := rfl, ordLen := rfl, nodup := List.nodup_nil
      ppMem := by intro a; simp [Node.empty]
      ppReg := by intro a h; cases h
      ppOk := by intro pp h; cases h
      unreg := fun _ => rfl
      nidkg := by intro h; cases h
      late := by rintro (h | h) <;> cases h
      pre := fun _ => ⟨rfl, rfl, rfl⟩
      ready := by intro h; cases h }
  · intro s m c s' hreach ih hm he
    have hreg := regInv hreach
    cases c with
    | addPermissionedNodes a =>
      obtain ⟨_, _, h1, h2, h3, h4, rfl⟩ := addPermissionedNodes_some.1 he
      have hpp : (s.addrToNode a).statusPP = false := by rw [hreg.empty a h3]; rfl
      exact { ih with
        ppMem := by
          intro b
          by_cases hb : b = a
          · subst hb
            simp only [Function.update_self]
            rw [ih.ppMem, hpp]
          · simp only [Function.update_of_ne hb]; exact ih.ppMem b
        ppReg := by
          intro b
          by_cases hb : b = a
          · subst hb; simp
          · simp only [Function.update_of_ne hb]; exact ih.ppReg b
        ppOk := ih.ppOk }
    | registerNode pk =>
      obtain ⟨h1, h2, h3, h4, h5, h6, h7, rfl⟩ := registerNode_some.1 he
      exact { ih with
        ppMem := by
          intro b
          by_cases hb : b = m.sender
          · subst hb
            simp only [Function.update_self]
            exact ih.ppMem _
          · simp only [Function.update_of_ne hb]; exact ih.ppMem b
        ppReg := by
          intro b
          by_cases hb : b = m.sender
          · subst hb; simp
          · simp only [Function.update_of_ne hb]; exact ih.ppReg b
        ppOk := by
          intro pp hpp
          simp only [ih.unreg h1] at hpp
          cases hpp }
    | startNidkg =>
      obtain ⟨_, _, h3, h4, rfl⟩ := startNidkg_some.1 he
      have h0 : s.ppSubmissionCount = 0 := by rw [← ih.ppLen, ih.unreg h3]; rfl
      exact { ih with
        ppOk := ih.ppOk
        unreg := by intro h; cases h
        nidkg := by
          intro _
          change s.ppSubmissionCount < s.memberCount ∨ s.memberCount = 0
          omega
        late := by rintro (h | h) <;> cases h
        pre := fun _ => ih.pre (by rw [h3]; exact Phase.noConfusion)
        ready := by intro h; cases h }
    | submitPublicParams pp pr =>
      obtain ⟨_, h2, h3, h4, h5, h6, h7, rfl⟩ := submitPublicParams_some.1 he
      have hstart := hreg.started (by rw [h3]; exact Phase.noConfusion)
      have hstat := hreg.all_registered hstart m.sender (by rw [← h2]; exact hm)
      have hpos : s.memberCount ≠ 0 := by
        have := (hreg.reg_idx _ hstat).1
        omega
      have hlt : s.ppSubmissionCount < s.memberCount := by
        rcases ih.nidkg h3 with h | h
        · exact h
        · exact absurd h hpos
      rw [checkPublicParams_true hreg.len hreg.bound] at h5
      exact {
        ppLen := by simp [ih.ppLen]
        ordLen := by simp [ih.ordLen]
        nodup := by
          simp only
          rw [List.nodup_append]
          refine ⟨ih.nodup, List.nodup_singleton _, ?_⟩
          rintro a ha b hb rfl
          rw [List.mem_singleton.1 hb, ih.ppMem, h4] at ha
          cases ha
        ppMem := by
          intro b
          simp only [List.mem_append, List.mem_singleton]
          by_cases hb : b = m.sender
          · subst hb; simp
          · simp only [Function.update_of_ne hb, hb, or_false]; exact ih.ppMem b
        ppReg := by
          intro b
          by_cases hb : b = m.sender
          · subst hb; simp [hstat]
          · simp only [Function.update_of_ne hb]; exact ih.ppReg b
        ppOk := by
          intro pp' hpp
          rcases List.mem_append.1 hpp with hpp | hpp
          · exact ih.ppOk pp' hpp
          · rw [List.mem_singleton.1 hpp]
            exact ⟨pr, h6, h5.2.1, h5.2.2⟩
        unreg := by
          intro h
          simp only [h3] at h
          split at h <;> cases h
        nidkg := by
          intro h
          simp only at h
          split at h
          · cases h
          · left
            change s.ppSubmissionCount + 1 < s.memberCount
            omega
        late := by
          intro h
          simp only [h3] at h
          split at h
          · rename_i hc; exact hc
          · rcases h with h | h <;> cases h
        pre := fun _ => ih.pre (by rw [h3]; exact Phase.noConfusion)
        ready := by
          intro h
          simp only [h3] at h
          split at h <;> cases h }
    | computeVk gpk =>
      obtain ⟨_, h2, out, h3, rfl⟩ := computeVk_some.1 he
      obtain ⟨p1, p2, p3⟩ := ih.pre (by rw [h2]; exact Phase.noConfusion)
      exact { ih with
        ppOk := ih.ppOk
        unreg := by intro h; cases h
        nidkg := by intro h; cases h
        late := fun _ => ih.late (Or.inl h2)
        pre := by intro h; exact absurd rfl h
        ready := by
          intro _
          simp only [p1, List.nil_append]
          rw [createGpp_fst h3, h3]
          rw [← createGpp_fst h3] }
    | initiateRandom =>
      obtain ⟨_, _, h3, _, _, rfl⟩ := initiateRandom_some.1 he
      exact { ih with
        ppOk := ih.ppOk
        pre := by intro h; exact absurd h3 h }
    | submitPartialEval pe =>
      obtain ⟨_, _, _, _, _, _, _, _, rfl⟩ := submitPartialEval_some.1 he
      exact { ih with ppOk := ih.ppOk }
    | submitRandom pr =>
      obtain ⟨_, _, _, _, _, rfl⟩ := submitRandom_some.1 he
      exact { ih with ppOk := ih.ppOk }
    | transferOwnership a =>
      obtain ⟨_, _, _, rfl⟩ := transferOwnership_some.1 he
      exact { ih with ppOk := ih.ppOk }
    | renounceOwnership =>
      obtain ⟨_, _, rfl⟩ := renounceOwnership_some.1 he
      exact { ih with ppOk := ih.ppOk }
  · intro s a ih
    exact { ih with ppOk := ih.ppOk }

/-! ### Rounds -/

/-- Facts about rounds, their inputs and stored randoms. -/
structure RoundInv (env : Env) (s : State) : Prop where
  done : ∀ k, 1 ≤ k → k < s.currentRoundNum → (s.roundToRandom k).value ≠ 0
  future : ∀ k, s.currentRoundNum < k → s.roundToRandom k = .empty
  input : ∀ k, s.roundInput k =
    if 1 ≤ k ∧ k ≤ s.currentRoundNum then inputPrefix ++ decimal k else []
  unset : ∀ k, (s.roundToRandom k).value = 0 → s.roundToRandom k = .empty ∨
    env.keccak (Word.bytes (s.roundToRandom k).proof.x ++ Word.bytes (s.roundToRandom k).proof.y) = 0
  hash : ∀ k, (s.roundToRandom k).value ≠ 0 → (s.roundToRandom k).value =
    env.keccak (Word.bytes (s.roundToRandom k).proof.x ++ Word.bytes (s.roundToRandom k).proof.y)
  verified : ∀ k, 1 ≤ k → (s.roundToRandom k).value ≠ 0 →
    PseudoRandSol.verifyPseudoRand env.E env.keccak (s.roundInput k) (s.roundToRandom k).proof
      s.gpkVal = some true
  bound : s.currentRoundNum < 2 ^ 256

theorem roundInv {env : Env} {s : State} (h : Reachable env s) : RoundInv env s := by
  refine reach_induct (RoundInv env) ?_ ?_ ?_ h
  · intro m t n a b c d s hm hc
    rw [constructor_some] at hc
    obtain ⟨_, _, _, _, _, _, hb, rfl⟩ := hc
    exact {
      done := by intro k _ h; exact absurd h (Nat.not_lt_zero _)
      future := fun _ _ => rfl
      input := by
        intro k
        rw [if_neg]
        rintro ⟨h1, h2⟩
        change k ≤ 0 at h2
        omega
      unset := fun _ _ => Or.inl rfl
      hash := by intro k h; exact absurd rfl h
      verified := by intro k _ h; exact absurd rfl h
      bound := by change 0 < _; norm_num }
  · intro s m c s' hreach ih hm he
    have hdkg := dkgInv hreach
    cases c with
    | addPermissionedNodes a =>
      obtain ⟨_, _, h1, h2, h3, h4, rfl⟩ := addPermissionedNodes_some.1 he
      exact { ih with }
    | registerNode pk =>
      obtain ⟨h1, h2, h3, h4, h5, h6, h7, rfl⟩ := registerNode_some.1 he
      exact { ih with }
    | startNidkg =>
      obtain ⟨_, _, h3, h4, rfl⟩ := startNidkg_some.1 he
      exact { ih with }
    | submitPublicParams pp pr =>
      obtain ⟨_, h2, h3, h4, h5, h6, h7, rfl⟩ := submitPublicParams_some.1 he
      exact { ih with }
    | computeVk gpk =>
      obtain ⟨_, h2, out, h3, rfl⟩ := computeVk_some.1 he
      have h0 := (hdkg.pre (by rw [h2]; exact Phase.noConfusion)).2.2
      exact { ih with
        verified := by
          intro k hk hv
          have : s.roundToRandom k = .empty := ih.future k (by omega)
          change (s.roundToRandom k).value ≠ 0 at hv
          rw [this] at hv
          exact absurd rfl hv }
    | initiateRandom =>
      obtain ⟨_, _, h3, h4, h5, rfl⟩ := initiateRandom_some.1 he
      exact {
        done := by
          intro k h1 h2
          change k < s.currentRoundNum + 1 at h2
          change (s.roundToRandom k).value ≠ 0
          by_cases hk : k = s.currentRoundNum
          · subst hk
            rcases h4 with h4 | h4
            · omega
            · exact h4
          · exact ih.done k h1 (by omega)
        future := by
          intro k hk
          change s.currentRoundNum + 1 < k at hk
          exact ih.future k (by omega)
        input := by
          intro k
          by_cases hk : k = s.currentRoundNum + 1
          · subst hk
            simp
          · simp only [Function.update_of_ne hk]
            rw [ih.input]
            have : (1 ≤ k ∧ k ≤ s.currentRoundNum) ↔ (1 ≤ k ∧ k ≤ s.currentRoundNum + 1) := by
              omega
            simp only [this]
        unset := ih.unset
        hash := ih.hash
        verified := by
          intro k hk hv
          change (s.roundToRandom k).value ≠ 0 at hv
          have hne : k ≠ s.currentRoundNum + 1 := by
            rintro rfl
            rw [ih.future _ (by omega)] at hv
            exact hv rfl
          simp only [Function.update_of_ne hne]
          exact ih.verified k hk hv
        bound := h5 }
    | submitPartialEval pe =>
      obtain ⟨_, _, _, _, _, _, _, _, rfl⟩ := submitPartialEval_some.1 he
      exact { ih with }
    | submitRandom pr =>
      obtain ⟨_, _, h3, h4, h5, rfl⟩ := submitRandom_some.1 he
      exact {
        done := by
          intro k h1 h2
          change k < s.currentRoundNum at h2
          simp only [Function.update_of_ne (Nat.ne_of_lt h2)]
          exact ih.done k h1 h2
        future := by
          intro k hk
          change s.currentRoundNum < k at hk
          simp only [Function.update_of_ne (Nat.ne_of_gt hk)]
          exact ih.future k hk
        input := ih.input
        unset := by
          intro k hv
          by_cases hk : k = s.currentRoundNum
          · subst hk
            simp only [Function.update_self] at hv ⊢
            right
            rw [← h5, hv]
          · simp only [Function.update_of_ne hk] at hv ⊢
            exact ih.unset k hv
        hash := by
          intro k hv
          by_cases hk : k = s.currentRoundNum
          · subst hk
            simp only [Function.update_self] at hv ⊢
            exact h5
          · simp only [Function.update_of_ne hk] at hv ⊢
            exact ih.hash k hv
        verified := by
          intro k h1 hv
          by_cases hk : k = s.currentRoundNum
          · subst hk
            simp only [Function.update_self] at hv ⊢
            exact h4
          · simp only [Function.update_of_ne hk] at hv ⊢
            exact ih.verified k h1 hv
        bound := ih.bound }
    | transferOwnership a =>
      obtain ⟨_, _, _, rfl⟩ := transferOwnership_some.1 he
      exact { ih with }
    | renounceOwnership =>
      obtain ⟨_, _, rfl⟩ := renounceOwnership_some.1 he
      exact { ih with }
  · intro s a ih
    exact { ih with }

/-! ### Partial evaluations -/

/-- Facts about stored partial evaluations. -/
structure EvalInv (env : Env) (s : State) : Prop where
  last_le : ∀ a, s.lastSubmittedRound a ≤ s.currentRoundNum
  stored : ∀ k i, (s.roundToEval k i).indexPlus ≠ 0 →
    (1 ≤ k ∧ k ≤ s.currentRoundNum) ∧ i < s.registeredCount ∧ s.contractPhase = .Ready ∧
    (s.roundToEval k i).indexPlus = i + 1 ∧ k ≤ s.lastSubmittedRound (s.nodes i) ∧
    ∃ vk, s.vkList[i]? = some vk ∧ PseudoRandSol.verifyPartialEval env.keccak (s.roundInput k)
      (s.roundToEval k i).value ⟨(s.roundToEval k i).z, (s.roundToEval k i).c⟩ vk = some true
  empty : ∀ k i, (s.roundToEval k i).indexPlus = 0 → s.roundToEval k i = .empty
  last_stored : ∀ a, 0 < s.lastSubmittedRound a → (s.addrToNode a).status = true ∧
    (s.roundToEval (s.lastSubmittedRound a) (s.addrToNode a).pkIndex).indexPlus ≠ 0
  count : ∀ k, s.roundSubmissionCount k =
    ((Finset.range s.memberCount).filter (fun i => (s.roundToEval k i).indexPlus ≠ 0)).card

theorem evalInv {env : Env} {s : State} (h : Reachable env s) : EvalInv env s := by
  refine reach_induct (EvalInv env) ?_ ?_ ?_ h
  · intro m t n a b c d s hm hc
    rw [constructor_some] at hc
    obtain ⟨_, _, _, _, _, _, hb, rfl⟩ := hc
    exact {
      last_le := fun _ => le_rfl
      stored := by intro k i h; exact absurd rfl h
      empty := fun _ _ _ => rfl
      last_stored := by intro a h; exact absurd h (Nat.lt_irrefl _)
      count := by intro k; simp [SolEval.empty] }
  · intro s m c s' hreach ih hm he
    have hreg := regInv hreach
    have hdkg := dkgInv hreach
    have hround := roundInv hreach
    have hpre : s.contractPhase ≠ .Ready → ∀ k i, ¬ (s.roundToEval k i).indexPlus ≠ 0 :=
      fun hp k i h => hp (ih.stored k i h).2.2.1
    cases c with
    | addPermissionedNodes a =>
      obtain ⟨_, _, h1, h2, h3, h4, rfl⟩ := addPermissionedNodes_some.1 he
      exact { ih with
        last_stored := by
          intro b hb
          obtain ⟨x1, x2⟩ := ih.last_stored b hb
          have hne : b ≠ a := by
            rintro rfl
            rw [hreg.empty b h3] at x1
            cases x1
          simp only [Function.update_of_ne hne]
          exact ⟨x1, x2⟩ }
    | registerNode pk =>
      obtain ⟨h1, h2, h3, h4, h5, h6, h7, rfl⟩ := registerNode_some.1 he
      exact { ih with
        stored := by
          intro k i h
          exact absurd h (hpre (by rw [h1]; exact Phase.noConfusion) k i)
        last_stored := by
          intro b hb
          have := ih.last_le b
          have h0 := (hdkg.pre (by rw [h1]; exact Phase.noConfusion)).2.2
          change 0 < s.lastSubmittedRound b at hb
          omega }
    | startNidkg =>
      obtain ⟨_, _, h3, h4, rfl⟩ := startNidkg_some.1 he
      exact { ih with
        stored := by
          intro k i h
          exact absurd h (hpre (by rw [h3]; exact Phase.noConfusion) k i) }
    | submitPublicParams pp pr =>
      obtain ⟨_, h2, h3, h4, h5, h6, h7, rfl⟩ := submitPublicParams_some.1 he
      exact { ih with
        stored := by
          intro k i h
          exact absurd h (hpre (by rw [h3]; exact Phase.noConfusion) k i)
        last_stored := by
          intro b hb
          have := ih.last_le b
          have h0 := (hdkg.pre (by rw [h3]; exact Phase.noConfusion)).2.2
          change 0 < s.lastSubmittedRound b at hb
          omega }
    | computeVk gpk =>
      obtain ⟨_, h2, out, h3, rfl⟩ := computeVk_some.1 he
      exact { ih with
        stored := by
          intro k i h
          exact absurd h (hpre (by rw [h2]; exact Phase.noConfusion) k i) }
    | initiateRandom =>
      obtain ⟨_, _, h3, h4, h5, rfl⟩ := initiateRandom_some.1 he
      exact { ih with
        last_le := fun a => le_trans (ih.last_le a) (Nat.le_succ _)
        stored := by
          intro k i h
          obtain ⟨⟨x1, x2⟩, x3, x4, x5, x6, x7⟩ := ih.stored k i h
          refine ⟨⟨x1, Nat.le_succ_of_le x2⟩, x3, x4, x5, x6, ?_⟩
          simp only [Function.update_of_ne (show k ≠ s.currentRoundNum + 1 by omega)]
          exact x7 }
    | submitPartialEval pe =>
      obtain ⟨_, h2, h3, h4, h5, h6, ⟨vk, h7, h8⟩, h9, rfl⟩ := submitPartialEval_some.1 he
      have hready : s.contractPhase = .Ready := by
        by_contra hc
        have := (hdkg.pre hc).2.2
        omega
      have hstat := hreg.all_registered
        (hreg.started (by rw [hready]; exact Phase.noConfusion)) m.sender (by rw [← h2]; exact hm)
      obtain ⟨r1, r2, r3, _⟩ := hreg.reg_idx _ hstat
      have hnone : (s.roundToEval s.currentRoundNum (s.addrToNode m.sender).pkIndex).indexPlus = 0 := by
        by_contra hc
        have := (ih.stored _ _ hc).2.2.2.2.1
        rw [r2] at this
        omega
      have hpe : pe.indexPlus ≠ 0 := by omega
      have upd : ∀ k i, Function.update s.roundToEval s.currentRoundNum
          (Function.update (s.roundToEval s.currentRoundNum) (s.addrToNode m.sender).pkIndex pe) k i
          = if k = s.currentRoundNum ∧ i = (s.addrToNode m.sender).pkIndex then pe
            else s.roundToEval k i := by
        intro k i
        by_cases hk : k = s.currentRoundNum
        · subst hk
          rw [Function.update_self]
          by_cases hi : i = (s.addrToNode m.sender).pkIndex
          · subst hi; simp
          · rw [Function.update_of_ne hi, if_neg (by tauto)]
        · rw [Function.update_of_ne hk, if_neg (by tauto)]
      exact {
        last_le := by
          intro a
          by_cases ha : a = m.sender
          · subst ha; simp
          · simp only [Function.update_of_ne ha]; exact ih.last_le a
        stored := by
          intro k i h
          simp only [upd] at h ⊢
          by_cases hki : k = s.currentRoundNum ∧ i = (s.addrToNode m.sender).pkIndex
          · obtain ⟨rfl, rfl⟩ := hki
            simp only [and_self, if_true]
            refine ⟨⟨by omega, le_rfl⟩, r1, hready, h6, ?_, vk, h7, h8⟩
            rw [r2, Function.update_self]
          · rw [if_neg hki] at h ⊢
            obtain ⟨x1, x3, x4, x5, x6, x7⟩ := ih.stored k i h
            refine ⟨x1, x3, x4, x5, ?_, x7⟩
            by_cases ha : s.nodes i = m.sender
            · rw [ha, Function.update_self]; exact x1.2
            · rw [Function.update_of_ne ha]; exact x6
        empty := by
          intro k i h
          simp only [upd] at h ⊢
          by_cases hki : k = s.currentRoundNum ∧ i = (s.addrToNode m.sender).pkIndex
          · rw [if_pos hki] at h
            exact absurd h hpe
          · rw [if_neg hki] at h ⊢
            exact ih.empty k i h
        last_stored := by
          intro a ha
          by_cases ham : a = m.sender
          · subst ham
            simp only [Function.update_self, upd, and_self, if_true]
            exact ⟨hstat, hpe⟩
          · simp only [Function.update_of_ne ham] at ha ⊢
            obtain ⟨y1, y2⟩ := ih.last_stored a ha
            refine ⟨y1, ?_⟩
            rw [upd, if_neg]
            · exact y2
            · rintro ⟨_, e⟩
              have := (hreg.reg_idx a y1).2.1
              rw [e, r2] at this
              exact ham this.symm
        count := by
          intro k
          have hmc : s.registeredCount = s.memberCount :=
            hreg.started (by rw [hready]; exact Phase.noConfusion)
          simp only [upd]
          by_cases hk : k = s.currentRoundNum
          · subst hk
            simp only [Function.update_self, true_and]
            rw [ih.count]
            have heq : (Finset.range s.memberCount).filter (fun i =>
                (if i = (s.addrToNode m.sender).pkIndex then pe
                  else s.roundToEval s.currentRoundNum i).indexPlus ≠ 0) =
                insert (s.addrToNode m.sender).pkIndex ((Finset.range s.memberCount).filter
                  (fun i => (s.roundToEval s.currentRoundNum i).indexPlus ≠ 0)) := by
              ext i
              simp only [Finset.mem_filter, Finset.mem_range, Finset.mem_insert]
              by_cases hi : i = (s.addrToNode m.sender).pkIndex
              · subst hi
                simp only [if_true, true_or, iff_true]
                exact ⟨by omega, hpe⟩
              · simp only [if_neg hi, eq_false hi, false_or, if_false]
            rw [heq, Finset.card_insert_of_notMem]
            simp [hnone]
          · simp only [Function.update_of_ne hk, hk, false_and, if_false]
            exact ih.count k }
    | submitRandom pr =>
      obtain ⟨_, _, _, _, _, rfl⟩ := submitRandom_some.1 he
      exact { ih with }
    | transferOwnership a =>
      obtain ⟨_, _, _, rfl⟩ := transferOwnership_some.1 he
      exact { ih with }
    | renounceOwnership =>
      obtain ⟨_, _, rfl⟩ := renounceOwnership_some.1 he
      exact { ih with }
  · intro s a ih
    exact { ih with }

end Verif.Zkdvrf
