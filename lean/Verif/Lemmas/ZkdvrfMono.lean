import Verif.Lemmas.ZkdvrfInv2
import Verif.Spec.Contract

/-! What later states keep from earlier ones. -/

set_option linter.unusedSimpArgs false

namespace Verif.Zkdvrf

/-- Everything that never changes once it is there. -/
structure Keeps (s s' : State) : Prop where
  memberCount : s'.memberCount = s.memberCount
  threshold : s'.threshold = s.threshold
  minDep : s'.minNodeDeposit = s.minNodeDeposit
  phase : s.contractPhase.rank ≤ s'.contractPhase.rank
  pkList : s.pkList <+: s'.pkList
  regCount : s.registeredCount ≤ s'.registeredCount
  nodes : ∀ i, i < s.registeredCount → s'.nodes i = s.nodes i
  added : ∀ a, (s.addrToNode a).nodeAddress ≠ 0 →
    (s'.addrToNode a).nodeAddress = (s.addrToNode a).nodeAddress
  status : ∀ a, (s.addrToNode a).status = true → (s'.addrToNode a).status = true ∧
    (s'.addrToNode a).pkIndex = (s.addrToNode a).pkIndex ∧
    (s'.addrToNode a).deposit = (s.addrToNode a).deposit
  ppList : s.ppList <+: s'.ppList
  ppOrder : s.ppListOrder <+: s'.ppListOrder
  ppDone : 2 ≤ s.contractPhase.rank → s'.ppList = s.ppList ∧ s'.ppListOrder = s.ppListOrder ∧
    s'.pkList = s.pkList
  keys : s.contractPhase = .Ready → s'.vkList = s.vkList ∧ s'.gpkVal = s.gpkVal
  round : s.currentRoundNum ≤ s'.currentRoundNum
  input : ∀ k, 1 ≤ k → k ≤ s.currentRoundNum → s'.roundInput k = s.roundInput k
  eval : ∀ k i, (s.roundToEval k i).indexPlus ≠ 0 → s'.roundToEval k i = s.roundToEval k i
  count : ∀ k, s.roundSubmissionCount k ≤ s'.roundSubmissionCount k
  random : ∀ k, (s.roundToRandom k).value ≠ 0 → s'.roundToRandom k = s.roundToRandom k
  balance : s.balance ≤ s'.balance

theorem Keeps.refl (s : State) : Keeps s s where
  memberCount := rfl
  threshold := rfl
  minDep := rfl
  phase := le_rfl
  pkList := List.prefix_refl _
  regCount := le_rfl
  nodes := fun _ _ => rfl
  added := fun _ _ => rfl
  status := fun _ h => ⟨h, rfl, rfl⟩
  ppList := List.prefix_refl _
  ppOrder := List.prefix_refl _
  ppDone := fun _ => ⟨rfl, rfl, rfl⟩
  keys := fun _ => ⟨rfl, rfl⟩
  round := le_rfl
  input := fun _ _ _ => rfl
  eval := fun _ _ _ => rfl
  count := fun _ => le_rfl
  random := fun _ _ => rfl
  balance := le_rfl

theorem rank_ready {p : Phase} (h : 3 ≤ p.rank) : p = .Ready := by
  cases p <;> simp [Phase.rank] at h ⊢

theorem Keeps.trans {s s' s'' : State} (h : Keeps s s') (h' : Keeps s' s'') : Keeps s s'' where
  memberCount := h'.memberCount.trans h.memberCount
  threshold := h'.threshold.trans h.threshold
  minDep := h'.minDep.trans h.minDep
  phase := h.phase.trans h'.phase
  pkList := h.pkList.trans h'.pkList
  regCount := h.regCount.trans h'.regCount
  nodes := fun i hi => (h'.nodes i (lt_of_lt_of_le hi h.regCount)).trans (h.nodes i hi)
  added := fun a ha => (h'.added a (by rw [h.added a ha]; exact ha)).trans (h.added a ha)
  status := fun a ha => by
    obtain ⟨h1, h2, h3⟩ := h.status a ha
    obtain ⟨h4, h5, h6⟩ := h'.status a h1
    exact ⟨h4, h5.trans h2, h6.trans h3⟩
  ppList := h.ppList.trans h'.ppList
  ppOrder := h.ppOrder.trans h'.ppOrder
  ppDone := fun hp => by
    obtain ⟨h1, h2, h3⟩ := h.ppDone hp
    obtain ⟨h4, h5, h6⟩ := h'.ppDone (hp.trans h.phase)
    exact ⟨h4.trans h1, h5.trans h2, h6.trans h3⟩
  keys := fun hp => by
    have hr : s'.contractPhase = .Ready := rank_ready (by have := h.phase; rw [hp] at this; exact this)
    obtain ⟨h1, h2⟩ := h.keys hp
    obtain ⟨h4, h5⟩ := h'.keys hr
    exact ⟨h4.trans h1, h5.trans h2⟩
  round := h.round.trans h'.round
  input := fun k h1 h2 => (h'.input k h1 (h2.trans h.round)).trans (h.input k h1 h2)
  eval := fun k i hk => by
    have h1 := h.eval k i hk
    rw [← h1]
    exact h'.eval k i (by rw [h1]; exact hk)
  count := fun k => (h.count k).trans (h'.count k)
  random := fun k hk => by
    have h1 := h.random k hk
    rw [← h1]
    exact h'.random k (by rw [h1]; exact hk)
  balance := h.balance.trans h'.balance

theorem keeps_exec {env : Env} {s s' : State} {m : Msg} {c : Call} (hr : Reachable env s)
    (hm : m.sender ≠ 0) (he : exec env s m c = some s') : Keeps s s' := by
  have hreg := regInv hr
  have hdkg := dkgInv hr
  have hround := roundInv hr
  have heval := evalInv hr
  have k0 := Keeps.refl s
  cases c with
  | addPermissionedNodes a =>
    obtain ⟨_, _, h1, h2, h3, h4, rfl⟩ := addPermissionedNodes_some.1 he
    exact { k0 with
      added := by
        intro b hb
        have : b ≠ a := by rintro rfl; exact hb h3
        simp only [Function.update_of_ne this]
      status := by
        intro b hb
        have : b ≠ a := by
          rintro rfl
          rw [hreg.empty _ h3] at hb; cases hb
        simp only [Function.update_of_ne this]
        exact ⟨hb, trivial, trivial⟩ }
  | registerNode pk =>
    obtain ⟨h1, h2, h3, h4, h5, h6, h7, rfl⟩ := registerNode_some.1 he
    exact { k0 with
      pkList := List.prefix_append _ _
      regCount := Nat.le_succ _
      nodes := by
        intro i hi
        have : i ≠ s.registeredCount := by omega
        simp only [Function.update_of_ne this]
      added := by
        intro b hb
        by_cases hbm : b = m.sender
        · subst hbm; simp only [Function.update_self]
        · simp only [Function.update_of_ne hbm]
      status := by
        intro b hb
        have : b ≠ m.sender := by rintro rfl; rw [h3] at hb; cases hb
        simp only [Function.update_of_ne this]
        exact ⟨hb, trivial, trivial⟩
      ppDone := by
        intro h; rw [h1] at h; simp [Phase.rank] at h
      balance := Nat.le_add_right _ _ }
  | startNidkg =>
    obtain ⟨_, _, h3, h4, rfl⟩ := startNidkg_some.1 he
    exact { k0 with phase := by rw [h3]; simp [Phase.rank] }
  | submitPublicParams pp pr =>
    obtain ⟨_, h2, h3, h4, h5, h6, h7, rfl⟩ := submitPublicParams_some.1 he
    exact { k0 with
      phase := by
        rw [h3]
        dsimp only
        split <;> simp [Phase.rank]
      added := by
        intro b hb
        by_cases hbm : b = m.sender
        · subst hbm; simp only [Function.update_self]
        · simp only [Function.update_of_ne hbm]
      status := by
        intro b hb
        by_cases hbm : b = m.sender
        · subst hbm; simp only [Function.update_self]; exact ⟨hb, trivial, trivial⟩
        · simp only [Function.update_of_ne hbm]; exact ⟨hb, trivial, trivial⟩
      ppList := List.prefix_append _ _
      ppOrder := List.prefix_append _ _
      ppDone := by
        intro h; rw [h3] at h; simp [Phase.rank] at h
      keys := by intro h; rw [h3] at h; cases h }
  | computeVk gpk =>
    obtain ⟨_, h2, out, h3, rfl⟩ := computeVk_some.1 he
    exact { k0 with
      phase := by rw [h2]; simp [Phase.rank]
      keys := by intro h; rw [h2] at h; cases h }
  | initiateRandom =>
    obtain ⟨_, _, h3, h4, h5, rfl⟩ := initiateRandom_some.1 he
    exact { k0 with
      round := Nat.le_succ _
      input := by
        intro k h1 h2
        have : k ≠ s.currentRoundNum + 1 := by omega
        simp only [Function.update_of_ne this] }
  | submitPartialEval pe =>
    obtain ⟨_, h2, h3, h4, h5, h6, ⟨vk, h7, h8⟩, h9, rfl⟩ := submitPartialEval_some.1 he
    have hready : s.contractPhase = .Ready := by
      by_contra hc
      have := (hdkg.pre hc).2.2
      omega
    have hstat := hreg.all_registered (hreg.started (by rw [hready]; exact Phase.noConfusion))
      m.sender (by rw [← h2]; exact hm)
    have hnone : ¬ (s.roundToEval s.currentRoundNum (s.addrToNode m.sender).pkIndex).indexPlus ≠ 0 := by
      intro hc
      have := (heval.stored _ _ hc).2.2.2.2.1
      rw [(hreg.reg_idx _ hstat).2.1] at this
      omega
    exact { k0 with
      eval := by
        intro k i hk
        by_cases hkr : k = s.currentRoundNum
        · subst hkr
          simp only [Function.update_self]
          have : i ≠ (s.addrToNode m.sender).pkIndex := by rintro rfl; exact hnone hk
          simp only [Function.update_of_ne this]
        · simp only [Function.update_of_ne hkr]
      count := by
        intro k
        by_cases hkr : k = s.currentRoundNum
        · subst hkr; simp only [Function.update_self]; omega
        · simp only [Function.update_of_ne hkr]; exact le_rfl }
  | submitRandom pr =>
    obtain ⟨_, _, h3, _, _, rfl⟩ := submitRandom_some.1 he
    exact { k0 with
      random := by
        intro k hk
        have : k ≠ s.currentRoundNum := by rintro rfl; exact hk h3
        simp only [Function.update_of_ne this] }
  | transferOwnership a =>
    obtain ⟨_, _, _, rfl⟩ := transferOwnership_some.1 he
    exact { k0 with }
  | renounceOwnership =>
    obtain ⟨_, _, rfl⟩ := renounceOwnership_some.1 he
    exact { k0 with }

theorem keeps_step {env : Env} {s : State} (hr : Reachable env s) {tx : Tx} (hv : tx.valid) :
    Keeps s (step env s tx) := by
  cases tx with
  | forceEther a => exact { Keeps.refl s with balance := Nat.le_add_right _ _ }
  | call m c =>
    unfold step
    dsimp only
    cases he : exec env s m c with
    | none => exact Keeps.refl s
    | some s' => exact keeps_exec hr hv he

theorem Later.reachable {env : Env} {s s' : State} (h : Later env s s') (hr : Reachable env s) :
    Reachable env s' := by
  induction h with
  | refl => exact hr
  | step tx hv _ ih => exact .step tx hv ih

theorem Later.keeps {env : Env} {s s' : State} (h : Later env s s') (hr : Reachable env s) :
    Keeps s s' := by
  induction h with
  | refl => exact Keeps.refl s
  | step tx hv h ih => exact ih.trans (keeps_step (h.reachable hr) hv)

theorem Later.trans {env : Env} {s s' s'' : State} (h : Later env s s') (h' : Later env s' s'') :
    Later env s s'' := by
  induction h' with
  | refl => exact h
  | step tx hv _ ih => exact .step tx hv ih

theorem Later.call {env : Env} {s s' s'' : State} (h : Later env s s') {m : Msg} {c : Call}
    (hm : m.sender ≠ 0) (he : exec env s' m c = some s'') : Later env s s'' := by
  have := Later.step (.call m c) hm h
  have he' : Zkdvrf.step env _ (.call m c) = _ := congrArg (Option.getD · _) he
  rw [he'] at this
  exact this

theorem Reachable.call {env : Env} {s s' : State} (h : Reachable env s) {m : Msg} {c : Call}
    (hm : m.sender ≠ 0) (he : exec env s m c = some s') : Reachable env s' := by
  have := Reachable.step (.call m c) hm h
  have he' : Zkdvrf.step env _ (.call m c) = _ := congrArg (Option.getD · _) he
  rw [he'] at this
  exact this

/-! ### Decimal -/

theorem decimal_ne_nil (n : ℕ) : decimal n ≠ [] := by
  unfold decimal
  split <;> simp

theorem digit_inj {a b : ℕ} (ha : a < 10) (hb : b < 10)
    (h : (Fin.ofNat 256 (48 + a) : Byte) = Fin.ofNat 256 (48 + b)) : a = b := by
  have := congrArg Fin.val h
  simp only [Fin.ofNat] at this
  omega

theorem decimal_inj : ∀ (n k : ℕ), decimal n = decimal k → n = k := by
  intro n
  induction n using Nat.strong_induction_on with
  | _ n ih =>
    intro k h
    rw [decimal.eq_def n, decimal.eq_def k] at h
    by_cases hn : n < 10 <;> by_cases hk : k < 10
    · rw [if_pos hn, if_pos hk] at h
      exact digit_inj hn hk (List.singleton_inj.1 h)
    · rw [if_pos hn, if_neg hk] at h
      exfalso
      have := congrArg List.length h
      have h1 := List.length_pos_iff.2 (decimal_ne_nil (k / 10))
      simp only [List.length_append, List.length_singleton] at this
      omega
    · rw [if_neg hn, if_pos hk] at h
      exfalso
      have := congrArg List.length h
      have h1 := List.length_pos_iff.2 (decimal_ne_nil (n / 10))
      simp only [List.length_append, List.length_singleton] at this
      omega
    · rw [if_neg hn, if_neg hk] at h
      have h1 := List.append_inj' h rfl
      have h2 := ih (n / 10) (by omega) _ h1.1
      have h3 := digit_inj (Nat.mod_lt _ (by norm_num)) (Nat.mod_lt _ (by norm_num))
        (List.singleton_inj.1 h1.2)
      omega

theorem decimal_length : ∀ (d n : ℕ), n < 10 ^ (d + 1) → (decimal n).length ≤ d + 1
  | 0, n, h => by
    rw [decimal.eq_def, if_pos (by simpa using h)]; simp
  | d + 1, n, h => by
    rw [decimal.eq_def]
    split
    · simp
    · have := decimal_length d (n / 10) (by
        rw [Nat.div_lt_iff_lt_mul (by norm_num)]
        rw [pow_succ] at h; exact h)
      simp only [List.length_append, List.length_singleton]
      omega

theorem input_length {n : ℕ} (h : n < 2 ^ 256) : (inputPrefix ++ decimal n).length < 2 ^ 64 := by
  have h1 := decimal_length 77 n (lt_of_lt_of_le h (by norm_num))
  have h2 : inputPrefix.length = 15 := by decide
  rw [List.length_append, h2]
  omega

end Verif.Zkdvrf
