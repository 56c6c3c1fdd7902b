import Verif.Model.Zkdvrf

/-! Inversion lemmas for contracts/zkdvrf.sol. -/

set_option linter.unusedSimpArgs false

namespace Verif

theorem require_bind {c : Bool} {α : Type} {f : Unit → Evm α} {x : α} :
    (require c >>= f) = some x ↔ c = true ∧ f () = some x := by
  cases c <;> simp [require]

theorem u32_bind {n : ℕ} {α : Type} {f : ℕ → Evm α} {x : α} :
    (u32 n >>= f) = some x ↔ n < 2 ^ 32 ∧ f n = some x := by
  unfold u32
  split
  · rename_i h; exact ⟨fun h' => ⟨h, h'⟩, fun h' => h'.2⟩
  · rename_i h; exact ⟨fun h' => (by cases h'), fun h' => absurd h'.1 h⟩

theorem inc256_bind {n : ℕ} {α : Type} {f : ℕ → Evm α} {x : α} :
    (inc256 n >>= f) = some x ↔ n + 1 < 2 ^ 256 ∧ f (n + 1) = some x := by
  unfold inc256
  split
  · rename_i h; exact ⟨fun h' => ⟨h, h'⟩, fun h' => h'.2⟩
  · rename_i h; exact ⟨fun h' => (by cases h'), fun h' => absurd h'.1 h⟩

theorem opt_bind {β α : Type} {o : Option β} {f : β → Evm α} {x : α} :
    (o >>= f) = some x ↔ ∃ b, o = some b ∧ f b = some x := by
  cases o <;> simp

theorem bool_bind {α : Type} {o : Option Bool} {f : Bool → Evm α} {x : α} :
    (o >>= f) = some x ↔ ∃ b, o = some b ∧ f b = some x := opt_bind
theorem key_bind {α : Type} {o : Option GrumpkinSol.Point} {f : GrumpkinSol.Point → Evm α} {x : α} :
    (o >>= f) = some x ↔ ∃ b, o = some b ∧ f b = some x := opt_bind
theorem word_bind {α : Type} {o : Option Word} {f : Word → Evm α} {x : α} :
    (o >>= f) = some x ↔ ∃ b, o = some b ∧ f b = some x := opt_bind
theorem g1_bind {α : Type} {o : Option SolG1} {f : SolG1 → Evm α} {x : α} :
    (o >>= f) = some x ↔ ∃ b, o = some b ∧ f b = some x := opt_bind
theorem gpp_bind {α : Type} {o : Option (SolG2 × List SolG1)} {f : SolG2 × List SolG1 → Evm α}
    {x : α} : (o >>= f) = some x ↔ ∃ b, o = some b ∧ f b = some x := opt_bind

namespace Zkdvrf

theorem constructor_some {m : Msg} {t n : ℕ} {a b c : Bool} {d : ℕ} {s : State} :
    constructor m t n a b c d = some s ↔ m.value = 0 ∧ m.sender ≠ 0 ∧
      (a && b && c) = true ∧ n < 2 ^ 32 ∧ t < 2 ^ 32 ∧ 7 * n < 2 ^ 32 ∧ 7 * n + 14 < 2 ^ 32 ∧
      ({ owner := m.sender, memberCount := n, threshold := t, ppLength := 7 * n + 14,
         currentIndex := 0, registeredCount := 0, ppSubmissionCount := 0, currentRoundNum := 0,
         minNodeDeposit := d, pkListIndex := 0, pkList := [], pkListOrder := [],
         ppList := [], ppListOrder := [], vkList := [], gpkVal := ⟨0, 0, 0, 0⟩,
         contractPhase := .Unregistered, nodes := fun _ => 0, addrToNode := fun _ => .empty,
         roundInput := fun _ => [], lastSubmittedRound := fun _ => 0,
         roundToEval := fun _ _ => .empty, roundSubmissionCount := fun _ => 0,
         roundToRandom := fun _ => .empty, balance := 0 } : State) = s := by
  unfold constructor
  simp only [require_bind, u32_bind, decide_eq_true_eq, pure, Option.some.injEq]

theorem addPermissionedNodes_some {s s' : State} {m : Msg} {a : Address} :
    addPermissionedNodes s m a = some s' ↔ m.value = 0 ∧ m.sender = s.owner ∧
      s.currentIndex < s.memberCount ∧ a ≠ 0 ∧ (s.addrToNode a).nodeAddress = 0 ∧
      s.currentIndex + 1 < 2 ^ 32 ∧
      { s with
        addrToNode := Function.update s.addrToNode a ⟨a, false, 0, false, 0⟩
        currentIndex := s.currentIndex + 1 } = s' := by
  unfold addPermissionedNodes nonPayable onlyOwner
  simp only [require_bind, u32_bind, decide_eq_true_eq, pure, Option.some.injEq]

theorem registerNode_some {s s' : State} {m : Msg} {pk : GrumpkinSol.Point} :
    registerNode s m pk = some s' ↔ s.contractPhase = .Unregistered ∧
      m.sender = (s.addrToNode m.sender).nodeAddress ∧ (s.addrToNode m.sender).status = false ∧
      s.minNodeDeposit ≤ m.value ∧ GrumpkinSol.isOnCurve pk = true ∧
      s.pkListIndex + 1 < 2 ^ 32 ∧ s.registeredCount + 1 < 2 ^ 32 ∧
      { s with
        nodes := Function.update s.nodes s.registeredCount m.sender
        addrToNode := Function.update s.addrToNode m.sender
          { s.addrToNode m.sender with
            deposit := m.value, status := true, pkIndex := s.pkListIndex }
        pkList := s.pkList ++ [pk]
        pkListOrder := s.pkListOrder ++ [m.sender]
        pkListIndex := s.pkListIndex + 1
        registeredCount := s.registeredCount + 1
        balance := s.balance + m.value } = s' := by
  unfold registerNode
  simp only [require_bind, u32_bind, decide_eq_true_eq, pure, Option.some.injEq,
    Bool.not_eq_true']

theorem startNidkg_some {s s' : State} {m : Msg} :
    startNidkg s m = some s' ↔ m.value = 0 ∧ m.sender = s.owner ∧
      s.contractPhase = .Unregistered ∧ s.registeredCount = s.memberCount ∧
      { s with contractPhase := .Nidkg } = s' := by
  unfold startNidkg nonPayable onlyOwner
  simp only [require_bind, decide_eq_true_eq, pure, Option.some.injEq]

theorem submitPublicParams_some {env : Env} {s s' : State} {m : Msg} {pp : List Word}
    {pr : List Byte} :
    submitPublicParams env s m pp pr = some s' ↔ m.value = 0 ∧
      m.sender = (s.addrToNode m.sender).nodeAddress ∧ s.contractPhase = .Nidkg ∧
      (s.addrToNode m.sender).statusPP = false ∧ checkPublicParams s pp = some true ∧
      env.verifyProof pr pp = some true ∧ s.ppSubmissionCount + 1 < 2 ^ 32 ∧
      { s with
        addrToNode := Function.update s.addrToNode m.sender
          { s.addrToNode m.sender with statusPP := true }
        ppList := s.ppList ++ [pp]
        ppListOrder := s.ppListOrder ++ [m.sender]
        ppSubmissionCount := s.ppSubmissionCount + 1
        contractPhase := if s.ppSubmissionCount + 1 = s.memberCount then .NidkgComplete
          else s.contractPhase } = s' := by
  unfold submitPublicParams nonPayable
  simp only [require_bind, u32_bind, bool_bind, key_bind, word_bind, g1_bind, gpp_bind, decide_eq_true_eq, pure, Option.some.injEq,
    Bool.not_eq_true']
  constructor
  · rintro ⟨h1, h2, h3, h4, c, hc, rfl, v, hv, rfl, h5, h6⟩
    exact ⟨h1, h2, h3, h4, hc, hv, h5, h6⟩
  · rintro ⟨h1, h2, h3, h4, hc, hv, h5, h6⟩
    exact ⟨h1, h2, h3, h4, _, hc, rfl, _, hv, rfl, h5, h6⟩

theorem computeVk_some {env : Env} {s s' : State} {m : Msg} {gpk : SolG2} :
    computeVk env s m gpk = some s' ↔ m.value = 0 ∧ s.contractPhase = .NidkgComplete ∧
      ∃ out, Gpp.createGpp env.E s.memberCount gpk s.ppList = some out ∧
      { s with vkList := s.vkList ++ out.2, gpkVal := out.1, contractPhase := .Ready } = s' := by
  unfold computeVk nonPayable
  simp only [require_bind, bool_bind, key_bind, word_bind, g1_bind, gpp_bind, decide_eq_true_eq, pure, Option.some.injEq]

theorem initiateRandom_some {s s' : State} {m : Msg} :
    initiateRandom s m = some s' ↔ m.value = 0 ∧ m.sender = s.owner ∧ s.contractPhase = .Ready ∧
      (s.currentRoundNum = 0 ∨ (s.roundToRandom s.currentRoundNum).value ≠ 0) ∧
      s.currentRoundNum + 1 < 2 ^ 256 ∧
      { s with
        currentRoundNum := s.currentRoundNum + 1
        roundInput := Function.update s.roundInput (s.currentRoundNum + 1)
          (inputPrefix ++ decimal (s.currentRoundNum + 1)) } = s' := by
  unfold initiateRandom nonPayable onlyOwner
  simp only [require_bind, inc256_bind, decide_eq_true_eq, pure, Option.some.injEq,
    Bool.or_eq_true]

theorem submitPartialEval_some {env : Env} {s s' : State} {m : Msg} {pe : SolEval} :
    submitPartialEval env s m pe = some s' ↔ m.value = 0 ∧
      m.sender = (s.addrToNode m.sender).nodeAddress ∧
      (s.roundToRandom s.currentRoundNum).value = 0 ∧
      s.lastSubmittedRound m.sender < s.currentRoundNum ∧
      (s.addrToNode m.sender).pkIndex + 1 < 2 ^ 32 ∧
      pe.indexPlus = (s.addrToNode m.sender).pkIndex + 1 ∧
      (∃ vk, s.vkList[(s.addrToNode m.sender).pkIndex]? = some vk ∧
        PseudoRandSol.verifyPartialEval env.keccak (s.roundInput s.currentRoundNum) pe.value
          ⟨pe.z, pe.c⟩ vk = some true) ∧
      s.roundSubmissionCount s.currentRoundNum + 1 < 2 ^ 32 ∧
      { s with
        lastSubmittedRound := Function.update s.lastSubmittedRound m.sender s.currentRoundNum
        roundToEval := Function.update s.roundToEval s.currentRoundNum
          (Function.update (s.roundToEval s.currentRoundNum) (s.addrToNode m.sender).pkIndex pe)
        roundSubmissionCount := Function.update s.roundSubmissionCount s.currentRoundNum
          (s.roundSubmissionCount s.currentRoundNum + 1) } = s' := by
  unfold submitPartialEval nonPayable
  simp only [require_bind, u32_bind, bool_bind, key_bind, word_bind, g1_bind, gpp_bind, decide_eq_true_eq, pure, Option.some.injEq]
  constructor
  · rintro ⟨h1, h2, h3, h4, h5, h6, vk, hvk, v, hv, rfl, h7, h8⟩
    exact ⟨h1, h2, h3, h4, h5, h6, ⟨vk, hvk, hv⟩, h7, h8⟩
  · rintro ⟨h1, h2, h3, h4, h5, h6, ⟨vk, hvk, hv⟩, h7, h8⟩
    exact ⟨h1, h2, h3, h4, h5, h6, vk, hvk, _, hv, rfl, h7, h8⟩

theorem submitRandom_some {env : Env} {s s' : State} {m : Msg} {pr : SolRandom} :
    submitRandom env s m pr = some s' ↔ m.value = 0 ∧ m.sender = s.owner ∧
      (s.roundToRandom s.currentRoundNum).value = 0 ∧
      PseudoRandSol.verifyPseudoRand env.E env.keccak (s.roundInput s.currentRoundNum) pr.proof
        s.gpkVal = some true ∧
      pr.value = env.keccak (Word.bytes pr.proof.x ++ Word.bytes pr.proof.y) ∧
      { s with
        roundToRandom := Function.update s.roundToRandom s.currentRoundNum pr } = s' := by
  unfold submitRandom nonPayable onlyOwner
  simp only [require_bind, bool_bind, key_bind, word_bind, g1_bind, gpp_bind, decide_eq_true_eq, pure, Option.some.injEq]
  constructor
  · rintro ⟨h1, h2, h3, v, hv, rfl, h7, h8⟩
    exact ⟨h1, h2, h3, hv, h7, h8⟩
  · rintro ⟨h1, h2, h3, hv, h7, h8⟩
    exact ⟨h1, h2, h3, _, hv, rfl, h7, h8⟩

theorem transferOwnership_some {s s' : State} {m : Msg} {a : Address} :
    transferOwnership s m a = some s' ↔ m.value = 0 ∧ m.sender = s.owner ∧ a ≠ 0 ∧
      { s with owner := a } = s' := by
  unfold transferOwnership nonPayable onlyOwner
  simp only [require_bind, decide_eq_true_eq, pure, Option.some.injEq]

theorem renounceOwnership_some {s s' : State} {m : Msg} :
    renounceOwnership s m = some s' ↔ m.value = 0 ∧ m.sender = s.owner ∧
      { s with owner := 0 } = s' := by
  unfold renounceOwnership nonPayable onlyOwner
  simp only [require_bind, decide_eq_true_eq, pure, Option.some.injEq]

/-! ### checkPublicParams -/

theorem checkLoop_true (pp : List Word) (pks : List GrumpkinSol.Point) :
    ∀ (left i j : ℕ), i + left = pks.length → j + 2 * left = pp.length →
      (checkLoop pp pks left i j = some true ↔
        pp.drop j = (pks.drop i).flatMap (fun k => [k.x, k.y]))
  | 0, i, j, hi, hj => by
    have h1 : pp.drop j = [] := List.drop_eq_nil_of_le (by omega)
    have h2 : pks.drop i = [] := List.drop_eq_nil_of_le (by omega)
    rw [h1, h2]
    simp [checkLoop]
  | left + 1, i, j, hi, hj => by
    have hi' : i < pks.length := by omega
    have hj' : j < pp.length := by omega
    have hj'' : j + 1 < pp.length := by omega
    rw [List.drop_eq_getElem_cons hj', List.drop_eq_getElem_cons hj'',
      List.drop_eq_getElem_cons hi', List.flatMap_cons]
    have ih := checkLoop_true pp pks left (i + 1) (j + 2) (by omega) (by omega)
    unfold checkLoop
    simp only [bool_bind, key_bind, word_bind, g1_bind, gpp_bind, require_bind, List.getElem?_eq_getElem hi', List.getElem?_eq_getElem hj',
      List.getElem?_eq_getElem hj'', Option.some.injEq, exists_eq_left', decide_eq_true_eq, ih]
    simp only [List.cons_append, List.nil_append, List.cons.injEq]

theorem checkLoop_not_false (pp : List Word) (pks : List GrumpkinSol.Point) :
    ∀ (left i j : ℕ), checkLoop pp pks left i j ≠ some false
  | 0, i, j => by simp [checkLoop]
  | left + 1, i, j => by
    intro h
    unfold checkLoop at h
    simp only [bool_bind, key_bind, word_bind, g1_bind, gpp_bind, require_bind] at h
    obtain ⟨_, _, _, _, _, _, _, _, h⟩ := h
    exact checkLoop_not_false pp pks left _ _ h

theorem checkPublicParams_true {s : State} (hl : s.ppLength = 7 * s.memberCount + 14)
    (hn : 7 * s.memberCount + 14 < 2 ^ 32) (pp : List Word) :
    checkPublicParams s pp = some true ↔ s.pkList.length = s.memberCount ∧
      pp.length = 7 * s.memberCount + 14 ∧
      pp.drop (5 * s.memberCount + 14) = s.pkList.flatMap (fun k => [k.x, k.y]) := by
  unfold checkPublicParams
  simp only [require_bind, u32_bind, decide_eq_true_eq, hl]
  constructor
  · rintro ⟨h1, h2, h3, h4, h5⟩
    rw [checkLoop_true _ _ _ _ _ (by omega) (by omega)] at h5
    refine ⟨h1, h2, ?_⟩
    rw [show 5 * s.memberCount + 14 = pp.length - 2 * s.memberCount by omega, h5, List.drop_zero]
  · rintro ⟨h1, h2, h5⟩
    refine ⟨h1, h2, by omega, by omega, ?_⟩
    rw [checkLoop_true _ _ _ _ _ (by omega) (by omega), List.drop_zero, ← h5]
    congr 1
    omega

end Zkdvrf

end Verif
