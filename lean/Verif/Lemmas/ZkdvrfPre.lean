import Verif.Spec.ContractPre
import Verif.Lemmas.ZkdvrfLive
import Verif.Lemmas.OnChain

/-!
contracts/zkdvrf_pre.sol refines contracts/zkdvrf.sol: inversion lemmas and the simulation.
-/

set_option linter.unusedSimpArgs false

namespace Verif.ZkdvrfPre

theorem constructor_some {m : Msg} {t n : ℕ} {o : Address} {a b c : Bool} {d : ℕ} {s : State} :
    constructor m t n o a b c d = some s ↔ m.value = 0 ∧ o ≠ 0 ∧
      (a && b && c) = true ∧ n < 2 ^ 32 ∧ t < 2 ^ 32 ∧ 7 * n < 2 ^ 32 ∧ 7 * n + 14 < 2 ^ 32 ∧
      ({ owner := o, memberCount := n, threshold := t, ppLength := 7 * n + 14,
         currentIndex := 0, registeredCount := 0, ppSubmissionCount := 0, currentRoundNum := 0,
         minNodeDeposit := d, pkListIndex := 0, pkList := [], 
         ppList := [], vkList := [], gpkVal := ⟨0, 0, 0, 0⟩,
         contractPhase := .Unregistered, nodes := fun _ => 0, addrToNode := fun _ => .empty,
         roundInput := fun _ => [], roundHash := fun _ => ⟨0, 0⟩,
         lastSubmittedRound := fun _ => 0,
         roundToEval := fun _ _ => .empty, roundSubmissionCount := fun _ => 0,
         roundToRandom := fun _ => .empty, balance := 0 } : State) = s := by
  unfold constructor
  simp only [require_bind, u32_bind, decide_eq_true_eq, pure, Option.some.injEq]

theorem addPermissionedNodes_some {s s' : State} {m : Msg} {a : Address} :
    addPermissionedNodes s m a = some s' ↔ m.value = 0 ∧ m.sender = s.owner ∧
      s.currentIndex < s.memberCount ∧ a ≠ 0 ∧ (s.addrToNode a).nodeAddress = 0 ∧
      s.currentIndex + 1 < 2 ^ 32 ∧
      { s with
        addrToNode := Function.update s.addrToNode a ⟨a, false, 0, false, 0⟩
        currentIndex := s.currentIndex + 1 } = s' := by
  unfold addPermissionedNodes Zkdvrf.nonPayable onlyOwner
  simp only [require_bind, u32_bind, decide_eq_true_eq, pure, Option.some.injEq]

theorem registerNode_some {s s' : State} {m : Msg} {pk : GrumpkinSol.Point} :
    registerNode s m pk = some s' ↔ s.contractPhase = .Unregistered ∧
      m.sender = (s.addrToNode m.sender).nodeAddress ∧ (s.addrToNode m.sender).status = false ∧
      s.minNodeDeposit ≤ m.value ∧ GrumpkinSol.isOnCurve pk = true ∧
      s.pkListIndex + 1 < 2 ^ 32 ∧ s.registeredCount + 1 < 2 ^ 32 ∧
      { s with
        nodes := Function.update s.nodes s.registeredCount m.sender
        addrToNode := Function.update s.addrToNode m.sender
          { s.addrToNode m.sender with
            deposit := m.value, status := true, pkIndex := s.pkListIndex }
        pkList := s.pkList ++ [pk]
        pkListIndex := s.pkListIndex + 1
        registeredCount := s.registeredCount + 1
        contractPhase := if s.registeredCount + 1 = s.memberCount then .Registered
          else s.contractPhase
        balance := s.balance + m.value } = s' := by
  unfold registerNode
  simp only [require_bind, u32_bind, decide_eq_true_eq, pure, Option.some.injEq,
    Bool.not_eq_true']

theorem startNidkg_some {s s' : State} {m : Msg} :
    startNidkg s m = some s' ↔ m.value = 0 ∧ m.sender = s.owner ∧
      s.contractPhase = .Registered ∧
      { s with contractPhase := .Nidkg } = s' := by
  unfold startNidkg Zkdvrf.nonPayable onlyOwner
  simp only [require_bind, decide_eq_true_eq, pure, Option.some.injEq]

theorem submitPublicParams_some {env : Env} {s s' : State} {m : Msg} {pp : List Word}
    {pr : List Byte} :
    submitPublicParams env s m pp pr = some s' ↔ m.value = 0 ∧
      m.sender = (s.addrToNode m.sender).nodeAddress ∧ s.contractPhase = .Nidkg ∧
      (s.addrToNode m.sender).statusPP = false ∧ checkPublicParams s pp = some true ∧
      env.verifyProof pr pp = some true ∧ s.ppSubmissionCount + 1 < 2 ^ 32 ∧
      { s with
        addrToNode := Function.update s.addrToNode m.sender
          { s.addrToNode m.sender with statusPP := true }
        ppList := s.ppList ++ [pp]
        ppSubmissionCount := s.ppSubmissionCount + 1
        contractPhase := if s.ppSubmissionCount + 1 = s.memberCount then .NidkgComplete
          else s.contractPhase } = s' := by
  unfold submitPublicParams Zkdvrf.nonPayable
  simp only [require_bind, u32_bind, bool_bind, key_bind, word_bind, g1_bind, gpp_bind, decide_eq_true_eq, pure, Option.some.injEq,
    Bool.not_eq_true']
  constructor
  · rintro ⟨h1, h2, h3, h4, c, hc, rfl, v, hv, rfl, h5, h6⟩
    exact ⟨h1, h2, h3, h4, hc, hv, h5, h6⟩
  · rintro ⟨h1, h2, h3, h4, hc, hv, h5, h6⟩
    exact ⟨h1, h2, h3, h4, _, hc, rfl, _, hv, rfl, h5, h6⟩

theorem computeVk_some {env : Env} {s s' : State} {m : Msg} {gpk : SolG2} :
    computeVk env s m gpk = some s' ↔ m.value = 0 ∧ s.contractPhase = .NidkgComplete ∧
      ∃ out, Gpp.createGpp env.E s.memberCount gpk s.ppList = some out ∧
      { s with vkList := s.vkList ++ out.2, gpkVal := out.1, contractPhase := .Ready } = s' := by
  unfold computeVk Zkdvrf.nonPayable
  simp only [require_bind, bool_bind, key_bind, word_bind, g1_bind, gpp_bind, decide_eq_true_eq, pure, Option.some.injEq]

theorem initiateRandom_some {env : Env} {s s' : State} {m : Msg} :
    initiateRandom env s m = some s' ↔ m.value = 0 ∧ m.sender = s.owner ∧ s.contractPhase = .Ready ∧
      (s.currentRoundNum = 0 ∨ (s.roundToRandom s.currentRoundNum).value ≠ 0) ∧
      s.currentRoundNum + 1 < 2 ^ 256 ∧
      ∃ h, PseudoRandSol.hashToG1 env.keccak (inputPrefix ++ decimal (s.currentRoundNum + 1)) =
        some h ∧
      { s with
        currentRoundNum := s.currentRoundNum + 1
        roundInput := Function.update s.roundInput (s.currentRoundNum + 1)
          (inputPrefix ++ decimal (s.currentRoundNum + 1))
        roundHash := Function.update s.roundHash (s.currentRoundNum + 1) h } = s' := by
  unfold initiateRandom Zkdvrf.nonPayable onlyOwner
  simp only [require_bind, inc256_bind, g1_bind, decide_eq_true_eq, pure, Option.some.injEq,
    Bool.or_eq_true]

theorem submitPartialEval_some {env : Env} {s s' : State} {m : Msg} {pe : SolEval} :
    submitPartialEval env s m pe = some s' ↔ m.value = 0 ∧
      m.sender = (s.addrToNode m.sender).nodeAddress ∧
      (s.roundToRandom s.currentRoundNum).value = 0 ∧
      s.lastSubmittedRound m.sender < s.currentRoundNum ∧
      (s.addrToNode m.sender).pkIndex + 1 < 2 ^ 32 ∧
      pe.indexPlus = (s.addrToNode m.sender).pkIndex + 1 ∧
      (∃ vk, s.vkList[(s.addrToNode m.sender).pkIndex]? = some vk ∧
        PseudoRandSol.verifyPartialEvalFast env.keccak (s.roundHash s.currentRoundNum) pe.value
          ⟨pe.z, pe.c⟩ vk = some true) ∧
      s.roundSubmissionCount s.currentRoundNum + 1 < 2 ^ 32 ∧
      { s with
        lastSubmittedRound := Function.update s.lastSubmittedRound m.sender s.currentRoundNum
        roundToEval := Function.update s.roundToEval s.currentRoundNum
          (Function.update (s.roundToEval s.currentRoundNum) (s.addrToNode m.sender).pkIndex pe)
        roundSubmissionCount := Function.update s.roundSubmissionCount s.currentRoundNum
          (s.roundSubmissionCount s.currentRoundNum + 1) } = s' := by
  unfold submitPartialEval Zkdvrf.nonPayable
  simp only [require_bind, u32_bind, bool_bind, key_bind, word_bind, g1_bind, gpp_bind, decide_eq_true_eq, pure, Option.some.injEq]
  constructor
  · rintro ⟨h1, h2, h3, h4, h5, h6, vk, hvk, v, hv, rfl, h7, h8⟩
    exact ⟨h1, h2, h3, h4, h5, h6, ⟨vk, hvk, hv⟩, h7, h8⟩
  · rintro ⟨h1, h2, h3, h4, h5, h6, ⟨vk, hvk, hv⟩, h7, h8⟩
    exact ⟨h1, h2, h3, h4, h5, h6, vk, hvk, _, hv, rfl, h7, h8⟩

theorem submitRandom_some {env : Env} {s s' : State} {m : Msg} {pr : SolRandom} :
    submitRandom env s m pr = some s' ↔ m.value = 0 ∧ m.sender = s.owner ∧
      (s.roundToRandom s.currentRoundNum).value = 0 ∧
      s.threshold ≤ s.roundSubmissionCount s.currentRoundNum ∧
      PseudoRandSol.verifyPseudoRandFast env.E (s.roundHash s.currentRoundNum) pr.proof
        s.gpkVal = some true ∧
      pr.value = env.keccak (Word.bytes pr.proof.x ++ Word.bytes pr.proof.y) ∧
      { s with
        roundToRandom := Function.update s.roundToRandom s.currentRoundNum pr } = s' := by
  unfold submitRandom Zkdvrf.nonPayable onlyOwner
  simp only [require_bind, bool_bind, key_bind, word_bind, g1_bind, gpp_bind, decide_eq_true_eq, pure, Option.some.injEq]
  constructor
  · rintro ⟨h1, h2, h3, ht, v, hv, rfl, h7, h8⟩
    exact ⟨h1, h2, h3, ht, hv, h7, h8⟩
  · rintro ⟨h1, h2, h3, ht, hv, h7, h8⟩
    exact ⟨h1, h2, h3, ht, _, hv, rfl, h7, h8⟩

theorem transferOwnership_some {s s' : State} {m : Msg} {a : Address} :
    transferOwnership s m a = some s' ↔ m.value = 0 ∧ m.sender = s.owner ∧ a ≠ 0 ∧
      { s with owner := a } = s' := by
  unfold transferOwnership Zkdvrf.nonPayable onlyOwner
  simp only [require_bind, decide_eq_true_eq, pure, Option.some.injEq]

theorem renounceOwnership_some {s s' : State} {m : Msg} :
    renounceOwnership s m = some s' ↔ m.value = 0 ∧ m.sender = s.owner ∧
      { s with owner := 0 } = s' := by
  unfold renounceOwnership Zkdvrf.nonPayable onlyOwner
  simp only [require_bind, decide_eq_true_eq, pure, Option.some.injEq]

/-! ### Simulation -/

/-- Phase of the plain contract. -/
def Phase.toZk : Phase → Zkdvrf.Phase
  | .Unregistered => .Unregistered
  | .Registered => .Unregistered
  | .Nidkg => .Nidkg
  | .NidkgComplete => .NidkgComplete
  | .Ready => .Ready

/-- The plain contract's state with the same data; its two order lists are supplied. -/
def State.toZk (p : State) (o1 o2 : List Address) : Zkdvrf.State where
  owner := p.owner
  memberCount := p.memberCount
  threshold := p.threshold
  ppLength := p.ppLength
  currentIndex := p.currentIndex
  registeredCount := p.registeredCount
  ppSubmissionCount := p.ppSubmissionCount
  currentRoundNum := p.currentRoundNum
  minNodeDeposit := p.minNodeDeposit
  pkListIndex := p.pkListIndex
  pkList := p.pkList
  pkListOrder := o1
  ppList := p.ppList
  ppListOrder := o2
  vkList := p.vkList
  gpkVal := p.gpkVal
  contractPhase := p.contractPhase.toZk
  nodes := p.nodes
  addrToNode := p.addrToNode
  roundInput := p.roundInput
  lastSubmittedRound := p.lastSubmittedRound
  roundToEval := p.roundToEval
  roundSubmissionCount := p.roundSubmissionCount
  roundToRandom := p.roundToRandom
  balance := p.balance

/-- What the plain contract does not know. -/
structure Extra (env : Env) (p : State) : Prop where
  unreg : p.contractPhase = .Unregistered → p.registeredCount < p.memberCount ∨ p.memberCount = 0
  reg : p.contractPhase = .Registered → p.registeredCount = p.memberCount ∧ p.memberCount ≠ 0
  hash : ∀ k, 1 ≤ k → k ≤ p.currentRoundNum →
    PseudoRandSol.hashToG1 env.keccak (p.roundInput k) = some (p.roundHash k)

theorem checkLoop_eq : ∀ (pp : List Word) (l : List GrumpkinSol.Point) (left i j : ℕ),
    checkLoop pp l left i j = Zkdvrf.checkLoop pp l left i j
  | _, _, 0, _, _ => rfl
  | pp, l, left + 1, i, j => by
    unfold checkLoop Zkdvrf.checkLoop
    simp only [checkLoop_eq pp l left]

theorem check_eq (p : State) (o1 o2 : List Address) (pp : List Word) :
    checkPublicParams p pp = Zkdvrf.checkPublicParams (p.toZk o1 o2) pp := by
  unfold checkPublicParams Zkdvrf.checkPublicParams State.toZk
  simp only [checkLoop_eq]

theorem eval_eq {k : Keccak} {m : List Byte} {h : SolG1} (hh : PseudoRandSol.hashToG1 k m = some h)
    (sigma : SolG1) (proof : PseudoRandSol.Proof) (vk : SolG1) :
    PseudoRandSol.verifyPartialEval k m sigma proof vk =
      PseudoRandSol.verifyPartialEvalFast k h sigma proof vk := by
  unfold PseudoRandSol.hashToG1 at hh
  unfold PseudoRandSol.verifyPartialEval PseudoRandSol.verifyPartialEvalFast
  rw [hh]
  rfl

theorem rand_eq {E : BnPairing} {k : Keccak} {m : List Byte} {h : SolG1}
    (hh : PseudoRandSol.hashToG1 k m = some h) (sigma : SolG1) (gpk : SolG2) :
    PseudoRandSol.verifyPseudoRand E k m sigma gpk =
      PseudoRandSol.verifyPseudoRandFast E h sigma gpk := by
  unfold PseudoRandSol.hashToG1 at hh
  unfold PseudoRandSol.verifyPseudoRand PseudoRandSol.verifyPseudoRandFast
  rw [hh]
  rfl

theorem toZk_ready {p : Phase} : p.toZk = .Ready ↔ p = .Ready := by cases p <;> simp [Phase.toZk]
theorem toZk_complete {p : Phase} : p.toZk = .NidkgComplete ↔ p = .NidkgComplete := by
  cases p <;> simp [Phase.toZk]
theorem toZk_nidkg {p : Phase} : p.toZk = .Nidkg ↔ p = .Nidkg := by cases p <;> simp [Phase.toZk]
theorem toZk_unreg {p : Phase} : p.toZk = .Unregistered ↔ p = .Unregistered ∨ p = .Registered := by
  cases p <;> simp [Phase.toZk]

/-- No evaluation is ever counted for round 0. -/
theorem count_zero {env : Env} {s : Zkdvrf.State} (hr : Zkdvrf.Reachable env s) :
    s.roundSubmissionCount 0 = 0 := by
  rw [(Zkdvrf.evalInv hr).count, Finset.card_eq_zero, Finset.filter_eq_empty_iff]
  intro i _ hc
  have := ((Zkdvrf.evalInv hr).stored 0 i hc).1.1
  omega

theorem exec_extra {env : Env} {p p' : State} {m : Msg} {c : Zkdvrf.Call} (hx : Extra env p)
    (he : exec env p m c = some p') : Extra env p' := by
  cases c with
  | addPermissionedNodes a =>
    obtain ⟨_, _, _, _, _, _, rfl⟩ := addPermissionedNodes_some.1 he
    exact { hx with }
  | registerNode pk =>
    obtain ⟨h1, _, _, _, _, _, _, rfl⟩ := registerNode_some.1 he
    have h0 := hx.unreg h1
    refine ⟨?_, ?_, hx.hash⟩
    · intro h
      change p.registeredCount + 1 < p.memberCount ∨ p.memberCount = 0
      change (if p.registeredCount + 1 = p.memberCount then Phase.Registered else p.contractPhase) =
        _ at h
      split at h
      · cases h
      · omega
    · intro h
      change p.registeredCount + 1 = p.memberCount ∧ p.memberCount ≠ 0
      change (if p.registeredCount + 1 = p.memberCount then Phase.Registered else p.contractPhase) =
        _ at h
      split at h
      · omega
      · rw [h1] at h; cases h
  | startNidkg =>
    obtain ⟨_, _, _, rfl⟩ := startNidkg_some.1 he
    exact ⟨fun h => (by cases h), fun h => (by cases h), hx.hash⟩
  | submitPublicParams pp pr =>
    obtain ⟨_, _, h3, _, _, _, _, rfl⟩ := submitPublicParams_some.1 he
    refine ⟨?_, ?_, hx.hash⟩
    · intro h
      change (if p.ppSubmissionCount + 1 = p.memberCount then Phase.NidkgComplete
        else p.contractPhase) = _ at h
      split at h
      · cases h
      · rw [h3] at h; cases h
    · intro h
      change (if p.ppSubmissionCount + 1 = p.memberCount then Phase.NidkgComplete
        else p.contractPhase) = _ at h
      split at h
      · cases h
      · rw [h3] at h; cases h
  | computeVk gpk =>
    obtain ⟨_, _, out, _, rfl⟩ := computeVk_some.1 he
    exact ⟨fun h => (by cases h), fun h => (by cases h), hx.hash⟩
  | initiateRandom =>
    obtain ⟨_, _, _, _, _, h, hh, rfl⟩ := initiateRandom_some.1 he
    refine ⟨hx.unreg, hx.reg, ?_⟩
    intro k h1 h2
    simp only
    by_cases hk : k = p.currentRoundNum + 1
    · subst hk
      simp only [Function.update_self]
      exact hh
    · simp only [Function.update_of_ne hk]
      exact hx.hash k h1 (by change k ≤ p.currentRoundNum + 1 at h2; omega)
  | submitPartialEval pe =>
    obtain ⟨_, _, _, _, _, _, _, _, rfl⟩ := submitPartialEval_some.1 he
    exact { hx with }
  | submitRandom pr =>
    obtain ⟨_, _, _, _, _, _, rfl⟩ := submitRandom_some.1 he
    exact { hx with }
  | transferOwnership a =>
    obtain ⟨_, _, _, rfl⟩ := transferOwnership_some.1 he
    exact { hx with }
  | renounceOwnership =>
    obtain ⟨_, _, rfl⟩ := renounceOwnership_some.1 he
    exact { hx with }

/-- Every call that succeeds here succeeds at the plain contract, with the same effect. -/
theorem sim_exec {env : Env} {p p' : State} {m : Msg} {c : Zkdvrf.Call} {o1 o2 : List Address}
    (hr : Zkdvrf.Reachable env (p.toZk o1 o2)) (hx : Extra env p) (ht : 1 ≤ p.threshold)
    (he : exec env p m c = some p') :
    ∃ o1' o2', Zkdvrf.exec env (p.toZk o1 o2) m c = some (p'.toZk o1' o2') := by
  cases c with
  | addPermissionedNodes a =>
    obtain ⟨h1, h2, h3, h4, h5, h6, rfl⟩ := addPermissionedNodes_some.1 he
    exact ⟨o1, o2, Zkdvrf.addPermissionedNodes_some.2 ⟨h1, h2, h3, h4, h5, h6, rfl⟩⟩
  | registerNode pk =>
    obtain ⟨h1, h2, h3, h4, h5, h6, h7, rfl⟩ := registerNode_some.1 he
    refine ⟨o1 ++ [m.sender], o2, Zkdvrf.registerNode_some.2
      ⟨toZk_unreg.2 (Or.inl h1), h2, h3, h4, h5, h6, h7, ?_⟩⟩
    have : (if p.registeredCount + 1 = p.memberCount then Phase.Registered
        else p.contractPhase).toZk = p.contractPhase.toZk := by
      rw [h1]; split <;> rfl
    unfold State.toZk
    simp only [this]
  | startNidkg =>
    obtain ⟨h1, h2, h3, rfl⟩ := startNidkg_some.1 he
    exact ⟨o1, o2, Zkdvrf.startNidkg_some.2
      ⟨h1, h2, toZk_unreg.2 (Or.inr h3), (hx.reg h3).1, rfl⟩⟩
  | submitPublicParams pp pr =>
    obtain ⟨h1, h2, h3, h4, h5, h6, h7, rfl⟩ := submitPublicParams_some.1 he
    refine ⟨o1, o2 ++ [m.sender], Zkdvrf.submitPublicParams_some.2
      ⟨h1, h2, toZk_nidkg.2 h3, h4, by rw [← check_eq]; exact h5, h6, h7, ?_⟩⟩
    have : (if p.ppSubmissionCount + 1 = p.memberCount then Phase.NidkgComplete
        else p.contractPhase).toZk = if p.ppSubmissionCount + 1 = p.memberCount then
          Zkdvrf.Phase.NidkgComplete else p.contractPhase.toZk := by
      split <;> rfl
    unfold State.toZk
    simp only [this]
  | computeVk gpk =>
    obtain ⟨h1, h2, out, h3, rfl⟩ := computeVk_some.1 he
    exact ⟨o1, o2, Zkdvrf.computeVk_some.2 ⟨h1, toZk_complete.2 h2, out, h3, rfl⟩⟩
  | initiateRandom =>
    obtain ⟨h1, h2, h3, h4, h5, h, hh, rfl⟩ := initiateRandom_some.1 he
    exact ⟨o1, o2, Zkdvrf.initiateRandom_some.2 ⟨h1, h2, toZk_ready.2 h3, h4, h5, rfl⟩⟩
  | submitPartialEval pe =>
    obtain ⟨h1, h2, h3, h4, h5, h6, ⟨vk, h7, h8⟩, h9, rfl⟩ := submitPartialEval_some.1 he
    exact ⟨o1, o2, Zkdvrf.submitPartialEval_some.2 ⟨h1, h2, h3, h4, h5, h6, ⟨vk, h7, by
      rw [← eval_eq (hx.hash _ (by omega) le_rfl)] at h8; exact h8⟩, h9, rfl⟩⟩
  | submitRandom pr =>
    obtain ⟨h1, h2, h3, h4, h5, h6, rfl⟩ := submitRandom_some.1 he
    have hpos : 1 ≤ p.currentRoundNum := by
      by_contra h0
      have h0 : p.currentRoundNum = 0 := by omega
      have := count_zero hr
      rw [h0] at h4
      change p.roundSubmissionCount 0 = 0 at this
      omega
    exact ⟨o1, o2, Zkdvrf.submitRandom_some.2 ⟨h1, h2, h3, by
      rw [← rand_eq (hx.hash _ hpos le_rfl)] at h5; exact h5, h6, rfl⟩⟩
  | transferOwnership a =>
    obtain ⟨h1, h2, h3, rfl⟩ := transferOwnership_some.1 he
    exact ⟨o1, o2, Zkdvrf.transferOwnership_some.2 ⟨h1, h2, h3, rfl⟩⟩
  | renounceOwnership =>
    obtain ⟨h1, h2, rfl⟩ := renounceOwnership_some.1 he
    exact ⟨o1, o2, Zkdvrf.renounceOwnership_some.2 ⟨h1, h2, rfl⟩⟩

theorem exec_threshold {env : Env} {p p' : State} {m : Msg} {c : Zkdvrf.Call}
    (he : exec env p m c = some p') : p'.threshold = p.threshold ∧ p'.memberCount = p.memberCount := by
  cases c with
  | addPermissionedNodes a =>
    obtain ⟨_, _, _, _, _, _, rfl⟩ := addPermissionedNodes_some.1 he; exact ⟨rfl, rfl⟩
  | registerNode pk =>
    obtain ⟨_, _, _, _, _, _, _, rfl⟩ := registerNode_some.1 he; exact ⟨rfl, rfl⟩
  | startNidkg => obtain ⟨_, _, _, rfl⟩ := startNidkg_some.1 he; exact ⟨rfl, rfl⟩
  | submitPublicParams pp pr =>
    obtain ⟨_, _, _, _, _, _, _, rfl⟩ := submitPublicParams_some.1 he; exact ⟨rfl, rfl⟩
  | computeVk gpk => obtain ⟨_, _, _, _, rfl⟩ := computeVk_some.1 he; exact ⟨rfl, rfl⟩
  | initiateRandom =>
    obtain ⟨_, _, _, _, _, _, _, rfl⟩ := initiateRandom_some.1 he; exact ⟨rfl, rfl⟩
  | submitPartialEval pe =>
    obtain ⟨_, _, _, _, _, _, _, _, rfl⟩ := submitPartialEval_some.1 he; exact ⟨rfl, rfl⟩
  | submitRandom pr => obtain ⟨_, _, _, _, _, _, rfl⟩ := submitRandom_some.1 he; exact ⟨rfl, rfl⟩
  | transferOwnership a => obtain ⟨_, _, _, rfl⟩ := transferOwnership_some.1 he; exact ⟨rfl, rfl⟩
  | renounceOwnership => obtain ⟨_, _, rfl⟩ := renounceOwnership_some.1 he; exact ⟨rfl, rfl⟩

/-- One event here is one event (or none) at the plain contract. -/
theorem sim_step {env : Env} {p : State} {o1 o2 : List Address} (tx : Zkdvrf.Tx)
    (hr : Zkdvrf.Reachable env (p.toZk o1 o2)) (hx : Extra env p)
    (ht : 1 ≤ p.threshold) : Extra env (step env p tx) ∧
    (step env p tx).threshold = p.threshold ∧
    (step env p tx = p ∨
      ∃ o1' o2', Zkdvrf.step env (p.toZk o1 o2) tx = (step env p tx).toZk o1' o2') := by
  cases tx with
  | call m c =>
    unfold step
    dsimp only
    cases he : exec env p m c with
    | none => exact ⟨hx, rfl, Or.inl rfl⟩
    | some p' =>
      refine ⟨exec_extra hx he, (exec_threshold he).1, Or.inr ?_⟩
      obtain ⟨o1', o2', h⟩ := sim_exec hr hx ht he
      refine ⟨o1', o2', ?_⟩
      change (Zkdvrf.exec env (p.toZk o1 o2) m c).getD _ = _
      rw [h]
      rfl
  | forceEther a => exact ⟨{ hx with }, rfl, Or.inr ⟨o1, o2, rfl⟩⟩

/-- Every reachable state, with a positive threshold, is a reachable state of the plain contract. -/
theorem sim {env : Env} {p : State} (h : Reachable env p) (ht : 1 ≤ p.threshold) :
    Extra env p ∧ ∃ o1 o2, Zkdvrf.Reachable env (p.toZk o1 o2) := by
  induction h with
  | @deploy m t n o a b c d s h =>
    obtain ⟨h1, h2, h3, h4, h5, h6, h7, rfl⟩ := constructor_some.1 h
    refine ⟨⟨?_, ?_, ?_⟩, [], [], ?_⟩
    · intro _
      change 0 < n ∨ n = 0
      omega
    · intro h; cases h
    · intro k hk1 hk2
      change k ≤ 0 at hk2
      omega
    · exact .deploy (m := ⟨o, 0⟩) h2 (Zkdvrf.constructor_some.2 ⟨rfl, h2, h3, h4, h5, h6, h7, rfl⟩)
  | @step s tx hv hreach ih =>
    have ht' : (step env s tx).threshold = s.threshold := by
      cases tx with
      | call m c =>
        unfold step
        dsimp only
        cases he : exec env s m c with
        | none => rfl
        | some p' => exact (exec_threshold he).1
      | forceEther a => rfl
    rw [ht'] at ht
    obtain ⟨hx, o1, o2, hr⟩ := ih ht
    obtain ⟨e1, e2, e3⟩ := sim_step tx hr hx ht
    refine ⟨e1, ?_⟩
    rcases e3 with e3 | ⟨o1', o2', e3⟩
    · rw [e3]; exact ⟨o1, o2, hr⟩
    · exact ⟨o1', o2', by rw [← e3]; exact .step tx hv hr⟩

end Verif.ZkdvrfPre

namespace Verif.ZkdvrfPre

/-- A call of the plain contract, other than a `submitRandom` without quorum, works here as well. -/
theorem sim_back {env : Env} {p : State} {s' : Zkdvrf.State} {m : Msg} {c : Zkdvrf.Call}
    {o1 o2 : List Address} (hr : Zkdvrf.Reachable env (p.toZk o1 o2)) (hx : Extra env p)
    (hm : m.sender ≠ 0) (hn : p.memberCount ≠ 0)
    (hq : c.isSetup = true ∨ 1 ≤ p.currentRoundNum ∧
      p.threshold ≤ p.roundSubmissionCount p.currentRoundNum)
    (he : Zkdvrf.exec env (p.toZk o1 o2) m c = some s') :
    ∃ p' o1' o2', exec env p m c = some p' ∧ s' = p'.toZk o1' o2' := by
  cases c with
  | addPermissionedNodes a =>
    obtain ⟨h1, h2, h3, h4, h5, h6, rfl⟩ := Zkdvrf.addPermissionedNodes_some.1 he
    exact ⟨_, o1, o2, addPermissionedNodes_some.2 ⟨h1, h2, h3, h4, h5, h6, rfl⟩, rfl⟩
  | registerNode pk =>
    obtain ⟨h1, h2, h3, h4, h5, h6, h7, rfl⟩ := Zkdvrf.registerNode_some.1 he
    have hu : p.contractPhase = .Unregistered := by
      rcases toZk_unreg.1 h1 with h | h
      · exact h
      · exfalso
        have hst := (Zkdvrf.regInv hr).all_registered (hx.reg h).1 m.sender (by rw [← h2]; exact hm)
        rw [h3] at hst
        cases hst
    refine ⟨_, o1 ++ [m.sender], o2, registerNode_some.2
      ⟨hu, h2, h3, h4, h5, h6, h7, rfl⟩, ?_⟩
    have : (if p.registeredCount + 1 = p.memberCount then Phase.Registered
        else p.contractPhase).toZk = p.contractPhase.toZk := by
      rw [hu]; split <;> rfl
    unfold State.toZk
    simp only [this]
  | startNidkg =>
    obtain ⟨h1, h2, h3, h4, rfl⟩ := Zkdvrf.startNidkg_some.1 he
    have hu : p.contractPhase = .Registered := by
      rcases toZk_unreg.1 h3 with h | h
      · exfalso
        have := hx.unreg h
        change p.registeredCount = p.memberCount at h4
        omega
      · exact h
    exact ⟨_, o1, o2, startNidkg_some.2 ⟨h1, h2, hu, rfl⟩, rfl⟩
  | submitPublicParams pp pr =>
    obtain ⟨h1, h2, h3, h4, h5, h6, h7, rfl⟩ := Zkdvrf.submitPublicParams_some.1 he
    refine ⟨_, o1, o2 ++ [m.sender], submitPublicParams_some.2
      ⟨h1, h2, toZk_nidkg.1 h3, h4, by rw [check_eq p o1 o2]; exact h5, h6, h7, rfl⟩, ?_⟩
    have : (if p.ppSubmissionCount + 1 = p.memberCount then Phase.NidkgComplete
        else p.contractPhase).toZk = if p.ppSubmissionCount + 1 = p.memberCount then
          Zkdvrf.Phase.NidkgComplete else p.contractPhase.toZk := by
      split <;> rfl
    unfold State.toZk
    simp only [this]
  | computeVk gpk =>
    obtain ⟨h1, h2, out, h3, rfl⟩ := Zkdvrf.computeVk_some.1 he
    exact ⟨_, o1, o2, computeVk_some.2 ⟨h1, toZk_complete.1 h2, out, h3, rfl⟩, rfl⟩
  | initiateRandom =>
    obtain ⟨h1, h2, h3, h4, h5, rfl⟩ := Zkdvrf.initiateRandom_some.1 he
    exact ⟨_, o1, o2, initiateRandom_some.2 ⟨h1, h2, toZk_ready.1 h3, h4, h5, _,
      solHash_eq env.keccak _ (Zkdvrf.input_length h5), rfl⟩, rfl⟩
  | submitPartialEval pe =>
    obtain ⟨h1, h2, h3, h4, h5, h6, ⟨vk, h7, h8⟩, h9, rfl⟩ := Zkdvrf.submitPartialEval_some.1 he
    have hpos : 1 ≤ p.currentRoundNum := by
      change _ < p.currentRoundNum at h4
      omega
    exact ⟨_, o1, o2, submitPartialEval_some.2 ⟨h1, h2, h3, h4, h5, h6, ⟨vk, h7, by
      rw [← eval_eq (hx.hash _ hpos le_rfl)]; exact h8⟩, h9, rfl⟩, rfl⟩
  | submitRandom pr =>
    obtain ⟨h1, h2, h3, h4, h5, rfl⟩ := Zkdvrf.submitRandom_some.1 he
    rcases hq with hq | ⟨hpos, hq⟩
    · cases hq
    · exact ⟨_, o1, o2, submitRandom_some.2 ⟨h1, h2, h3, hq, by
        rw [← rand_eq (hx.hash _ hpos le_rfl)]; exact h4, h5, rfl⟩, rfl⟩
  | transferOwnership a =>
    obtain ⟨h1, h2, h3, rfl⟩ := Zkdvrf.transferOwnership_some.1 he
    exact ⟨_, o1, o2, transferOwnership_some.2 ⟨h1, h2, h3, rfl⟩, rfl⟩
  | renounceOwnership =>
    obtain ⟨h1, h2, rfl⟩ := Zkdvrf.renounceOwnership_some.1 he
    exact ⟨_, o1, o2, renounceOwnership_some.2 ⟨h1, h2, rfl⟩, rfl⟩

theorem step_threshold (env : Env) (p : State) (tx : Zkdvrf.Tx) :
    (step env p tx).threshold = p.threshold ∧ (step env p tx).memberCount = p.memberCount := by
  cases tx with
  | call m c =>
    unfold step
    dsimp only
    cases he : exec env p m c with
    | none => exact ⟨rfl, rfl⟩
    | some p' => exact exec_threshold he
  | forceEther a => exact ⟨rfl, rfl⟩

theorem Later.reachable {env : Env} {s s' : State} (h : Later env s s') (hr : Reachable env s) :
    Reachable env s' := by
  induction h with
  | refl => exact hr
  | step tx hv _ ih => exact .step tx hv ih

theorem Later.threshold {env : Env} {s s' : State} (h : Later env s s') :
    s'.threshold = s.threshold ∧ s'.memberCount = s.memberCount := by
  induction h with
  | refl => exact ⟨rfl, rfl⟩
  | step tx hv _ ih =>
    obtain ⟨h1, h2⟩ := step_threshold env _ tx
    exact ⟨h1.trans ih.1, h2.trans ih.2⟩

theorem Later.trans {env : Env} {s s' s'' : State} (h : Later env s s') (h' : Later env s' s'') :
    Later env s s'' := by
  induction h' with
  | refl => exact h
  | step tx hv _ ih => exact .step tx hv ih

theorem Later.call {env : Env} {s s' s'' : State} (h : Later env s s') {m : Msg} {c : Zkdvrf.Call}
    (hm : m.sender ≠ 0) (he : exec env s' m c = some s'') : Later env s s'' := by
  have := Later.step (.call m c) hm h
  have he' : ZkdvrfPre.step env s' (.call m c) = s'' := congrArg (Option.getD · _) he
  rw [he'] at this
  exact this

/-- Histories are histories of the plain contract. -/
theorem sim_later {env : Env} {p p' : State} {o1 o2 : List Address}
    (hr : Zkdvrf.Reachable env (p.toZk o1 o2)) (hx : Extra env p) (ht : 1 ≤ p.threshold)
    (h : Later env p p') : Extra env p' ∧
    ∃ o1' o2', Zkdvrf.Later env (p.toZk o1 o2) (p'.toZk o1' o2') := by
  induction h with
  | refl => exact ⟨hx, o1, o2, .refl⟩
  | @step q tx hv hl ih =>
    obtain ⟨hx', a1, a2, hl'⟩ := ih
    obtain ⟨e1, e2, e3⟩ := sim_step tx (hl'.reachable hr) hx' (by rw [hl.threshold.1]; exact ht)
    refine ⟨e1, ?_⟩
    rcases e3 with e3 | ⟨b1, b2, e3⟩
    · rw [e3]; exact ⟨a1, a2, hl'⟩
    · exact ⟨b1, b2, by rw [← e3]; exact .step tx hv hl'⟩

/-- Setup histories of the plain contract can be followed here. -/
theorem back_later {env : Env} {p : State} {s' : Zkdvrf.State} {o1 o2 : List Address}
    (hr : Zkdvrf.Reachable env (p.toZk o1 o2)) (hx : Extra env p) (hn : p.memberCount ≠ 0)
    (h : Zkdvrf.SetupLater env (p.toZk o1 o2) s') :
    ∃ p' o1' o2', Later env p p' ∧ s' = p'.toZk o1' o2' ∧ Extra env p' := by
  induction h with
  | refl => exact ⟨p, o1, o2, .refl, rfl, hx⟩
  | @calls q q' m c hl hm he hc ih =>
    obtain ⟨p1, a1, a2, hl1, rfl, hx1⟩ := ih
    obtain ⟨p2, b1, b2, e1, e2⟩ := sim_back (hl.reachable hr) hx1 hm
      (by rw [hl1.threshold.2]; exact hn) (Or.inl hc) he
    exact ⟨p2, b1, b2, hl1.call hm e1, e2, exec_extra hx1 e1⟩

end Verif.ZkdvrfPre

namespace Verif.ZkdvrfPre

/-- Every stored random has its quorum. -/
theorem quorum {env : Env} {p : State} (h : Reachable env p) (ht : 1 ≤ p.threshold) :
    ∀ k, (p.roundToRandom k).value ≠ 0 →
      1 ≤ k ∧ p.threshold ≤ p.roundSubmissionCount k := by
  induction h with
  | @deploy m t n o a b c d s h =>
    obtain ⟨h1, h2, h3, h4, h5, h6, h7, rfl⟩ := constructor_some.1 h
    intro k hk
    exact absurd rfl hk
  | @step s tx hv hreach ih =>
    rw [(step_threshold env s tx).1] at ht ⊢
    have ih := ih ht
    obtain ⟨hx, o1, o2, hz⟩ := sim hreach ht
    cases tx with
    | forceEther a => exact ih
    | call m c =>
      unfold step
      dsimp only
      cases he : exec env s m c with
      | none => exact ih
      | some p' =>
        rw [Option.getD_some]
        cases c with
        | addPermissionedNodes a =>
          obtain ⟨_, _, _, _, _, _, rfl⟩ := addPermissionedNodes_some.1 he; exact ih
        | registerNode pk =>
          obtain ⟨_, _, _, _, _, _, _, rfl⟩ := registerNode_some.1 he; exact ih
        | startNidkg => obtain ⟨_, _, _, rfl⟩ := startNidkg_some.1 he; exact ih
        | submitPublicParams pp pr =>
          obtain ⟨_, _, _, _, _, _, _, rfl⟩ := submitPublicParams_some.1 he; exact ih
        | computeVk gpk => obtain ⟨_, _, _, _, rfl⟩ := computeVk_some.1 he; exact ih
        | initiateRandom =>
          obtain ⟨_, _, _, _, _, _, _, rfl⟩ := initiateRandom_some.1 he; exact ih
        | submitPartialEval pe =>
          obtain ⟨_, _, _, _, _, _, _, _, rfl⟩ := submitPartialEval_some.1 he
          intro k hk
          obtain ⟨h1, h2⟩ := ih k hk
          refine ⟨h1, ?_⟩
          simp only
          by_cases hkk : k = s.currentRoundNum
          · subst hkk; rw [Function.update_self]; omega
          · rw [Function.update_of_ne hkk]; exact h2
        | submitRandom pr =>
          obtain ⟨_, _, _, h4, _, _, rfl⟩ := submitRandom_some.1 he
          intro k hk
          simp only at hk ⊢
          by_cases hkk : k = s.currentRoundNum
          · subst hkk
            refine ⟨?_, h4⟩
            by_contra h0
            have h0 : s.currentRoundNum = 0 := by omega
            have := count_zero hz
            rw [h0] at h4
            change s.roundSubmissionCount 0 = 0 at this
            omega
          · rw [Function.update_of_ne hkk] at hk; exact ih k hk
        | transferOwnership a =>
          obtain ⟨_, _, _, rfl⟩ := transferOwnership_some.1 he; exact ih
        | renounceOwnership =>
          obtain ⟨_, _, rfl⟩ := renounceOwnership_some.1 he; exact ih

theorem step_none {env : Env} {p : State} {m : Msg} {c : Zkdvrf.Call} (h : exec env p m c = none) :
    step env p (.call m c) = p := by
  unfold step
  dsimp only
  rw [h]
  rfl

theorem step_some {env : Env} {p p' : State} {m : Msg} {c : Zkdvrf.Call}
    (h : exec env p m c = some p') : step env p (.call m c) = p' := by
  unfold step
  dsimp only
  rw [h]
  rfl

end Verif.ZkdvrfPre
