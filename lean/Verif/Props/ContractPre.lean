import Verif.Lemmas.ZkdvrfPre
import Verif.Props.ContractRounds

/-!
C30-C41 for contracts/zkdvrf_pre.sol, by refinement of the plain contract.  The threshold is assumed
positive, as `DkgConfig::new` requires (C01); `C37_pre_zero_threshold` shows what happens otherwise.
-/

namespace Verif.Props
open Verif.ZkdvrfPre
open Verif.Zkdvrf (Tx Call keyWords)


/-- C39. Refinement: every reachable state of the precomputing contract carries the data of a
reachable state of the plain one (which keeps, in addition, the orders of submission), and stores for
every opened round the hash point of its input. -/
theorem C39_pre_refines (env : Env) {p : ZkdvrfPre.State} (hr : ZkdvrfPre.Reachable env p)
    (ht : 1 ≤ p.threshold) :
    (∃ s, Zkdvrf.Reachable env s ∧ s.owner = p.owner ∧ s.pkList = p.pkList ∧ s.ppList = p.ppList ∧
      s.vkList = p.vkList ∧ s.gpkVal = p.gpkVal ∧ s.addrToNode = p.addrToNode ∧
      s.currentRoundNum = p.currentRoundNum ∧ s.roundInput = p.roundInput ∧
      s.roundToEval = p.roundToEval ∧ s.roundToRandom = p.roundToRandom ∧
      s.roundSubmissionCount = p.roundSubmissionCount ∧ s.balance = p.balance) ∧
    ∀ k, 1 ≤ k → k ≤ p.currentRoundNum →
      p.roundHash k = encodeG1 (evalHash env.keccak (strBytes "zkRand-v1-2024:" ++ decimal k)) := by
  obtain ⟨hx, o1, o2, hz⟩ := sim hr ht
  refine ⟨⟨_, hz, rfl, rfl, rfl, rfl, rfl, rfl, rfl, rfl, rfl, rfl, rfl, rfl⟩, ?_⟩
  intro k h1 h2
  have e := hx.hash k h1 h2
  have hin : p.roundInput k = strBytes "zkRand-v1-2024:" ++ decimal k :=
    (C34_rounds env hz).2.1 k h1 h2
  have e2 := solHash_eq env.keccak (p.roundInput k) (input_ok hz k)
  unfold PseudoRandSol.hashToG1 at e
  rw [e2] at e
  rw [← hin]
  exact (Option.some.inj e).symm

/-- C30. One event moves the phase at most one step forward, each step through its own entry point
with its guard. -/
theorem C30_pre_phase_step (env : Env) {p : ZkdvrfPre.State} (hr : ZkdvrfPre.Reachable env p)
    (ht : 1 ≤ p.threshold) (tx : Tx) (hv : tx.valid) :
    (step env p tx).contractPhase = p.contractPhase ∨
    (p.contractPhase = .Unregistered ∧ (step env p tx).contractPhase = .Registered ∧
      p.pkList.length + 1 = p.memberCount ∧
      ∃ m pk, tx = .call m (.registerNode pk) ∧ Added p m.sender ∧ ¬ Registered p m.sender) ∨
    (p.contractPhase = .Registered ∧ (step env p tx).contractPhase = .Nidkg ∧
      p.pkList.length = p.memberCount ∧ ∃ m, tx = .call m .startNidkg ∧ m.sender = p.owner) ∨
    (p.contractPhase = .Nidkg ∧ (step env p tx).contractPhase = .NidkgComplete ∧
      ∃ m pp pr, tx = .call m (.submitPublicParams pp pr) ∧ Registered p m.sender ∧
        p.ppList.length + 1 = p.memberCount ∧ (step env p tx).ppList = p.ppList ++ [pp]) ∨
    (p.contractPhase = .NidkgComplete ∧ (step env p tx).contractPhase = .Ready ∧
      ∃ m gpk vks, tx = .call m (.computeVk gpk) ∧
        Gpp.createGpp env.E p.memberCount gpk p.ppList = some (gpk, vks)) := by
  obtain ⟨hx, o1, o2, hz⟩ := sim hr ht
  have hreg := Zkdvrf.regInv hz
  have hdkg := Zkdvrf.dkgInv hz
  have hpk : p.pkList.length = p.registeredCount := hreg.pkLen
  have hpp : p.ppList.length = p.ppSubmissionCount := hdkg.ppLen
  cases tx with
  | forceEther a => exact Or.inl rfl
  | call m c =>
    have hm : m.sender ≠ 0 := hv
    unfold step
    dsimp only
    cases he : exec env p m c with
    | none => exact Or.inl rfl
    | some p' =>
      rw [Option.getD_some]
      cases c with
      | addPermissionedNodes a =>
        obtain ⟨_, _, _, _, _, _, rfl⟩ := addPermissionedNodes_some.1 he; exact Or.inl rfl
      | registerNode pk =>
        obtain ⟨h1, h2, h3, _, _, _, _, rfl⟩ := registerNode_some.1 he
        by_cases h : p.registeredCount + 1 = p.memberCount
        · refine Or.inr (Or.inl ⟨h1, ?_, by omega, m, pk, rfl, ?_, ?_⟩)
          · exact if_pos h
          · unfold Added; rw [← h2]; exact hm
          · unfold Registered; rw [h3]; exact Bool.noConfusion
        · exact Or.inl (if_neg h)
      | startNidkg =>
        obtain ⟨_, h2, h3, rfl⟩ := startNidkg_some.1 he
        exact Or.inr (Or.inr (Or.inl ⟨h3, rfl, by rw [hpk]; exact (hx.reg h3).1, m, rfl, h2⟩))
      | submitPublicParams pp pr =>
        obtain ⟨_, h2, h3, _, _, _, _, rfl⟩ := submitPublicParams_some.1 he
        by_cases h : p.ppSubmissionCount + 1 = p.memberCount
        · refine Or.inr (Or.inr (Or.inr (Or.inl ⟨h3, if_pos h, m, pp, pr, rfl, ?_, by omega, rfl⟩)))
          refine hreg.all_registered (hreg.started ?_) m.sender ?_
          · change p.contractPhase.toZk ≠ _
            rw [h3]; exact Zkdvrf.Phase.noConfusion
          · change (p.addrToNode m.sender).nodeAddress ≠ 0
            rw [← h2]; exact hm
        · exact Or.inl (if_neg h)
      | computeVk gpk =>
        obtain ⟨_, h2, out, h3, rfl⟩ := computeVk_some.1 he
        refine Or.inr (Or.inr (Or.inr (Or.inr ⟨h2, rfl, m, gpk, out.2, rfl, ?_⟩)))
        rw [h3, ← Zkdvrf.createGpp_fst h3]
      | initiateRandom =>
        obtain ⟨_, _, _, _, _, _, _, rfl⟩ := initiateRandom_some.1 he; exact Or.inl rfl
      | submitPartialEval pe =>
        obtain ⟨_, _, _, _, _, _, _, _, rfl⟩ := submitPartialEval_some.1 he; exact Or.inl rfl
      | submitRandom pr =>
        obtain ⟨_, _, _, _, _, _, rfl⟩ := submitRandom_some.1 he; exact Or.inl rfl
      | transferOwnership a =>
        obtain ⟨_, _, _, rfl⟩ := transferOwnership_some.1 he; exact Or.inl rfl
      | renounceOwnership =>
        obtain ⟨_, _, rfl⟩ := renounceOwnership_some.1 he; exact Or.inl rfl

/-- C30. Over any history the phase never goes back. -/
theorem C30_pre_never_back (env : Env) {p p' : ZkdvrfPre.State} (hr : ZkdvrfPre.Reachable env p)
    (ht : 1 ≤ p.threshold) (h : ZkdvrfPre.Later env p p') :
    p.contractPhase.rank ≤ p'.contractPhase.rank := by
  induction h with
  | refl => exact le_rfl
  | @step q tx hv hl ih =>
    refine ih.trans ?_
    rcases C30_pre_phase_step env (hl.reachable hr) (by rw [hl.threshold.1]; exact ht) tx hv with
      h | ⟨h1, h2, _⟩ | ⟨h1, h2, _⟩ | ⟨h1, h2, _⟩ | ⟨h1, h2, _⟩
    · rw [h]
    all_goals rw [h1, h2]; decide

/-- C31. Registration in every reachable state. -/
theorem C31_pre_registration (env : Env) {p : ZkdvrfPre.State} (hr : ZkdvrfPre.Reachable env p)
    (ht : 1 ≤ p.threshold) :
    (∀ a, Registered p a → Added p a) ∧
    (∀ a, Registered p a → indexOf p a < p.pkList.length) ∧
    (∀ a b, Registered p a → Registered p b → indexOf p a = indexOf p b → a = b) ∧
    (∀ i, i < p.pkList.length → ∃ a, Registered p a ∧ indexOf p a = i) ∧
    p.pkList.length ≤ p.memberCount ∧
    (∀ k ∈ p.pkList, GrumpkinSol.isOnCurve k = true) ∧
    (p.contractPhase ≠ .Unregistered →
      p.pkList.length = p.memberCount ∧ ∀ a, Added p a → Registered p a) := by
  obtain ⟨hx, o1, o2, hz⟩ := sim hr ht
  obtain ⟨h1, h2, h3, h4, h5, h6, h7⟩ := C31_registration env hz
  refine ⟨h1, h2, h3, h4, h5, h6, ?_⟩
  intro hp
  by_cases hpr : p.contractPhase = .Registered
  · have hreg := Zkdvrf.regInv hz
    have hrc := (hx.reg hpr).1
    exact ⟨hreg.pkLen.trans hrc, fun a ha => hreg.all_registered hrc a ha⟩
  · refine h7 ?_
    intro h
    rcases toZk_unreg.1 h with h | h
    · exact hp h
    · exact hpr h

/-- C32. Once the parameter phase is over, exactly `memberCount` vectors are stored, every registered
node has submitted, and each vector passed the checks. -/
theorem C32_pre_parameters (env : Env) {p : ZkdvrfPre.State} (hr : ZkdvrfPre.Reachable env p)
    (ht : 1 ≤ p.threshold) (hp : p.contractPhase = .NidkgComplete ∨ p.contractPhase = .Ready) :
    p.ppList.length = p.memberCount ∧
    (∀ a, (p.addrToNode a).statusPP = true ↔ Registered p a) ∧
    ∀ pp ∈ p.ppList, (∃ proof, env.verifyProof proof pp = some true) ∧
      pp.length = 7 * p.memberCount + 14 ∧
      pp.drop (5 * p.memberCount + 14) = p.pkList.flatMap (fun k => [k.x, k.y]) := by
  obtain ⟨hx, o1, o2, hz⟩ := sim hr ht
  obtain ⟨h1, h2, h3, h4, h5⟩ := C32_parameters env hz
    (hp.imp toZk_complete.2 toZk_ready.2)
  exact ⟨h1, fun a => ((Zkdvrf.dkgInv hz).ppMem a).symm.trans (h4 a), h5⟩

/-- C33. Keys come from the submissions, are written once, and never change. -/
theorem C33_pre_keys (env : Env) {p p' : ZkdvrfPre.State} (hr : ZkdvrfPre.Reachable env p)
    (ht : 1 ≤ p.threshold) :
    (p.contractPhase ≠ .Ready → p.vkList = [] ∧ p.gpkVal = ⟨0, 0, 0, 0⟩) ∧
    (p.contractPhase = .Ready →
      Gpp.createGpp env.E p.memberCount p.gpkVal p.ppList = some (p.gpkVal, p.vkList) ∧
      p.ppList.length = p.memberCount ∧ p.vkList.length = p.memberCount ∧
      (∀ gpk out, Gpp.createGpp env.E p.memberCount gpk p.ppList = some out →
        gpk = p.gpkVal ∧ out = (p.gpkVal, p.vkList)) ∧
      (ZkdvrfPre.Later env p p' → p'.contractPhase = .Ready ∧ p'.vkList = p.vkList ∧
        p'.gpkVal = p.gpkVal ∧ p'.pkList = p.pkList ∧ p'.ppList = p.ppList)) := by
  obtain ⟨hx, o1, o2, hz⟩ := sim hr ht
  constructor
  · intro h
    exact (C33_keys_fixed (s' := p.toZk o1 o2) env hz).1 (fun h' => h (toZk_ready.1 h'))
  · intro h
    obtain ⟨h1, h2, h3, h4⟩ := C33_keys_from_submissions env hz (toZk_ready.2 h)
    refine ⟨h1, h2, h3, h4, ?_⟩
    intro hl
    obtain ⟨_, a1, a2, hl'⟩ := sim_later hz hx ht hl
    obtain ⟨e1, e2, e3, e4, e5⟩ := (C33_keys_fixed env hz).2 (toZk_ready.2 h) hl'
    exact ⟨toZk_ready.1 e1, e2, e3, e4, e5⟩

/-- C33. With a sound proof system the keys are those of one polynomial. -/
theorem C33_pre_group_polynomial (env : Env) {p : ZkdvrfPre.State}
    (hr : ZkdvrfPre.Reachable env p) (ht : 1 ≤ p.threshold) (hp : p.contractPhase = .Ready)
    (hs : Spec.SnarkSound env p.threshold p.memberCount) :
    ∃ F : List Fr, F.length = p.threshold ∧
      decodeG2 p.gpkVal = some (smul2 (Spec.poly F 0) g2) ∧
      ∀ i, i < p.memberCount → ∃ vk, p.vkList[i]? = some vk ∧
        decodeG1 vk = some (Spec.poly F ((i + 1 : ℕ) : Fr) • g1) := by
  obtain ⟨hx, o1, o2, hz⟩ := sim hr ht
  exact C33_group_polynomial env hz (toZk_ready.2 hp) hs

/-- C34. Rounds: those below the current one are complete, inputs are as specified and differ, a
round is open only in phase `Ready`. -/
theorem C34_pre_rounds (env : Env) {p : ZkdvrfPre.State} (hr : ZkdvrfPre.Reachable env p)
    (ht : 1 ≤ p.threshold) :
    (∀ k, 1 ≤ k → k < p.currentRoundNum → Completed p k) ∧
    (∀ k, 1 ≤ k → k ≤ p.currentRoundNum →
      p.roundInput k = strBytes "zkRand-v1-2024:" ++ decimal k) ∧
    (∀ j k, 1 ≤ j → j ≤ p.currentRoundNum → 1 ≤ k → k ≤ p.currentRoundNum → j ≠ k →
      p.roundInput j ≠ p.roundInput k) ∧
    (1 ≤ p.currentRoundNum → p.contractPhase = .Ready) := by
  obtain ⟨hx, o1, o2, hz⟩ := sim hr ht
  obtain ⟨h1, h2, h3, h4⟩ := C34_rounds env hz
  exact ⟨h1, h2, h3, fun h => toZk_ready.1 (h4 h)⟩

/-- C34. The round number changes only by the owner's `initiateRandom` in phase `Ready`, by one, and
only if the current round is complete or no round was opened. -/
theorem C34_pre_round_step (env : Env) (p : ZkdvrfPre.State) (tx : Tx) :
    (step env p tx).currentRoundNum = p.currentRoundNum ∨
    ((step env p tx).currentRoundNum = p.currentRoundNum + 1 ∧ p.contractPhase = .Ready ∧
      (p.currentRoundNum = 0 ∨ Completed p p.currentRoundNum) ∧
      ∃ m, tx = .call m .initiateRandom ∧ m.sender = p.owner) := by
  cases tx with
  | forceEther a => exact Or.inl rfl
  | call m c =>
    unfold step
    dsimp only
    cases he : exec env p m c with
    | none => exact Or.inl rfl
    | some p' =>
      rw [Option.getD_some]
      cases c with
      | addPermissionedNodes a =>
        obtain ⟨_, _, _, _, _, _, rfl⟩ := addPermissionedNodes_some.1 he; exact Or.inl rfl
      | registerNode pk =>
        obtain ⟨_, _, _, _, _, _, _, rfl⟩ := registerNode_some.1 he; exact Or.inl rfl
      | startNidkg => obtain ⟨_, _, _, rfl⟩ := startNidkg_some.1 he; exact Or.inl rfl
      | submitPublicParams pp pr =>
        obtain ⟨_, _, _, _, _, _, _, rfl⟩ := submitPublicParams_some.1 he; exact Or.inl rfl
      | computeVk gpk => obtain ⟨_, _, _, _, rfl⟩ := computeVk_some.1 he; exact Or.inl rfl
      | initiateRandom =>
        obtain ⟨_, h2, h3, h4, _, _, _, rfl⟩ := initiateRandom_some.1 he
        exact Or.inr ⟨rfl, h3, h4, m, rfl, h2⟩
      | submitPartialEval pe =>
        obtain ⟨_, _, _, _, _, _, _, _, rfl⟩ := submitPartialEval_some.1 he; exact Or.inl rfl
      | submitRandom pr =>
        obtain ⟨_, _, _, _, _, _, rfl⟩ := submitRandom_some.1 he; exact Or.inl rfl
      | transferOwnership a =>
        obtain ⟨_, _, _, rfl⟩ := transferOwnership_some.1 he; exact Or.inl rfl
      | renounceOwnership =>
        obtain ⟨_, _, rfl⟩ := renounceOwnership_some.1 he; exact Or.inl rfl

/-- C35. Stored partial evaluations are verified, belong to registered nodes, and are counted. -/
theorem C35_pre_evaluations (env : Env) {p : ZkdvrfPre.State} (hr : ZkdvrfPre.Reachable env p)
    (ht : 1 ≤ p.threshold) (cfg : DkgConfig) (hcfg : cfg.numberOfMembers = p.memberCount)
    (k i : ℕ) :
    (Submitted p k i →
      (1 ≤ k ∧ k ≤ p.currentRoundNum) ∧ (p.roundToEval k i).indexPlus = i + 1 ∧
      (∃ a, Registered p a ∧ indexOf p a = i) ∧
      ∃ vk, p.vkList[i]? = some vk ∧
        ∃ v V : G1, decodeG1 (p.roundToEval k i).value = some v ∧ decodeG1 vk = some V ∧
          (PartialEval.mk (i + 1) v ⟨((p.roundToEval k i).z.toNat : Fr),
            ((p.roundToEval k i).c.toNat : Fr)⟩).verify env.keccak (evalHash env.keccak) cfg
              (p.roundInput k) V = .ok ()) ∧
    p.roundSubmissionCount k =
      Nat.card {i : ℕ // i < p.memberCount ∧ Submitted p k i} ∧
    p.roundSubmissionCount k ≤ p.memberCount := by
  obtain ⟨hx, o1, o2, hz⟩ := sim hr ht
  obtain ⟨h1, h2, h3⟩ := C35_evaluations env hz cfg hcfg k i
  refine ⟨fun h => ?_, h2, h3⟩
  obtain ⟨e1, e2, e3, vk, e4, _, e5⟩ := h1 h
  exact ⟨e1, e2, e3, vk, e4, e5⟩

/-- C35, C36. What is stored stays: evaluations and randoms are never overwritten. -/
theorem C36_pre_write_once (env : Env) {p p' : ZkdvrfPre.State} (hr : ZkdvrfPre.Reachable env p)
    (ht : 1 ≤ p.threshold) (hl : ZkdvrfPre.Later env p p') :
    (∀ k, Completed p k → p'.roundToRandom k = p.roundToRandom k) ∧
    (∀ k i, Submitted p k i → p'.roundToEval k i = p.roundToEval k i) := by
  obtain ⟨hx, o1, o2, hz⟩ := sim hr ht
  obtain ⟨_, a1, a2, hl'⟩ := sim_later hz hx ht hl
  have hk := hl'.keeps hz
  exact ⟨fun k h => hk.random k h, fun k i h => hk.eval k i h⟩

/-- C36. The random of a completed round is determined by the group key. -/
theorem C36_pre_value_determined (env : Env) {p : ZkdvrfPre.State}
    (hr : ZkdvrfPre.Reachable env p) (ht : 1 ≤ p.threshold) (hp : p.contractPhase = .Ready) :
    ∃ a : Fr, decodeG2 p.gpkVal = some (smul2 a g2) ∧ ∀ k, Completed p k →
      (p.roundToRandom k).proof = encodeG1 (a • evalHash env.keccak
        (strBytes "zkRand-v1-2024:" ++ decimal k)) ∧
      (p.roundToRandom k).value = env.keccak (Word.bytes (p.roundToRandom k).proof.x ++
        Word.bytes (p.roundToRandom k).proof.y) := by
  obtain ⟨hx, o1, o2, hz⟩ := sim hr ht
  obtain ⟨a, h1, h2⟩ := C36_value_determined env hz (toZk_ready.2 hp)
  exact ⟨a, h1, fun k hk => h2 k (quorum hr ht k hk).1 hk⟩

/-- C37. A random is stored only for a round that was opened in phase `Ready` and for which at least
`threshold` partial evaluations of different nodes are recorded. -/
theorem C37_pre_quorum (env : Env) {p : ZkdvrfPre.State} (hr : ZkdvrfPre.Reachable env p)
    (ht : 1 ≤ p.threshold) (k : ℕ) (hk : Completed p k) :
    1 ≤ k ∧ k ≤ p.currentRoundNum ∧ p.contractPhase = .Ready ∧
    p.threshold ≤ p.roundSubmissionCount k ∧
    p.threshold ≤ Nat.card {i : ℕ // i < p.memberCount ∧ Submitted p k i} := by
  obtain ⟨hx, o1, o2, hz⟩ := sim hr ht
  obtain ⟨h1, h2⟩ := quorum hr ht k hk
  obtain ⟨h3, h4⟩ := C37_round_opened env hz k h1 hk
  refine ⟨h1, h3, toZk_ready.1 h4, h2, ?_⟩
  have := (C35_pre_evaluations env hr ht ⟨p.threshold, p.memberCount⟩ rfl k 0).2.1
  omega

private theorem zero_fast (E : BnPairing) :
    PseudoRandSol.verifyPseudoRandFast E ⟨0, 0⟩ ⟨0, 0⟩ ⟨0, 0, 0, 0⟩ = some true := by
  have h0 : encodeG2 (0 : G2) = ⟨0, 0, 0, 0⟩ := by
    have e : wordOf (0 : Fq) = 0 := wordOf_eq_zero.2 rfl
    show (⟨wordOf (0 : Fq), wordOf (0 : Fq), wordOf (0 : Fq), wordOf (0 : Fq)⟩ : SolG2) = _
    rw [e]
  have hd : decodeG2 ⟨0, 0, 0, 0⟩ = some 0 := by
    rw [← h0, decodeG2_encode, if_pos (nsmul_zero r)]
  have e1 : E.e 0 (0 : G2) = 0 := by
    have := E.add_left 0 0 0 (nsmul_zero r)
    rwa [add_zero, left_eq_add] at this
  have e2 : E.e 0 g2 = 0 := by
    have := E.add_left 0 0 g2 r_nsmul_g2
    rwa [add_zero, left_eq_add] at this
  unfold PseudoRandSol.verifyPseudoRandFast
  rw [← encode_zero, negate_encode, pairingProd2_eq E _ _ hd decode_P2, neg_zero]
  unfold BnPairing.check2
  rw [e1, e2, add_zero, decide_eq_true rfl]

/-- C37. With threshold 0 the quorum is empty and the owner can again store a random for round 0
before any setup. -/
theorem C37_pre_zero_threshold (env : Env) (o : Address) (ho : o ≠ 0)
    (hk : env.keccak (Word.bytes 0 ++ Word.bytes 0) ≠ 0) :
    ∃ p p', ZkdvrfPre.Reachable env p ∧ p.threshold = 0 ∧ p.contractPhase = .Unregistered ∧
      exec env p ⟨o, 0⟩ (.submitRandom ⟨⟨0, 0⟩, env.keccak (Word.bytes 0 ++ Word.bytes 0)⟩) =
        some p' ∧ Completed p' 0 ∧ p'.contractPhase = .Unregistered := by
  have hc : ZkdvrfPre.constructor ⟨o, 0⟩ 0 3 o true true true 0 = some _ :=
    constructor_some.2 ⟨rfl, ho, rfl, by norm_num, by norm_num, by norm_num, by norm_num, rfl⟩
  refine ⟨_, _, .deploy hc, rfl, rfl, submitRandom_some.2 ⟨rfl, rfl, rfl, le_rfl, ?_, rfl, rfl⟩,
    ?_, rfl⟩
  · exact zero_fast env.E
  · unfold Completed
    simp only [Function.update_self]
    exact hk

/-- C38. Reads return stored randoms or revert. -/
theorem C38_pre_reads (env : Env) {p : ZkdvrfPre.State} (hr : ZkdvrfPre.Reachable env p)
    (ht : 1 ≤ p.threshold) :
    (∀ k v, ZkdvrfPre.getRandomAtRound p k = some v ↔ Completed p k ∧ v = p.roundToRandom k) ∧
    (∀ k, ZkdvrfPre.getRandomAtRound p k = none ↔ ¬ Completed p k) ∧
    (∀ v, ZkdvrfPre.getLatestRandom p = some v ↔
      ∃ k, 1 ≤ k ∧ Completed p k ∧ (∀ j, k < j → ¬ Completed p j) ∧ v = p.roundToRandom k) ∧
    (ZkdvrfPre.getLatestRandom p = none ↔ ∀ k, ¬ Completed p k) := by
  obtain ⟨hx, o1, o2, hz⟩ := sim hr ht
  refine ⟨fun k v => (C38_getRandomAtRound (p.toZk o1 o2) k).1 v,
    fun k => (C38_getRandomAtRound (p.toZk o1 o2) k).2, ?_⟩
  obtain ⟨h1, h2⟩ := C38_getLatestRandom env hz
  have h0 : ∀ k, Completed p k → 1 ≤ k := fun k hk => (quorum hr ht k hk).1
  by_cases hc : 1 ≤ p.currentRoundNum
  · obtain ⟨e1, e2⟩ := h1 hc
    exact ⟨e1, e2.trans ⟨fun h k hk => h k (h0 k hk) hk, fun h k _ => h k⟩⟩
  · have hc : p.currentRoundNum = 0 := by omega
    have h2 := h2 hc
    have hno : ∀ k, ¬ Completed p k := by
      intro k hk
      have := C37_pre_quorum env hr ht k hk
      omega
    constructor
    · intro v
      refine (h2 v).trans ⟨fun h => absurd h.1 (hno 0), ?_⟩
      rintro ⟨k, _, hk, _⟩
      exact absurd hk (hno k)
    · refine ⟨fun _ => hno, fun _ => ?_⟩
      by_contra hne
      obtain ⟨v, hv⟩ := Option.ne_none_iff_exists'.1 hne
      exact hno 0 ((h2 v).1 hv).1

/-- C39. A call by an address that is neither the owner nor an added node either reverts and changes
nothing, or is `computeVk` at the end of the parameter phase with an accepted key. -/
theorem C39_pre_outsiders (env : Env) (p : ZkdvrfPre.State) (m : Msg) (c : Call)
    (h0 : m.sender ≠ 0) (ho : m.sender ≠ p.owner) (hn : ¬ Added p m.sender) :
    step env p (.call m c) = p ∨
    ∃ gpk vks, c = .computeVk gpk ∧ p.contractPhase = .NidkgComplete ∧
      (∀ gpk' out', Gpp.createGpp env.E p.memberCount gpk' p.ppList = some out' ↔
        gpk' = gpk ∧ out' = (gpk, vks)) ∧
      step env p (.call m c) =
        { p with vkList := p.vkList ++ vks, gpkVal := gpk, contractPhase := .Ready } := by
  have hself : m.sender ≠ (p.addrToNode m.sender).nodeAddress := by
    intro h
    apply hn
    unfold Added
    rw [← h]
    exact h0
  cases he : exec env p m c with
  | none => exact Or.inl (step_none he)
  | some p' =>
    rw [step_some he]
    cases c with
    | addPermissionedNodes a => exact absurd (addPermissionedNodes_some.1 he).2.1 ho
    | registerNode pk => exact absurd (registerNode_some.1 he).2.1 hself
    | startNidkg => exact absurd (startNidkg_some.1 he).2.1 ho
    | submitPublicParams pp pr => exact absurd (submitPublicParams_some.1 he).2.1 hself
    | computeVk gpk =>
      obtain ⟨_, h2, out, h3, rfl⟩ := computeVk_some.1 he
      refine Or.inr ⟨gpk, out.2, rfl, h2, ?_, by rw [Zkdvrf.createGpp_fst h3]⟩
      intro gpk' out'
      have hout : out = (gpk, out.2) := by rw [← Zkdvrf.createGpp_fst h3]
      constructor
      · intro h'
        obtain ⟨e1, e2⟩ := createGpp_unique h' h3
        exact ⟨e1, by rw [e2]; exact hout⟩
      · rintro ⟨rfl, rfl⟩
        rw [h3]
        exact congrArg some hout
    | initiateRandom => exact absurd (initiateRandom_some.1 he).2.1 ho
    | submitPartialEval pe => exact absurd (submitPartialEval_some.1 he).2.1 hself
    | submitRandom pr => exact absurd (submitRandom_some.1 he).2.1 ho
    | transferOwnership a => exact absurd (transferOwnership_some.1 he).2.1 ho
    | renounceOwnership => exact absurd (renounceOwnership_some.1 he).2.1 ho

/-- C40. No event decreases the balance, and recorded deposits stay. -/
theorem C40_pre_no_withdrawal (env : Env) {p p' : ZkdvrfPre.State}
    (hr : ZkdvrfPre.Reachable env p) (ht : 1 ≤ p.threshold) (hl : ZkdvrfPre.Later env p p') :
    p.balance ≤ p'.balance ∧
    ∀ a, Registered p a → (p'.addrToNode a).deposit = (p.addrToNode a).deposit := by
  obtain ⟨hx, o1, o2, hz⟩ := sim hr ht
  obtain ⟨_, a1, a2, hl'⟩ := sim_later hz hx ht hl
  exact C40_no_withdrawal env hz hl'

/-- C41 (setup). From every reachable state before `Ready`, with members, an owner and canonical keys
registered so far, some continuation reaches `Ready`, if the proof system is sound and complete. -/
theorem C41_pre_setup_completes (env : Env) {p : ZkdvrfPre.State}
    (hr : ZkdvrfPre.Reachable env p) (ht : 1 ≤ p.threshold) (hnr : p.contractPhase ≠ .Ready)
    (hn : p.memberCount ≠ 0) (ho : p.owner ≠ 0)
    (hs : Spec.SnarkSound env p.threshold p.memberCount)
    (hc : Spec.SnarkComplete env p.threshold p.memberCount)
    (hk : ∀ k ∈ p.pkList, ∃ P : Gk, P ≠ 0 ∧ k = keyWords P)
    (hred : ∀ w ∈ p.ppList, Spec.Reduced p.memberCount w) :
    ∃ p', ZkdvrfPre.Later env p p' ∧ p'.contractPhase = .Ready ∧ p'.owner = p.owner ∧
      p'.currentRoundNum = 0 := by
  obtain ⟨hx, o1, o2, hz⟩ := sim hr ht
  obtain ⟨s', h1, h2, h3, h4⟩ := setup_completes env hz (fun h => hnr (toZk_ready.1 h)) hn ht ho hs hc hk hred
  obtain ⟨p', a1, a2, e1, rfl, _⟩ := back_later hz hx hn h1
  exact ⟨p', e1, toZk_ready.1 h2, h3, h4⟩

/-- C41 (evaluation). In an open round every registered node that has not submitted yet can submit
the library's evaluation with the share key behind its verification key. -/
theorem C41_pre_node_can_submit (env : Env) {p : ZkdvrfPre.State}
    (hr : ZkdvrfPre.Reachable env p) (ht : 1 ≤ p.threshold) (hp : p.contractPhase = .Ready)
    (hopen : ¬ Completed p p.currentRoundNum) (a : Address) (ha0 : a ≠ 0) (ha : Registered p a)
    (hl : p.lastSubmittedRound a < p.currentRoundNum) (sk nonce : Fr)
    (hvk : p.vkList[indexOf p a]? = some (encodeG1 (sk • g1))) :
    let pe := DkgShareKey.evaluate env.keccak (evalHash env.keccak) ⟨indexOf p a + 1, sk, sk • g1⟩
      (p.roundInput p.currentRoundNum) nonce
    ∃ p', exec env p ⟨a, 0⟩ (.submitPartialEval (evalWords pe)) = some p' ∧
      p'.roundToEval p.currentRoundNum (indexOf p a) = evalWords pe ∧
      p'.roundSubmissionCount p.currentRoundNum = p.roundSubmissionCount p.currentRoundNum + 1 := by
  intro pe
  obtain ⟨hx, o1, o2, hz⟩ := sim hr ht
  obtain ⟨s', h1, h2, h3⟩ := C41_node_can_submit env hz (toZk_ready.2 hp) hopen a ha0 ha hl sk nonce hvk
  have hn : p.memberCount ≠ 0 := by
    have h4 := (C31_pre_registration env hr ht).2.1 a ha
    have h5 := (C31_pre_registration env hr ht).2.2.2.2.1
    omega
  obtain ⟨p', a1, a2, e1, rfl⟩ := sim_back hz hx ha0 hn (Or.inl rfl) h1
  exact ⟨p', e1, h2, h3⟩

/-- C41 (round). In phase `Ready`, with a sound proof system and at least `threshold` evaluations
recorded for the open round, the library's combination of any `threshold` members' evaluations is
accepted by `submitRandom`; the round is then complete (unless the hash of the proof is zero). -/
theorem C41_pre_round_completes (env : Env) {p : ZkdvrfPre.State}
    (hr : ZkdvrfPre.Reachable env p) (ht : 1 ≤ p.threshold) (hp : p.contractPhase = .Ready)
    (hopen : ¬ Completed p p.currentRoundNum) (ho : p.owner ≠ 0)
    (hcount : p.threshold ≤ p.roundSubmissionCount p.currentRoundNum)
    (hs : Spec.SnarkSound env p.threshold p.memberCount)
    (quorum : List ℕ) (hq : quorum.length = p.threshold)
    (hv : Spec.ValidIndices p.memberCount quorum) (sk nonce : ℕ → Fr)
    (hsk : ∀ i ∈ quorum, p.vkList[i - 1]? = some (encodeG1 (sk i • g1))) :
    ∃ pr, combinePartialEvaluations env.keccak ⟨p.threshold, p.memberCount⟩ (quorum.map (fun i =>
        DkgShareKey.evaluate env.keccak (evalHash env.keccak) ⟨i, sk i, sk i • g1⟩
          (p.roundInput p.currentRoundNum) (nonce i))) = .ok pr ∧
      ∃ w : Word, pr.value = Word.bytes w ∧
      ∃ p', exec env p ⟨p.owner, 0⟩ (.submitRandom ⟨encodeG1 pr.proof, w⟩) = some p' ∧
        p'.roundToRandom p.currentRoundNum = ⟨encodeG1 pr.proof, w⟩ ∧
        (w ≠ 0 → Completed p' p.currentRoundNum) := by
  obtain ⟨hx, o1, o2, hz⟩ := sim hr ht
  obtain ⟨pr, h1, w, h2, s', h3, h4, h5⟩ := C41_round_completes env hz (toZk_ready.2 hp) hopen ho ht hs
    quorum hq hv sk nonce hsk
  have hpos : 1 ≤ p.currentRoundNum := by
    by_contra h0
    have h0 : p.currentRoundNum = 0 := by omega
    have := count_zero hz
    rw [h0] at hcount
    change p.roundSubmissionCount 0 = 0 at this
    omega
  have hn : p.memberCount ≠ 0 := by
    have := (C35_pre_evaluations env hr ht ⟨p.threshold, p.memberCount⟩ rfl p.currentRoundNum 0).2.2
    omega
  obtain ⟨p', a1, a2, e1, rfl⟩ := sim_back (m := ⟨p.owner, 0⟩) hz hx ho hn (Or.inr ⟨hpos, hcount⟩) h3
  exact ⟨pr, h1, w, h2, p', e1, h4, h5⟩

/-- C41 (next round). The owner can open the next round as soon as the current one is complete. -/
theorem C41_pre_round_opens (env : Env) {p : ZkdvrfPre.State} (hp : p.contractPhase = .Ready)
    (hb : p.currentRoundNum + 1 < 2 ^ 256)
    (hdone : p.currentRoundNum = 0 ∨ Completed p p.currentRoundNum) :
    ∃ p', exec env p ⟨p.owner, 0⟩ .initiateRandom = some p' ∧
      p'.currentRoundNum = p.currentRoundNum + 1 ∧
      p'.roundInput (p.currentRoundNum + 1) =
        strBytes "zkRand-v1-2024:" ++ decimal (p.currentRoundNum + 1) := by
  have he : exec env p ⟨p.owner, 0⟩ .initiateRandom = some _ :=
    initiateRandom_some.2 ⟨rfl, rfl, hp, hdone, hb, _,
      solHash_eq env.keccak _ (Zkdvrf.input_length hb), rfl⟩
  refine ⟨_, he, rfl, ?_⟩
  simp only [Function.update_self]
  rfl

/-! ### Concrete states -/

/-- A deployment for two members with threshold 1 reaches `Ready`. -/
theorem toy_pre_ready : ∃ p, ZkdvrfPre.Reachable (toyEnv 1 2) p ∧ p.contractPhase = .Ready ∧
    p.memberCount = 2 ∧ p.threshold = 1 ∧ p.owner = 7 ∧ p.currentRoundNum = 0 := by
  have hc : ZkdvrfPre.constructor ⟨9, 0⟩ 1 2 7 true true true 0 = some _ :=
    constructor_some.2 ⟨rfl, by decide, rfl, by norm_num, by norm_num, by norm_num, by norm_num, rfl⟩
  have hr := ZkdvrfPre.Reachable.deploy (env := toyEnv 1 2) hc
  obtain ⟨p, h1, h2, h3, h4⟩ := C41_pre_setup_completes (toyEnv 1 2) hr le_rfl Phase.noConfusion
    (by norm_num) (by decide) (toy_sound 1 2) (toy_complete 1 2) (by simp) (by simp)
  exact ⟨p, h1.reachable hr, h2, h1.threshold.2, h1.threshold.1, h3, h4⟩

/-- And has a first round open. -/
example : ∃ p, ZkdvrfPre.Reachable (toyEnv 1 2) p ∧ 1 ≤ p.threshold ∧ p.currentRoundNum = 1 := by
  obtain ⟨p, h1, h2, h3, h4, h5, h6⟩ := toy_pre_ready
  obtain ⟨p', e1, e2, _⟩ := C41_pre_round_opens (toyEnv 1 2) h2 (by rw [h6]; norm_num) (Or.inl h6)
  refine ⟨p', ?_, ?_, by rw [e2, h6]⟩
  · have := ZkdvrfPre.Reachable.step (.call ⟨p.owner, 0⟩ .initiateRandom)
      (by change p.owner ≠ 0; rw [h5]; decide) h1
    rw [step_some e1] at this
    exact this
  · rw [(exec_threshold e1).1, h4]

end Verif.Props
