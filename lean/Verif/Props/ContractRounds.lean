import Verif.Props.Contract

/-! Properties C35 to C40 for contracts/zkdvrf.sol. -/

namespace Verif.Props
open Verif Zkdvrf WeierstrassCurve.Affine

/-! ### C35 -/

/-- C35. In every reachable state each stored partial evaluation belongs to an opened round and to a
registered node, carries that node's index, was accepted for the round's input under the node's
verification key, and the library accepts it too; the submission count of a round is the number of
stored evaluations and at most `memberCount`. -/
theorem C35_evaluations (env : Env) {s : State} (hr : Reachable env s) (cfg : DkgConfig)
    (hcfg : cfg.numberOfMembers = s.memberCount) (k i : ℕ) :
    (Submitted s k i →
      (1 ≤ k ∧ k ≤ s.currentRoundNum) ∧ (s.roundToEval k i).indexPlus = i + 1 ∧
      (∃ a, Registered s a ∧ indexOf s a = i) ∧
      ∃ vk, s.vkList[i]? = some vk ∧
        PseudoRandSol.verifyPartialEval env.keccak (s.roundInput k) (s.roundToEval k i).value
          ⟨(s.roundToEval k i).z, (s.roundToEval k i).c⟩ vk = some true ∧
        ∃ v V : G1, decodeG1 (s.roundToEval k i).value = some v ∧ decodeG1 vk = some V ∧
          (PartialEval.mk (i + 1) v ⟨((s.roundToEval k i).z.toNat : Fr),
            ((s.roundToEval k i).c.toNat : Fr)⟩).verify env.keccak (evalHash env.keccak) cfg
              (s.roundInput k) V = .ok ()) ∧
    s.roundSubmissionCount k =
      Nat.card {i : ℕ // i < s.memberCount ∧ Submitted s k i} ∧
    s.roundSubmissionCount k ≤ s.memberCount := by
  have h := evalInv hr
  have hreg := regInv hr
  refine ⟨?_, ?_, ?_⟩
  · intro hsub
    obtain ⟨h1, h2, h3, h4, h5, vk, h6, h7⟩ := h.stored k i hsub
    have hrc : s.registeredCount = s.memberCount :=
      hreg.started (by rw [h3]; exact Phase.noConfusion)
    refine ⟨h1, h4, ⟨s.nodes i, hreg.reg_node i h2⟩, vk, h6, h7, ?_⟩
    obtain ⟨v, V, e1, e2, _, e3⟩ := (C21_verifyPartialEval_iff env.keccak (s.roundInput k)
      (input_ok hr k) (s.roundToEval k i).value vk
      ⟨(s.roundToEval k i).z, (s.roundToEval k i).c⟩ cfg (i + 1) (by omega)
      (by rw [hcfg, ← hrc]; omega)).1 h7
    exact ⟨v, V, e1, e2, e3⟩
  · rw [h.count k]
    have : {i : ℕ // i < s.memberCount ∧ Submitted s k i} =
        {i : ℕ // i ∈ (Finset.range s.memberCount).filter
          (fun i => (s.roundToEval k i).indexPlus ≠ 0)} := by
      congr 1
      ext i
      rw [Finset.mem_filter, Finset.mem_range]
      rfl
    rw [this, Nat.card_eq_fintype_card, Fintype.card_coe]
  · rw [h.count k]
    exact (Finset.card_filter_le _ _).trans (by simp)

/-- C35. A stored evaluation changes only by a `submitPartialEval` of the node with that index, in
the current round, where none was stored; it is then the submitted one, verified under the node's
key. So a node has at most one per round. -/
theorem C35_written_once (env : Env) {s : State} (hr : Reachable env s) (tx : Tx) (hv : tx.valid)
    (k i : ℕ) (hne : (step env s tx).roundToEval k i ≠ s.roundToEval k i) :
    ¬ Submitted s k i ∧ k = s.currentRoundNum ∧ ¬ Completed s k ∧
    ∃ a pe vk, tx = .call ⟨a, 0⟩ (.submitPartialEval pe) ∧ Registered s a ∧ indexOf s a = i ∧
      pe.indexPlus = i + 1 ∧ s.vkList[i]? = some vk ∧
      PseudoRandSol.verifyPartialEval env.keccak (s.roundInput k) pe.value ⟨pe.z, pe.c⟩ vk =
        some true ∧
      (step env s tx).roundToEval k i = pe ∧
      (step env s tx).roundSubmissionCount k = s.roundSubmissionCount k + 1 := by
  have hns : ¬ Submitted s k i := fun h => hne ((keeps_step hr hv).eval k i h)
  refine ⟨hns, ?_⟩
  cases tx with
  | forceEther a => exact absurd rfl hne
  | call m c =>
    revert hne
    unfold step
    dsimp only
    cases he : exec env s m c with
    | none => intro hne; exact absurd rfl hne
    | some s' =>
      rw [Option.getD_some]
      intro hne
      cases c with
      | submitPartialEval pe =>
        obtain ⟨h1, h2, h3, h4, h5, h6, ⟨vk, h7, h8⟩, h9, rfl⟩ := submitPartialEval_some.1 he
        have hready : s.contractPhase = .Ready := by
          by_contra hc
          have := ((dkgInv hr).pre hc).2.2
          omega
        have hreg := regInv hr
        have hst := hreg.all_registered (hreg.started (by rw [hready]; exact Phase.noConfusion))
          m.sender (by rw [← h2]; exact hv)
        by_cases hk : k = s.currentRoundNum
        · subst hk
          by_cases hi : i = (s.addrToNode m.sender).pkIndex
          · subst hi
            obtain ⟨ma, mv⟩ := m
            dsimp only at h1
            subst h1
            refine ⟨rfl, not_not.2 h3, ma, pe, vk, rfl, hst, rfl, h6, h7, h8, ?_, ?_⟩
            · simp only [Function.update_self]
            · simp only [Function.update_self]
          · simp only [Function.update_self, Function.update_of_ne hi] at hne
            exact absurd rfl hne
        · simp only [Function.update_of_ne hk] at hne
          exact absurd rfl hne
      | addPermissionedNodes a =>
        obtain ⟨_, _, _, _, _, _, rfl⟩ := addPermissionedNodes_some.1 he; exact absurd rfl hne
      | registerNode pk =>
        obtain ⟨_, _, _, _, _, _, _, rfl⟩ := registerNode_some.1 he; exact absurd rfl hne
      | startNidkg =>
        obtain ⟨_, _, _, _, rfl⟩ := startNidkg_some.1 he; exact absurd rfl hne
      | submitPublicParams pp pr =>
        obtain ⟨_, _, _, _, _, _, _, rfl⟩ := submitPublicParams_some.1 he; exact absurd rfl hne
      | computeVk gpk =>
        obtain ⟨_, _, _, _, rfl⟩ := computeVk_some.1 he; exact absurd rfl hne
      | initiateRandom =>
        obtain ⟨_, h2, h3, h4, _, rfl⟩ := initiateRandom_some.1 he; exact absurd rfl hne
      | submitRandom pr =>
        obtain ⟨_, _, _, _, _, rfl⟩ := submitRandom_some.1 he; exact absurd rfl hne
      | transferOwnership a =>
        obtain ⟨_, _, _, rfl⟩ := transferOwnership_some.1 he; exact absurd rfl hne
      | renounceOwnership =>
        obtain ⟨_, _, rfl⟩ := renounceOwnership_some.1 he; exact absurd rfl hne

/-- A state with a stored evaluation and a stored random exists. -/
example : ∃ s, Reachable (toyEnv 1 2) s ∧ Submitted s 1 0 ∧ Completed s 1 ∧ s.memberCount = 2 := by
  obtain ⟨s, h1, _, h3, _, _, _, h7, h8⟩ := toy_done
  exact ⟨s, h1, h8, h7, h3⟩

/-! ### C36 -/

/-- C36. The random stored for a round changes only by a `submitRandom` of the owner, for the current
round, while none (no nonzero value) was stored; the submitted proof passed the pairing check for
the round's input under the stored group key and the value is the hash of the proof's words. -/
theorem C36_random_step (env : Env) (s : State) (tx : Tx) (k : ℕ)
    (hne : (step env s tx).roundToRandom k ≠ s.roundToRandom k) :
    k = s.currentRoundNum ∧ ¬ Completed s k ∧
    ∃ m pr, tx = .call m (.submitRandom pr) ∧ m.sender = s.owner ∧
      (step env s tx).roundToRandom k = pr ∧
      PseudoRandSol.verifyPseudoRand env.E env.keccak (s.roundInput k) pr.proof s.gpkVal =
        some true ∧
      pr.value = env.keccak (Word.bytes pr.proof.x ++ Word.bytes pr.proof.y) := by
  cases tx with
  | forceEther a => exact absurd rfl hne
  | call m c =>
    revert hne
    unfold step
    dsimp only
    cases he : exec env s m c with
    | none => intro hne; exact absurd rfl hne
    | some s' =>
      rw [Option.getD_some]
      intro hne
      cases c with
      | submitRandom pr =>
        obtain ⟨_, h2, h3, h4, h5, rfl⟩ := submitRandom_some.1 he
        by_cases hk : k = s.currentRoundNum
        · subst hk
          refine ⟨rfl, not_not.2 h3, m, pr, rfl, h2, ?_, h4, h5⟩
          simp only [Function.update_self]
        · simp only [Function.update_of_ne hk] at hne
          exact absurd rfl hne
      | addPermissionedNodes a =>
        obtain ⟨_, _, _, _, _, _, rfl⟩ := addPermissionedNodes_some.1 he; exact absurd rfl hne
      | registerNode pk =>
        obtain ⟨_, _, _, _, _, _, _, rfl⟩ := registerNode_some.1 he; exact absurd rfl hne
      | startNidkg =>
        obtain ⟨_, _, _, _, rfl⟩ := startNidkg_some.1 he; exact absurd rfl hne
      | submitPublicParams pp pr =>
        obtain ⟨_, _, _, _, _, _, _, rfl⟩ := submitPublicParams_some.1 he; exact absurd rfl hne
      | computeVk gpk =>
        obtain ⟨_, _, _, _, rfl⟩ := computeVk_some.1 he; exact absurd rfl hne
      | initiateRandom =>
        obtain ⟨_, h2, h3, h4, _, rfl⟩ := initiateRandom_some.1 he; exact absurd rfl hne
      | submitPartialEval pe =>
        obtain ⟨_, _, _, _, _, _, _, _, rfl⟩ := submitPartialEval_some.1 he; exact absurd rfl hne
      | transferOwnership a =>
        obtain ⟨_, _, _, rfl⟩ := transferOwnership_some.1 he; exact absurd rfl hne
      | renounceOwnership =>
        obtain ⟨_, _, rfl⟩ := renounceOwnership_some.1 he; exact absurd rfl hne

/-- C36. A stored random (nonzero value) never changes, in any history. -/
theorem C36_write_once (env : Env) {s s' : State} (hr : Reachable env s) (hl : Later env s s')
    (k : ℕ) (h : Completed s k) : s'.roundToRandom k = s.roundToRandom k :=
  (hl.keeps hr).random k h

/-- C36. The random of a round is determined by the group key: in every reachable state with
`Ready` keys, of exponent `a`, the stored random of each completed round `k ≥ 1` is the point
`a·H(prefix ‖ k)` with the hash of its words, whoever submitted it and whenever. -/
theorem C36_value_determined (env : Env) {s : State} (hr : Reachable env s)
    (hp : s.contractPhase = .Ready) :
    ∃ a : Fr, decodeG2 s.gpkVal = some (smul2 a g2) ∧ ∀ k, 1 ≤ k → Completed s k →
      (s.roundToRandom k).proof = encodeG1 (a • evalHash env.keccak
        (strBytes "zkRand-v1-2024:" ++ decimal k)) ∧
      (s.roundToRandom k).value = env.keccak (Word.bytes (s.roundToRandom k).proof.x ++
        Word.bytes (s.roundToRandom k).proof.y) := by
  obtain ⟨a, _, h2, _⟩ := createGpp_key ((dkgInv hr).ready hp)
  refine ⟨a, by rw [h2, decodeG2_encode, if_pos (smul2_torsion _)], ?_⟩
  intro k hk hc
  have hround := roundInv hr
  have hle : k ≤ s.currentRoundNum := by
    by_contra hgt
    unfold Completed at hc
    rw [hround.future k (by omega)] at hc
    exact hc rfl
  have hv := hround.verified k hk hc
  rw [h2, C22_unique env.E env.keccak _ (input_ok hr k)] at hv
  rw [(C34_rounds env hr).2.1 k hk hle] at hv
  exact ⟨hv, hround.hash k hc⟩

/-! ### C37 -/

/-- C37 (what holds for this contract). A random of a round `k ≥ 1` exists only if that round was
opened and setup is finished. -/
theorem C37_round_opened (env : Env) {s : State} (hr : Reachable env s) (k : ℕ) (hk : 1 ≤ k)
    (h : Completed s k) : k ≤ s.currentRoundNum ∧ s.contractPhase = .Ready := by
  have hle : k ≤ s.currentRoundNum := by
    by_contra hgt
    unfold Completed at h
    rw [(roundInv hr).future k (by omega)] at h
    exact h rfl
  exact ⟨hle, (C34_rounds env hr).2.2.2 (by omega)⟩

private theorem encodeG2_zero : encodeG2 (smul2 0 g2) = ⟨0, 0, 0, 0⟩ := by
  rw [smul2_zero']
  rfl

/-- C37 (violation). The quorum and the opened round are not required for round 0: in every
reachable state before `Ready` the owner can store a random for round 0 (proof at infinity), with
no partial evaluation recorded, if the hash of 64 zero bytes is not the zero word. -/
theorem C37_violation_round_zero (env : Env) {s : State} (hr : Reachable env s)
    (hp : s.contractPhase ≠ .Ready) (hopen : ¬ Completed s 0)
    (hk : env.keccak (Word.bytes 0 ++ Word.bytes 0) ≠ 0) :
    ∃ pr s', exec env s ⟨s.owner, 0⟩ (.submitRandom pr) = some s' ∧ Completed s' 0 ∧
      s'.contractPhase ≠ .Ready ∧ s'.roundSubmissionCount 0 = 0 := by
  obtain ⟨_, hg, h0⟩ := (dkgInv hr).pre hp
  have hcount : s.roundSubmissionCount 0 = 0 := by
    rw [(evalInv hr).count, Finset.card_eq_zero, Finset.filter_eq_empty_iff]
    intro i _ hc
    have := ((evalInv hr).stored 0 i hc).1.1
    omega
  have hver : PseudoRandSol.verifyPseudoRand env.E env.keccak (s.roundInput s.currentRoundNum)
      ⟨0, 0⟩ s.gpkVal = some true := by
    rw [hg, ← encodeG2_zero, C22_unique env.E env.keccak _ (input_ok hr _)]
    rw [zero_smul Fr (evalHash env.keccak (s.roundInput s.currentRoundNum)), encode_zero]
  have he : exec env s ⟨s.owner, 0⟩ (.submitRandom ⟨⟨0, 0⟩, env.keccak
      (Word.bytes 0 ++ Word.bytes 0)⟩) = some _ :=
    submitRandom_some.2 ⟨rfl, rfl, by rw [h0]; exact not_not.1 hopen, hver, rfl, rfl⟩
  refine ⟨_, _, he, ?_, hp, hcount⟩
  unfold Completed
  rw [h0]
  simp only [Function.update_self]
  exact hk

/-- C37 (violation). In an open round of a ready deployment the owner can store a random although no
partial evaluation was recorded on chain: acceptance does not depend on the count. -/
theorem C37_violation_no_quorum (env : Env) {s : State} (hr : Reachable env s)
    (hp : s.contractPhase = .Ready) (hopen : ¬ Completed s s.currentRoundNum) :
    ∃ pr s', exec env s ⟨s.owner, 0⟩ (.submitRandom pr) = some s' ∧
      s'.roundSubmissionCount = s.roundSubmissionCount ∧
      s'.roundToRandom s.currentRoundNum = pr := by
  obtain ⟨a, _, h2, _⟩ := createGpp_key ((dkgInv hr).ready hp)
  have hver : PseudoRandSol.verifyPseudoRand env.E env.keccak (s.roundInput s.currentRoundNum)
      (encodeG1 (a • evalHash env.keccak (s.roundInput s.currentRoundNum))) s.gpkVal = some true := by
    rw [h2, C22_unique env.E env.keccak _ (input_ok hr _)]
  have he : exec env s ⟨s.owner, 0⟩ (.submitRandom ⟨encodeG1 (a • evalHash env.keccak
      (s.roundInput s.currentRoundNum)), env.keccak (Word.bytes (encodeG1 (a • evalHash env.keccak
      (s.roundInput s.currentRoundNum))).x ++ Word.bytes (encodeG1 (a • evalHash env.keccak
      (s.roundInput s.currentRoundNum))).y)⟩) = some _ :=
    submitRandom_some.2 ⟨rfl, rfl, not_not.1 hopen, hver, rfl, rfl⟩
  refine ⟨_, _, he, rfl, ?_⟩
  simp only [Function.update_self]

/-- Concretely: a reachable state with a random for round 0 before setup. -/
example : ∃ s, Reachable (toyEnv 1 2) s ∧ Completed s 0 ∧ s.contractPhase = .Unregistered ∧
    s.roundSubmissionCount 0 < s.threshold := by
  obtain ⟨s, h1, h2, h3, h4, h5, _⟩ := toy_deploy
  have hnc : ¬ Completed s 0 ∨ Completed s 0 := (em _).symm
  have hp : s.contractPhase ≠ .Ready := by rw [h2]; exact Phase.noConfusion
  have hcount : s.roundSubmissionCount 0 = 0 := by
    rw [(evalInv h1).count, Finset.card_eq_zero, Finset.filter_eq_empty_iff]
    intro i _ hc
    have := ((evalInv h1).stored 0 i hc).1.1
    omega
  rcases hnc with hnc | hc
  · obtain ⟨pr, s', e1, e2, e3, e4⟩ := C37_violation_round_zero _ h1 hp hnc
      (by change (1 : Word) ≠ 0; decide)
    have hs := (submitRandom_some.1 e1).2.2.2.2.2
    refine ⟨s', h1.call (m := ⟨s.owner, 0⟩) (by change s.owner ≠ 0; rw [h5]; decide) e1, e2, ?_, ?_⟩
    · rw [← hs]; exact h2
    · rw [e4, ← hs]; change 0 < s.threshold; rw [h4]; norm_num
  · exact ⟨s, h1, hc, h2, by rw [hcount, h4]; norm_num⟩

/-! ### C38 -/

/-- C38. `getRandomAtRound` returns exactly the stored random of a completed round, and reverts
otherwise. -/
theorem C38_getRandomAtRound (s : State) (k : ℕ) :
    (∀ v, getRandomAtRound s k = some v ↔ Completed s k ∧ v = s.roundToRandom k) ∧
    (getRandomAtRound s k = none ↔ ¬ Completed s k) := by
  unfold getRandomAtRound Completed
  by_cases h : (s.roundToRandom k).value ≠ 0
  · rw [if_pos h]
    refine ⟨fun v => ?_, ?_⟩
    · rw [Option.some.injEq]; exact ⟨fun e => ⟨h, e.symm⟩, fun e => e.2.symm⟩
    · exact ⟨fun e => (by cases e), fun e => absurd h e⟩
  · rw [if_neg h]
    refine ⟨fun v => ⟨fun e => (by cases e), fun e => absurd e.1 h⟩, ⟨fun _ => h, fun _ => rfl⟩⟩

/-- C38. Once a round is open, `getLatestRandom` returns exactly the random of the last completed
round (from 1), and reverts exactly when there is none; before any round is open it returns only a
random of round 0, if one was stored. -/
theorem C38_getLatestRandom (env : Env) {s : State} (hr : Reachable env s) :
    (1 ≤ s.currentRoundNum →
      (∀ v, getLatestRandom s = some v ↔
        ∃ k, 1 ≤ k ∧ Completed s k ∧ (∀ j, k < j → ¬ Completed s j) ∧ v = s.roundToRandom k) ∧
      (getLatestRandom s = none ↔ ∀ k, 1 ≤ k → ¬ Completed s k)) ∧
    (s.currentRoundNum = 0 → ∀ v, getLatestRandom s = some v ↔
      Completed s 0 ∧ v = s.roundToRandom 0) := by
  have h := roundInv hr
  have hfut : ∀ j, s.currentRoundNum < j → ¬ Completed s j := by
    intro j hj hc
    unfold Completed at hc
    rw [h.future j hj] at hc
    exact hc rfl
  constructor
  · intro h1
    unfold getLatestRandom
    by_cases hc : (s.roundToRandom s.currentRoundNum).value ≠ 0
    · rw [if_pos hc]
      constructor
      · intro v
        rw [Option.some.injEq]
        constructor
        · rintro rfl
          exact ⟨s.currentRoundNum, h1, hc, hfut, rfl⟩
        · rintro ⟨k, hk1, hk2, hk3, rfl⟩
          have : k = s.currentRoundNum := by
            rcases lt_trichotomy k s.currentRoundNum with hlt | heq | hgt
            · exact absurd hc (hk3 _ hlt)
            · exact heq
            · exact absurd hk2 (hfut k hgt)
          rw [this]
      · constructor
        · intro e; cases e
        · intro e; exact absurd hc (e _ h1)
    · rw [if_neg hc]
      by_cases hone : s.currentRoundNum = 1
      · rw [if_pos hone]
        have hnone : ∀ k, 1 ≤ k → ¬ Completed s k := by
          intro k hk hck
          by_cases hk1 : k = 1
          · subst hk1; rw [← hone] at hck; exact hc hck
          · exact hfut k (by omega) hck
        constructor
        · intro v
          constructor
          · intro e; cases e
          · rintro ⟨k, hk1, hk2, _⟩; exact absurd hk2 (hnone k hk1)
        · exact ⟨fun _ => hnone, fun _ => rfl⟩
      · rw [if_neg hone, if_pos h1]
        have hprev : Completed s (s.currentRoundNum - 1) := h.done _ (by omega) (by omega)
        constructor
        · intro v
          rw [Option.some.injEq]
          constructor
          · rintro rfl
            refine ⟨s.currentRoundNum - 1, by omega, hprev, ?_, rfl⟩
            intro j hj hcj
            by_cases hjc : j = s.currentRoundNum
            · subst hjc; exact hc hcj
            · exact hfut j (by omega) hcj
          · rintro ⟨k, hk1, hk2, hk3, rfl⟩
            have : k = s.currentRoundNum - 1 := by
              by_contra hne
              by_cases hk : k < s.currentRoundNum - 1
              · exact hk3 _ hk hprev
              · by_cases hkc : k = s.currentRoundNum
                · subst hkc; exact hc hk2
                · exact hfut k (by omega) hk2
            rw [this]
        · constructor
          · intro e; cases e
          · intro e; exact absurd hprev (e _ (by omega))
  · intro h0 v
    unfold getLatestRandom Completed
    rw [h0]
    by_cases hc : (s.roundToRandom 0).value ≠ 0
    · rw [if_pos hc, Option.some.injEq]
      exact ⟨fun e => ⟨hc, e.symm⟩, fun e => e.2.symm⟩
    · rw [if_neg hc, if_neg (by norm_num), if_neg (by norm_num)]
      exact ⟨fun e => (by cases e), fun e => absurd e.1 hc⟩

/-! ### C39 -/

/-- C39. A call by an address that is neither the owner nor an added node either reverts and changes
nothing, or is `computeVk` at the end of the parameter phase with the one key that is accepted for
the stored submissions. -/
theorem C39_outsiders (env : Env) (s : State) (m : Msg) (c : Call) (h0 : m.sender ≠ 0)
    (ho : m.sender ≠ s.owner) (hn : ¬ Added s m.sender) :
    step env s (.call m c) = s ∨
    ∃ gpk vks, c = .computeVk gpk ∧ s.contractPhase = .NidkgComplete ∧
      (∀ gpk' out', Gpp.createGpp env.E s.memberCount gpk' s.ppList = some out' ↔
        gpk' = gpk ∧ out' = (gpk, vks)) ∧
      step env s (.call m c) =
        { s with vkList := s.vkList ++ vks, gpkVal := gpk, contractPhase := .Ready } := by
  have hself : m.sender ≠ (s.addrToNode m.sender).nodeAddress := by
    rw [not_not.1 hn]; exact h0
  unfold step
  dsimp only
  cases he : exec env s m c with
  | none => exact Or.inl rfl
  | some s' =>
    rw [Option.getD_some]
    cases c with
    | computeVk gpk =>
      obtain ⟨_, h2, out, h3, rfl⟩ := computeVk_some.1 he
      obtain ⟨_, _, _, h5, _⟩ := createGpp_key h3
      have hout : out = (gpk, out.2) := by rw [← h5]
      refine Or.inr ⟨gpk, out.2, rfl, h2, ?_, by rw [h5]⟩
      intro gpk' out'
      constructor
      · intro h'
        obtain ⟨e1, e2⟩ := createGpp_unique h' h3
        exact ⟨e1, e2.trans hout⟩
      · rintro ⟨rfl, rfl⟩
        rw [h3, hout]
    | addPermissionedNodes a => exact absurd (addPermissionedNodes_some.1 he).2.1 ho
    | registerNode pk => exact absurd (registerNode_some.1 he).2.1 hself
    | startNidkg => exact absurd (startNidkg_some.1 he).2.1 ho
    | submitPublicParams pp pr => exact absurd (submitPublicParams_some.1 he).2.1 hself
    | initiateRandom => exact absurd (initiateRandom_some.1 he).2.1 ho
    | submitPartialEval pe => exact absurd (submitPartialEval_some.1 he).2.1 hself
    | submitRandom pr => exact absurd (submitRandom_some.1 he).2.1 ho
    | transferOwnership a => exact absurd (transferOwnership_some.1 he).2.1 ho
    | renounceOwnership => exact absurd (renounceOwnership_some.1 he).2.1 ho

/-- C39. The owner changes only through a call of the owner; a node that is not the owner never
changes the member list, the phase start, rounds or randoms. -/
theorem C39_owner_only (env : Env) (s : State) (m : Msg) (c : Call) (ho : m.sender ≠ s.owner) :
    let s' := step env s (.call m c)
    s'.owner = s.owner ∧ s'.currentRoundNum = s.currentRoundNum ∧
    s'.roundToRandom = s.roundToRandom ∧ s'.roundInput = s.roundInput ∧
    s'.currentIndex = s.currentIndex ∧
    (s.contractPhase = .Unregistered → s'.contractPhase = .Unregistered) := by
  dsimp only
  unfold step
  dsimp only
  cases he : exec env s m c with
  | none => exact ⟨rfl, rfl, rfl, rfl, rfl, id⟩
  | some s' =>
    rw [Option.getD_some]
    cases c with
    | computeVk gpk =>
      obtain ⟨_, h2, _, _, rfl⟩ := computeVk_some.1 he
      exact ⟨rfl, rfl, rfl, rfl, rfl, fun h => by rw [h2] at h; cases h⟩
    | registerNode pk =>
      obtain ⟨_, _, _, _, _, _, _, rfl⟩ := registerNode_some.1 he
      exact ⟨rfl, rfl, rfl, rfl, rfl, id⟩
    | submitPublicParams pp pr =>
      obtain ⟨_, _, h3, _, _, _, _, rfl⟩ := submitPublicParams_some.1 he
      exact ⟨rfl, rfl, rfl, rfl, rfl, fun h => by rw [h3] at h; cases h⟩
    | submitPartialEval pe =>
      obtain ⟨_, _, _, _, _, _, _, _, rfl⟩ := submitPartialEval_some.1 he
      exact ⟨rfl, rfl, rfl, rfl, rfl, id⟩
    | addPermissionedNodes a => exact absurd (addPermissionedNodes_some.1 he).2.1 ho
    | startNidkg => exact absurd (startNidkg_some.1 he).2.1 ho
    | initiateRandom => exact absurd (initiateRandom_some.1 he).2.1 ho
    | submitRandom pr => exact absurd (submitRandom_some.1 he).2.1 ho
    | transferOwnership a => exact absurd (transferOwnership_some.1 he).2.1 ho
    | renounceOwnership => exact absurd (renounceOwnership_some.1 he).2.1 ho

/-- An outsider and an added node exist beside the owner. -/
example : ∃ s a b, Reachable (toyEnv 1 2) s ∧ a ≠ 0 ∧ a ≠ s.owner ∧ ¬ Added s a ∧ Added s b := by
  obtain ⟨s, h1, h2, h3, _, h5, _⟩ := toy_ready
  have hreg := regInv h1
  obtain ⟨A, hA, hm⟩ := hreg.added
  obtain ⟨a, ha0, ha⟩ := fresh_address (insert s.owner A) (by
    refine lt_of_le_of_lt (Finset.card_insert_le _ _) ?_
    have := hreg.idx_le
    rw [hA]; omega)
  rw [Finset.mem_insert, not_or] at ha
  have hrc : s.registeredCount = 2 := by
    rw [← h3]; exact hreg.started (by rw [h2]; exact Phase.noConfusion)
  refine ⟨s, a, s.nodes 0, h1, ha0, ha.1, fun h => ha.2 ((hm a).2 h), ?_⟩
  intro h0
  have hst := (hreg.reg_node 0 (by omega)).1
  rw [hreg.empty _ h0] at hst
  cases hst

/-! ### C40 -/

/-- Recorded deposits of the registered nodes. -/
def deposits (s : State) : ℕ :=
  ((List.range s.pkList.length).map (fun i => (s.addrToNode (s.nodes i)).deposit)).sum

theorem deposits_step {env : Env} {s s' : State} (hr : Reachable env s) {m : Msg} {c : Call}
    (hm : m.sender ≠ 0) (he : exec env s m c = some s') :
    s'.balance + deposits s = s.balance + deposits s' := by
  have hreg := regInv hr
  have same : ∀ s' : State, s'.balance = s.balance → s'.pkList = s.pkList → s'.nodes = s.nodes →
      (∀ i, i < s.registeredCount → (s'.addrToNode (s.nodes i)).deposit =
        (s.addrToNode (s.nodes i)).deposit) → s'.balance + deposits s = s.balance + deposits s' := by
    intro s' h1 h2 h3 h4
    have : deposits s' = deposits s := by
      unfold deposits
      rw [h2, h3]
      congr 1
      apply List.map_congr_left
      intro i hi
      exact h4 i (by rw [← hreg.pkLen]; exact List.mem_range.1 hi)
    rw [h1, this]
  cases c with
  | addPermissionedNodes a =>
    obtain ⟨_, _, _, _, h3, _, rfl⟩ := addPermissionedNodes_some.1 he
    refine same _ rfl rfl rfl (fun i hi => ?_)
    have : s.nodes i ≠ a := by
      rintro rfl
      have := (hreg.reg_node i hi).1
      rw [hreg.empty _ h3] at this
      cases this
    simp only [Function.update_of_ne this]
  | registerNode pk =>
    obtain ⟨_, h2, h3, h4, h5, h6, h7, rfl⟩ := registerNode_some.1 he
    have hne : ∀ i, i < s.registeredCount → s.nodes i ≠ m.sender := by
      intro i hi h
      have := (hreg.reg_node i hi).1
      rw [h, h3] at this
      cases this
    unfold deposits
    simp only [List.length_append, List.length_singleton, hreg.pkLen, List.range_succ,
      List.map_append, List.map_cons, List.map_nil, List.sum_append, List.sum_cons, List.sum_nil,
      Function.update_self]
    have : (List.range s.registeredCount).map (fun i => (Function.update s.addrToNode m.sender
        { s.addrToNode m.sender with deposit := m.value, status := true, pkIndex := s.pkListIndex }
        (Function.update s.nodes s.registeredCount m.sender i)).deposit) =
        (List.range s.registeredCount).map (fun i => (s.addrToNode (s.nodes i)).deposit) := by
      apply List.map_congr_left
      intro i hi
      have hi := List.mem_range.1 hi
      have h1 : i ≠ s.registeredCount := by omega
      have h2 := hne i hi
      simp only [Function.update_of_ne h1, Function.update_of_ne h2]
    rw [this]
    omega
  | startNidkg =>
    obtain ⟨_, _, _, _, rfl⟩ := startNidkg_some.1 he
    exact same _ rfl rfl rfl (fun _ _ => rfl)
  | submitPublicParams pp pr =>
    obtain ⟨_, _, _, _, _, _, _, rfl⟩ := submitPublicParams_some.1 he
    refine same _ rfl rfl rfl (fun i hi => ?_)
    by_cases h : s.nodes i = m.sender
    · simp only [h, Function.update_self]
    · simp only [Function.update_of_ne h]
  | computeVk gpk =>
    obtain ⟨_, _, _, _, rfl⟩ := computeVk_some.1 he
    exact same _ rfl rfl rfl (fun _ _ => rfl)
  | initiateRandom =>
    obtain ⟨_, _, _, _, _, rfl⟩ := initiateRandom_some.1 he
    exact same _ rfl rfl rfl (fun _ _ => rfl)
  | submitPartialEval pe =>
    obtain ⟨_, _, _, _, _, _, _, _, rfl⟩ := submitPartialEval_some.1 he
    exact same _ rfl rfl rfl (fun _ _ => rfl)
  | submitRandom pr =>
    obtain ⟨_, _, _, _, _, rfl⟩ := submitRandom_some.1 he
    exact same _ rfl rfl rfl (fun _ _ => rfl)
  | transferOwnership a =>
    obtain ⟨_, _, _, rfl⟩ := transferOwnership_some.1 he
    exact same _ rfl rfl rfl (fun _ _ => rfl)
  | renounceOwnership =>
    obtain ⟨_, _, rfl⟩ := renounceOwnership_some.1 he
    exact same _ rfl rfl rfl (fun _ _ => rfl)

/-- C40. After any history from deployment the balance is the sum of the recorded deposits plus the
ether forced in from outside; every registered node's deposit is at least the minimum. -/
theorem C40_balance (env : Env) (m : Msg) (t n : ℕ) (x y z : Bool) (d : ℕ) (s0 : State)
    (hm : m.sender ≠ 0) (h0 : Zkdvrf.constructor m t n x y z d = some s0) (txs : List Tx)
    (hv : ∀ tx ∈ txs, tx.valid) :
    (run env s0 txs).balance = deposits (run env s0 txs) + (txs.map forced).sum ∧
    ∀ a, Registered (run env s0 txs) a → d ≤ ((run env s0 txs).addrToNode a).deposit := by
  have key : ∀ (txs : List Tx), (∀ tx ∈ txs, tx.valid) →
      Reachable env (run env s0 txs) ∧ (run env s0 txs).minNodeDeposit = d ∧
      (run env s0 txs).balance = deposits (run env s0 txs) + (txs.map forced).sum := by
    intro txs
    induction txs using List.reverseRecOn with
    | nil =>
      intro _
      refine ⟨.deploy hm h0, ?_, ?_⟩
      · obtain ⟨_, _, _, _, _, _, _, rfl⟩ := constructor_some.1 h0; rfl
      · obtain ⟨_, _, _, _, _, _, _, rfl⟩ := constructor_some.1 h0; rfl
    | append_singleton txs tx ih =>
      intro hv
      obtain ⟨r, hmin, hbal⟩ := ih (fun tx htx => hv tx (List.mem_append_left _ htx))
      have hvt : tx.valid := hv tx (by simp)
      have hrun : run env s0 (txs ++ [tx]) = step env (run env s0 txs) tx := by
        simp [run]
      rw [hrun]
      refine ⟨.step tx hvt r, (keeps_step r hvt).minDep.trans hmin, ?_⟩
      rw [List.map_append, List.sum_append]
      cases tx with
      | forceEther a =>
        change (run env s0 txs).balance + a = deposits (run env s0 txs) + _
        rw [hbal]
        simp [forced]
        ring
      | call m' c =>
        simp only [forced, List.map_cons, List.map_nil, List.sum_cons, List.sum_nil, add_zero]
        unfold step
        dsimp only
        cases he : exec env (run env s0 txs) m' c with
        | none => exact hbal
        | some s' =>
          rw [Option.getD_some]
          have := deposits_step r hvt he
          omega
  obtain ⟨r, hmin, hbal⟩ := key txs hv
  refine ⟨hbal, ?_⟩
  intro a ha
  rw [← hmin]
  exact ((regInv r).reg_idx a ha).2.2.2

/-- C40. No event ever decreases the balance or a recorded deposit: nothing can be withdrawn. -/
theorem C40_no_withdrawal (env : Env) {s s' : State} (hr : Reachable env s) (hl : Later env s s') :
    s.balance ≤ s'.balance ∧
    ∀ a, Registered s a → (s'.addrToNode a).deposit = (s.addrToNode a).deposit :=
  ⟨(hl.keeps hr).balance, fun a ha => ((hl.keeps hr).status a ha).2.2⟩

/-- A deployment with minimum deposit 5. -/
example : ∃ s0, Zkdvrf.constructor ⟨7, 0⟩ 1 2 true true true 5 = some s0 :=
  ⟨_, constructor_some.2
    ⟨rfl, by decide, rfl, by norm_num, by norm_num, by norm_num, by norm_num, rfl⟩⟩

end Verif.Props
