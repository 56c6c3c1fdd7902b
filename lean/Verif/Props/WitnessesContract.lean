import Verif.Props.Config
import Verif.Props.Witnesses

/-!
Concrete cases that meet the hypotheses of the theorems of `Contract`, `ContractRounds`, `Liveness`, `Blocking`
(contracts/zkdvrf.sol), with what the theorem says about them. Every state is reached by transactions from a
deployment for two members with threshold 1 by address 7.
-/

namespace Verif.Props
open Verif Zkdvrf

theorem zk_step {env : Env} {s s' : State} {m : Msg} {c : Call} (h : exec env s m c = some s') :
    step env s (.call m c) = s' := congrArg (Option.getD · _) h

/-- Node 9 has been added by the owner 7 and registers with a deposit of 6 wei (minimum 5). -/
theorem toy_joins : ∃ s0 s s1, Zkdvrf.constructor ⟨7, 0⟩ 1 2 true true true 5 = some s0 ∧
    exec (toyEnv 1 2) s0 ⟨7, 0⟩ (.addPermissionedNodes 9) = some s ∧
    exec (toyEnv 1 2) s ⟨9, 6⟩ (.registerNode (keyWords gk)) = some s1 ∧ s.pkList = [] ∧
    Registered s1 9 ∧ s1.balance = 6 := by
  have hc : Zkdvrf.constructor ⟨7, 0⟩ 1 2 true true true 5 = some _ :=
    constructor_some.2 ⟨rfl, by decide, rfl, by norm_num, by norm_num, by norm_num, by norm_num, rfl⟩
  refine ⟨_, _, _, hc,
    addPermissionedNodes_some.2 ⟨rfl, rfl, by norm_num, by decide, rfl, by norm_num, rfl⟩,
    registerNode_some.2 ⟨rfl, ?_, ?_, ?_, key_on_curve gk_ne_zero, ?_, ?_, rfl⟩, rfl, ?_, rfl⟩
  · simp only [Function.update_self]
  · simp only [Function.update_self]
  · norm_num
  · norm_num
  · norm_num
  · unfold Registered
    simp only [Function.update_self]

theorem toy_registers : ∃ s s1, Reachable (toyEnv 1 2) s ∧
    exec (toyEnv 1 2) s ⟨9, 6⟩ (.registerNode (keyWords gk)) = some s1 ∧ s.pkList = [] := by
  obtain ⟨s0, s, s1, h0, h1, h2, h3, _⟩ := toy_joins
  exact ⟨s, s1, (Reachable.deploy (m := ⟨7, 0⟩) (by decide) h0).call (m := ⟨7, 0⟩) (by decide) h1, h2, h3⟩

/-- `C31_register_once`: it gets the first index, keeps it, and cannot register again. -/
example : ∃ s s1, Reachable (toyEnv 1 2) s ∧
    exec (toyEnv 1 2) s ⟨9, 6⟩ (.registerNode (keyWords gk)) = some s1 ∧
    ∀ s2, Later (toyEnv 1 2) s1 s2 → indexOf s2 9 = 0 ∧
      ∀ v pk, exec (toyEnv 1 2) s2 ⟨9, v⟩ (.registerNode pk) = none := by
  obtain ⟨s, s1, h1, h2, h3⟩ := toy_registers
  refine ⟨s, s1, h1, h2, fun s2 hl => ?_⟩
  obtain ⟨_, _, _, _, a, _, b⟩ := C31_register_once (toyEnv 1 2) h1 ⟨9, 6⟩ (by decide) _ h2 hl
  exact ⟨by rw [a, h3]; rfl, b⟩

/-- `C31_only_owner_adds`: this registration changes the set of registered nodes. -/
example : ∃ s tx, tx.valid ∧ Reachable (toyEnv 1 2) s ∧ ¬ Registered s 9 ∧
    Registered (step (toyEnv 1 2) s tx) 9 := by
  obtain ⟨s, s1, h1, h2, h3⟩ := toy_registers
  obtain ⟨_, a, _, b, _⟩ := C31_register_once (toyEnv 1 2) h1 ⟨9, 6⟩ (by decide) _ h2 .refl
  exact ⟨s, .call ⟨9, 6⟩ (.registerNode (keyWords gk)), (by decide : (9 : Address) ≠ 0), h1, a, by rw [zk_step h2]; exact b⟩

theorem run_three {env : Env} {s s1 s2 : State} {m1 m2 : Msg} {c1 c2 : Call} (h1 : exec env s m1 c1 = some s1)
    (h2 : exec env s1 m2 c2 = some s2) (k : ℕ) {P : State → Prop} (hP : P { s2 with balance := s2.balance + k }) :
    P (run env s [.call m1 c1, .call m2 c2, .forceEther k]) := by
  have : run env s [.call m1 c1, .call m2 c2, .forceEther k] = { s2 with balance := s2.balance + k } := by
    unfold run
    rw [List.foldl_cons, zk_step h1, List.foldl_cons, zk_step h2, List.foldl_cons, List.foldl_nil]
    rfl
  rw [this]
  exact hP

/-- `C40_balance`, `C40_no_withdrawal`: after this registration the contract holds its 6 wei. -/
example : ∃ s0 txs, Zkdvrf.constructor ⟨7, 0⟩ 1 2 true true true 5 = some s0 ∧ (∀ tx ∈ txs, tx.valid) ∧
    Registered (run (toyEnv 1 2) s0 txs) 9 ∧ (run (toyEnv 1 2) s0 txs).balance = 6 + 3 := by
  obtain ⟨s0, s, s1, h0, h1, h2, h3, h4, h5⟩ := toy_joins
  refine ⟨_, [.call ⟨7, 0⟩ (.addPermissionedNodes 9), .call ⟨9, 6⟩ (.registerNode (keyWords gk)), .forceEther 3],
    h0, ?_, ?_⟩
  · intro tx htx
    simp only [List.mem_cons, List.not_mem_nil, or_false] at htx
    rcases htx with rfl | rfl | rfl
    · exact (by decide : (7 : Address) ≠ 0)
    · exact (by decide : (9 : Address) ≠ 0)
    · trivial
  · exact run_three (P := fun x => Registered x 9 ∧ x.balance = 6 + 3) h1 h2 3 ⟨h4, congrArg (· + 3) h5⟩

/-- `C30_phase_step`: a transaction that moves the contract from `NidkgComplete` to `Ready`. -/
example : ∃ s tx, Reachable (toyEnv 1 2) s ∧ tx.valid ∧ s.contractPhase = .NidkgComplete ∧
    (step (toyEnv 1 2) s tx).contractPhase = .Ready := by
  obtain ⟨s, h1, h2, h3, h4, h5, h6, h7⟩ := toy_dealt
  obtain ⟨gf, vf, gpk, e1, e2, e3, _⟩ := C53_compute_vk (toyEnv 1 2) h1 h2
    (by rw [h3, h4]; exact toy_sound 1 2) 7
  obtain ⟨s', e4⟩ := e3.2 (by rw [h3]; exact h7)
  refine ⟨s, .call ⟨7, 0⟩ (.computeVk gpk), h1, (by decide : (7 : Address) ≠ 0), h2, ?_⟩
  rw [zk_step e4]
  obtain ⟨_, _, _, _, rfl⟩ := computeVk_some.1 e4
  rfl

/-- `C39_outsiders`: the exception occurs, an address unknown to the contract (13) completes the setup. -/
example : ∃ s gpk, Reachable (toyEnv 1 2) s ∧ (13 : Address) ≠ s.owner ∧
    step (toyEnv 1 2) s (.call ⟨13, 0⟩ (.computeVk gpk)) ≠ s := by
  obtain ⟨s, h1, h2, h3, h4, h5, h6, h7⟩ := toy_dealt
  obtain ⟨gf, vf, gpk, e1, e2, e3, _⟩ := C53_compute_vk (toyEnv 1 2) h1 h2
    (by rw [h3, h4]; exact toy_sound 1 2) 13
  obtain ⟨s', e4⟩ := e3.2 (by rw [h3]; exact h7)
  refine ⟨s, gpk, h1, by rw [h5]; decide, ?_⟩
  rw [zk_step e4]
  obtain ⟨_, _, _, _, rfl⟩ := computeVk_some.1 e4
  intro h
  have := congrArg State.contractPhase h
  rw [h2] at this
  cases this

/-- `C33_keys_from_submissions`, `C33_keys_fixed`, `C36_value_determined`, `C36_write_once`, `C37_round_opened`,
`C38_getLatestRandom`, `C35_evaluations`: round 1 is completed, its only submission is member 1's, and the
random number can be read. -/
example : ∃ s, Reachable (toyEnv 1 2) s ∧ s.contractPhase = .Ready ∧ Completed s 1 ∧ s.vkList.length = 2 ∧
    (s.roundToEval 1 0).indexPlus = 1 ∧ 1 ≤ s.roundSubmissionCount 1 ∧
    getLatestRandom s = some (s.roundToRandom 1) ∧
    ∀ s', Later (toyEnv 1 2) s s' → s'.contractPhase = .Ready ∧ s'.vkList = s.vkList ∧
      s'.roundToRandom 1 = s.roundToRandom 1 := by
  obtain ⟨s, h1, h2, h3, h4, h5, h6, h7, h8⟩ := toy_done
  obtain ⟨_, _, k1, _⟩ := C33_keys_from_submissions (toyEnv 1 2) h1 h2
  obtain ⟨e1, e2, _⟩ := C35_evaluations (toyEnv 1 2) h1 ⟨1, 2⟩ h3.symm 1 0
  obtain ⟨_, e3, _⟩ := e1 h8
  refine ⟨s, h1, h2, h7, k1.trans h3, e3, ?_, ?_, fun s' hl => ?_⟩
  · rw [e2, Nat.one_le_iff_ne_zero]
    intro h0
    rcases Nat.card_eq_zero.1 h0 with h | h
    · exact h.false ⟨0, by rw [h3]; norm_num, h8⟩
    · have : Finite {i : ℕ // i < s.memberCount ∧ Submitted s 1 i} :=
        Set.Finite.subset (Set.finite_lt_nat s.memberCount) (fun i hi => hi.1)
      exact not_finite_iff_infinite.2 h this
  · refine (((C38_getLatestRandom (toyEnv 1 2) h1).1 (by rw [h6])).1 _).2 ⟨1, le_rfl, h7, ?_, rfl⟩
    intro j hj hc
    have := (C37_round_opened (toyEnv 1 2) h1 j (by omega) hc).1
    omega
  · obtain ⟨a, b, _⟩ := (C33_keys_fixed (toyEnv 1 2) h1).2 h2 hl
    exact ⟨a, b, C36_write_once (toyEnv 1 2) h1 hl 1 h7⟩

/-- `C36_random_step`: the owner's transaction that completes round 1. -/
example : ∃ s tx, Reachable (toyEnv 1 2) s ∧ (step (toyEnv 1 2) s tx).roundToRandom 1 ≠ s.roundToRandom 1 := by
  obtain ⟨s, h1, h2, h3, h4, h5, h6, h7, h8⟩ := toy_open
  have hs : Spec.SnarkSound (toyEnv 1 2) s.threshold s.memberCount := by rw [h3, h4]; exact toy_sound 1 2
  obtain ⟨F, _, _, hvk⟩ := group_poly h1 h2 hs
  obtain ⟨pr, _, w, hw, s', e1, e2, e3⟩ := C41_round_completes (toyEnv 1 2) h1 h2 (by rw [h6]; exact h7)
    (by rw [h5]; decide) (by rw [h4]; norm_num) hs [2] (by rw [h4]; rfl)
    (by rw [h3]; exact ⟨by decide, by decide⟩) (fun i => Spec.poly F (i : Fr)) (fun _ => 5)
    (by
      intro i hi
      rw [List.mem_singleton] at hi
      subst hi
      rw [hvk, h3]; rfl)
  refine ⟨s, .call ⟨s.owner, 0⟩ (.submitRandom ⟨encodeG1 pr.proof, w⟩), h1, ?_⟩
  rw [zk_step e1, ← h6, e2]
  intro he
  obtain ⟨_, _, _, _, hv, _⟩ := submitRandom_some.1 e1
  refine h7 ?_
  unfold Completed
  rw [← h6, ← he]
  rw [show w = 1 from hv]
  exact (by decide : (1 : Word) ≠ 0)

/-- `C41_round_opens`: round 2 can be opened after round 1. -/
example : ∃ s s', Reachable (toyEnv 1 2) s ∧ s.currentRoundNum = 1 ∧
    exec (toyEnv 1 2) s ⟨s.owner, 0⟩ .initiateRandom = some s' ∧ s'.currentRoundNum = 2 := by
  obtain ⟨s, h1, h2, h3, h4, h5, h6, h7, h8⟩ := toy_done
  obtain ⟨s', e1, e2, _⟩ := C41_round_opens (toyEnv 1 2) h2 (by rw [h6]; norm_num) (Or.inr (by rw [h6]; exact h7))
  exact ⟨s, s', h1, h6, e1, by rw [e2, h6]⟩

/-- `C41_setup_completes`: from a key generation that is under way, both members having registered `gk` (not
only from a fresh deployment, as in `toy_ready`). -/
example : ∃ s s', Reachable (toyEnv 1 2) s ∧ s.contractPhase = .Nidkg ∧ s.pkList.length = 2 ∧
    Later (toyEnv 1 2) s s' ∧ s'.contractPhase = .Ready := by
  obtain ⟨s, h1, h2, h3, h4, h5, h6, h7⟩ := toy_dkg
  obtain ⟨s', a1, a2, _⟩ := C41_setup_completes (toyEnv 1 2) h1
    (by rw [h2]; exact Phase.noConfusion) (by rw [h3]; norm_num) (by rw [h4]; norm_num)
    (by rw [h5]; decide) (by rw [h3, h4]; exact toy_sound 1 2)
    (by rw [h3, h4]; exact toy_complete 1 2) (by
      intro k hk
      rw [h6] at hk
      simp only [List.mem_cons, List.not_mem_nil, or_false, or_self] at hk
      exact ⟨gk, gk_ne_zero, hk⟩) (by rw [h7]; simp)
  exact ⟨s, s', h1, h2, by rw [h6]; rfl, a1, a2⟩

/-- A contract with threshold 2 and 3 members: with a degree the commands of the service use 2 of 3, without
one they use 3 of 5. -/
example : ∃ s : Zkdvrf.State, Reachable (toyEnv 2 3) s ∧ s.threshold = 2 ∧ s.memberCount = 3 ∧
    (∀ i, Config.clientConfig (Config.commandVars ⟨some 2, some 3, some 18⟩ i) = .ok (⟨s.threshold, s.memberCount⟩, 18)) ∧
    ∀ i, Config.clientConfig (Config.commandVars ⟨some 2, some 3, none⟩ i) = .ok (⟨3, 5⟩, 18) := by
  have hc : Zkdvrf.constructor ⟨7, 0⟩ 2 3 true true true 5 = some _ :=
    constructor_some.2 ⟨rfl, by decide, rfl, by norm_num, by norm_num, by norm_num, by norm_num, rfl⟩
  obtain ⟨s, h0, h1, h2⟩ : ∃ s : Zkdvrf.State, Reachable (toyEnv 2 3) s ∧ s.threshold = 2 ∧ s.memberCount = 3 :=
    ⟨_, .deploy (m := ⟨7, 0⟩) (by decide) hc, rfl, rfl⟩
  refine ⟨s, h0, h1, h2, fun i => ?_, fun i => ?_⟩
  · exact C70_matches_contract _ i s 18 (by rw [h1]; rfl) (by rw [h2]; rfl) rfl (by norm_num) (by rw [h1]; norm_num)
      (by rw [h1, h2]; norm_num) (by rw [h2]; norm_num)
  · exact C70_violation_missing_degree _ i s (by rw [h1]; rfl) (by rw [h2]; rfl) rfl

end Verif.Props
