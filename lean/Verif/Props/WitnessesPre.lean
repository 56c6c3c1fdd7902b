import Verif.Props.WitnessesContract

/-!
Concrete cases that meet the hypotheses of the theorems of `ContractPre` and `ContractPre2`
(contracts/zkdvrf_pre.sol), with what the theorem says about them: three members, threshold 2, or two members,
threshold 1.
-/

namespace Verif.Props
open Verif ZkdvrfPre DemoMembers Services

/-- The owner 7 has added node 9, which registers with 6 wei (minimum 5). -/
theorem toy_pre_joins : ∃ p0 p p1, ZkdvrfPre.constructor ⟨8, 0⟩ 1 2 7 true true true 5 = some p0 ∧
    exec (toyEnv 1 2) p0 ⟨7, 0⟩ (.addPermissionedNodes 9) = some p ∧
    exec (toyEnv 1 2) p ⟨9, 6⟩ (.registerNode (Zkdvrf.keyWords gk)) = some p1 ∧ p.pkList = [] ∧
    Registered p1 9 ∧ p1.balance = 6 ∧ p.threshold = 1 := by
  have hc : ZkdvrfPre.constructor ⟨8, 0⟩ 1 2 7 true true true 5 = some _ :=
    constructor_some.2 ⟨rfl, by decide, rfl, by norm_num, by norm_num, by norm_num, by norm_num, rfl⟩
  refine ⟨_, _, _, hc,
    addPermissionedNodes_some.2 ⟨rfl, rfl, by norm_num, by decide, rfl, by norm_num, rfl⟩,
    registerNode_some.2 ⟨rfl, ?_, ?_, ?_, key_on_curve gk_ne_zero, ?_, ?_, rfl⟩, rfl, ?_, rfl, rfl⟩
  · simp only [Function.update_self]
  · simp only [Function.update_self]
  · norm_num
  · norm_num
  · norm_num
  · unfold Registered
    simp only [Function.update_self]

theorem toy_pre_registers : ∃ p p1, Reachable (toyEnv 1 2) p ∧ p.threshold = 1 ∧
    exec (toyEnv 1 2) p ⟨9, 6⟩ (.registerNode (Zkdvrf.keyWords gk)) = some p1 ∧ p.pkList = [] := by
  obtain ⟨p0, p, p1, h0, h1, h2, h3, _, _, h6⟩ := toy_pre_joins
  have hr := (ZkdvrfPre.Later.refl (env := toyEnv 1 2)).call (m := ⟨7, 0⟩) (by decide) h1
  exact ⟨p, p1, hr.reachable (Reachable.deploy h0), h6, h2, h3⟩

/-- `C31_pre_register_once`: it gets the first index, keeps it, and cannot register again. -/
example : ∃ p p1, Reachable (toyEnv 1 2) p ∧
    exec (toyEnv 1 2) p ⟨9, 6⟩ (.registerNode (Zkdvrf.keyWords gk)) = some p1 ∧
    ∀ p2, Later (toyEnv 1 2) p1 p2 → indexOf p2 9 = 0 ∧
      ∀ v pk, exec (toyEnv 1 2) p2 ⟨9, v⟩ (.registerNode pk) = none := by
  obtain ⟨s, s1, h1, ht, h2, h3⟩ := toy_pre_registers
  refine ⟨s, s1, h1, h2, fun s2 hl => ?_⟩
  obtain ⟨_, _, _, _, a, _, b⟩ := C31_pre_register_once (toyEnv 1 2) h1 (by rw [ht]) ⟨9, 6⟩ (by decide) _ h2 hl
  exact ⟨by rw [a, h3]; rfl, b⟩

/-- `C31_pre_only_owner_adds`: this registration changes the set of registered nodes. -/
example : ∃ p tx, Reachable (toyEnv 1 2) p ∧ ¬ Registered p 9 ∧ Registered (step (toyEnv 1 2) p tx) 9 := by
  obtain ⟨s, s1, h1, ht, h2, h3⟩ := toy_pre_registers
  obtain ⟨_, a, _, b, _⟩ := C31_pre_register_once (toyEnv 1 2) h1 (by rw [ht]) ⟨9, 6⟩ (by decide) _ h2 .refl
  exact ⟨s, .call ⟨9, 6⟩ (.registerNode (Zkdvrf.keyWords gk)), h1, a, by rw [step_some h2]; exact b⟩

/-- `C40_pre_balance`, `C40_pre_no_withdrawal`: after it, and 3 wei from elsewhere, the contract holds 9 wei. -/
example : ∃ p0 txs, ZkdvrfPre.constructor ⟨8, 0⟩ 1 2 7 true true true 5 = some p0 ∧
    (∀ tx ∈ txs, tx.valid) ∧
    Registered (run (toyEnv 1 2) p0 txs) 9 ∧ (run (toyEnv 1 2) p0 txs).balance = 6 + 3 := by
  obtain ⟨p0, p, p1, h0, h1, h2, h3, h4, h5, _⟩ := toy_pre_joins
  refine ⟨p0, [.call ⟨7, 0⟩ (.addPermissionedNodes 9), .call ⟨9, 6⟩ (.registerNode (Zkdvrf.keyWords gk)),
    .forceEther 3], h0, ?_, ?_⟩
  · intro tx htx
    simp only [List.mem_cons, List.not_mem_nil, or_false] at htx
    rcases htx with rfl | rfl | rfl
    · exact (by decide : (7 : Address) ≠ 0)
    · exact (by decide : (9 : Address) ≠ 0)
    · trivial
  · have : run (toyEnv 1 2) p0 [.call ⟨7, 0⟩ (.addPermissionedNodes 9),
        .call ⟨9, 6⟩ (.registerNode (Zkdvrf.keyWords gk)), .forceEther 3] =
        { p1 with balance := p1.balance + 3 } := by
      unfold run
      rw [List.foldl_cons, step_some h1, List.foldl_cons, step_some h2, List.foldl_cons, List.foldl_nil]
      rfl
    rw [this]
    exact ⟨h4, congrArg (· + 3) h5⟩

/-- `C30_pre_phase_step`: a transaction that starts the key generation. -/
example : ∃ p tx, Reachable toyMachine.env p ∧ 1 ≤ p.threshold ∧ tx.valid ∧ p.contractPhase = .Registered ∧
    (step toyMachine.env p tx).contractPhase = .Nidkg := by
  obtain ⟨w, h1, h2, h3⟩ := toy_demo
  obtain ⟨w1, _, a2⟩ := register_all _ 0 w (fresh_inv h1 (fun m hm => (h3 m hm).sk)) rfl
  have hp : w1.p.contractPhase = .Registered := by rw [a2.phase]; rfl
  have he : exec toyMachine.env w1.p ⟨7, 0⟩ .startNidkg = some _ :=
    startNidkg_some.2 ⟨rfl, a2.owner.symm, hp, rfl⟩
  refine ⟨w1.p, .call ⟨7, 0⟩ .startNidkg, a2.reach, by rw [a2.thr]; norm_num, (by decide : (7 : Address) ≠ 0), hp, ?_⟩
  rw [step_some he]

/-- `C30_pre_never_back`, `C33_pre_keys`, `C41_pre_setup_completes`: a setup that goes from the first phase to the
last, whatever happens in between. -/
example : ∃ p p', Reachable (toyEnv 1 2) p ∧ p.contractPhase = .Unregistered ∧ Later (toyEnv 1 2) p p' ∧
    p'.contractPhase = .Ready ∧ p'.vkList.length = 2 ∧ ∀ p'', Later (toyEnv 1 2) p' p'' →
      p''.contractPhase = .Ready ∧ p''.vkList = p'.vkList := by
  have hc : ZkdvrfPre.constructor ⟨9, 0⟩ 1 2 7 true true true 0 = some _ :=
    constructor_some.2 ⟨rfl, by decide, rfl, by norm_num, by norm_num, by norm_num, by norm_num, rfl⟩
  have hr := ZkdvrfPre.Reachable.deploy (env := toyEnv 1 2) hc
  obtain ⟨p, h1, h2, h3, h4⟩ := C41_pre_setup_completes (toyEnv 1 2) hr le_rfl Phase.noConfusion
    (by norm_num) (by decide) (toy_sound 1 2) (toy_complete 1 2) (by simp) (by simp)
  have hr' := h1.reachable hr
  have ht : 1 ≤ p.threshold := by rw [h1.threshold.1]
  obtain ⟨_, _, k3, _⟩ := (C33_pre_keys (p' := p) (toyEnv 1 2) hr' ht).2 h2
  refine ⟨_, p, hr, rfl, h1, h2, k3.trans h1.threshold.2, fun p'' hl => ?_⟩
  obtain ⟨_, _, _, _, k5⟩ := (C33_pre_keys (p' := p'') (toyEnv 1 2) hr' ht).2 h2
  exact ⟨(k5 hl).1, (k5 hl).2.1⟩

/-- `C32_pre_parameters`: three submissions, one of each node. -/
example : ∃ p, Reachable toyMachine.env p ∧ 1 ≤ p.threshold ∧ p.contractPhase = .Ready ∧ p.ppList.length = 3 ∧
    (p.addrToNode 2).statusPP = true := by
  obtain ⟨w, h1, h2, h3⟩ := toy_demo
  obtain ⟨w1, gf, vf, _, e2⟩ := setup_ok h2 h1 h3 true
  have hthr := e2.thr
  have hcnt := e2.cnt
  have ht : 1 ≤ w1.p.threshold := by rw [hthr]; decide
  obtain ⟨a, b, _⟩ := C32_pre_parameters toyMachine.env e2.reach ht (Or.inr e2.ready)
  exact ⟨w1.p, e2.reach, ht, e2.ready, a.trans hcnt, (b 2).2 (e2.idx 1 (2, toyDraw) rfl).1⟩

/-- `C39_pre_refines`, `C34_pre_rounds`, `C35_pre_evaluations`, `C36_pre_*`, `C37_pre_quorum`: round 1 is completed;
the other contract has a history with the same random number; two of the three members have submitted; the
random number stays. -/
example : ∃ p, Reachable toyMachine.env p ∧ 1 ≤ p.threshold ∧ Completed p 1 ∧
    (∃ s, Zkdvrf.Reachable toyMachine.env s ∧ Zkdvrf.Completed s 1) ∧
    p.threshold ≤ Nat.card {i : ℕ // i < p.memberCount ∧ Submitted p 1 i} ∧
    p.roundInput 1 = strBytes "zkRand-v1-2024:1" ∧
    ∀ p', Later toyMachine.env p p' → p'.roundToRandom 1 = p.roundToRandom 1 := by
  obtain ⟨p, hr, ht, g2, g3⟩ := toy_pre_done
  obtain ⟨⟨s, a1, _, _, _, _, _, _, _, _, _, a2, _⟩, _⟩ := C39_pre_refines toyMachine.env hr ht
  obtain ⟨_, b, _⟩ := C34_pre_rounds toyMachine.env hr ht
  obtain ⟨_, _, _, _, c⟩ := C37_pre_quorum toyMachine.env hr ht 1 g2
  refine ⟨p, hr, ht, g2, ⟨s, a1, ?_⟩, c, ?_, fun p' hl => (C36_pre_write_once toyMachine.env hr ht hl).1 1 g2⟩
  · unfold Zkdvrf.Completed; rw [a2]; exact g2
  · rw [b 1 le_rfl (by rw [g3])]; decide +kernel

/-- `C37_pre_zero_threshold`: with threshold 0 the contract has random numbers before any member registers. -/
example : ∃ p p', Reachable (toyEnv 1 2) p ∧ p.contractPhase = .Unregistered ∧
    exec (toyEnv 1 2) p ⟨7, 0⟩ (.submitRandom ⟨⟨0, 0⟩, 1⟩) = some p' ∧ Completed p' 0 := by
  obtain ⟨p, p', h1, _, h2, h3, h4, _⟩ := C37_pre_zero_threshold (toyEnv 1 2) 7 (by decide)
    (by decide : (1 : Word) ≠ 0)
  exact ⟨p, p', h1, h2, h3, h4⟩

/-- `C39_pre_outsiders`: an address that the contract does not know. -/
example : ∃ p, Reachable toyMachine.env p ∧ p.contractPhase = .Ready ∧ (9 : Address) ≠ 0 ∧ 9 ≠ p.owner ∧
    ¬ Added p 9 ∧ ∀ c, step toyMachine.env p (.call ⟨9, 0⟩ c) = p := by
  obtain ⟨w, h1, h2, h3⟩ := toy_demo
  obtain ⟨w1, gf, vf, _, e2⟩ := setup_ok h2 h1 h3 true
  have ho : (9 : Address) ≠ w1.p.owner := by rw [e2.owner]; decide
  have hn : ¬ Added w1.p 9 := by rw [e2.added]; decide
  refine ⟨w1.p, e2.reach, e2.ready, by decide, ho, hn, fun c => ?_⟩
  rcases C39_pre_outsiders toyMachine.env w1.p ⟨9, 0⟩ c (by decide) ho hn with h | ⟨_, _, _, hp, _⟩
  · exact h
  · rw [e2.ready] at hp; cases hp

/-- `C41_pre_violation_member_can_block`, `C41_pre_violation_unreduced_blocks`, `C32_pre_submission_kept`: a
member's submission blocks the contract; it is kept, and the member cannot replace it. -/
example : ∃ p a pp pr p1, Reachable toyMachine.env p ∧ p.contractPhase = .Nidkg ∧ Registered p a ∧
    exec toyMachine.env p ⟨a, 0⟩ (.submitPublicParams pp pr) = some p1 ∧
    ∀ p2, Later toyMachine.env p1 p2 → p2.contractPhase ≠ .Ready ∧ p2.ppList[0]? = some pp ∧
      ∀ v pp' pr', exec toyMachine.env p2 ⟨a, v⟩ (.submitPublicParams pp' pr') = none := by
  obtain ⟨p, a, h1, h2, h3, h4, h5, h6, h7, h8, h9, h10, h11⟩ := toy_pre_nidkg
  have hu1 : Spec.Usable g1 (5 • g1) ((1 : ℕ) : Fr) :=
    ⟨1, by norm_num, rfl, FixedPoint.fitsN_spec addOrderOf_g1 (by decide +kernel)⟩
  have hu2 : Spec.Usable g2 FixedPoint.aux2 ((1 : ℕ) : Fr) :=
    ⟨1, by norm_num, rfl, FixedPoint.fits3N_spec (by decide +kernel)⟩
  rw [Nat.cast_one] at hu1 hu2
  have ht : 1 ≤ p.threshold := by rw [h3]; norm_num
  obtain ⟨pp, pr, p1, e1, e2⟩ := C41_pre_violation_member_can_block toyMachine.env h1 h2 ht (5 • g1) FixedPoint.aux2
    toy_faithful.table1 toy_faithful.order2 toy_faithful.table2 hu1 hu2
    (by
      intro ins h
      rw [h3, h4] at h
      obtain ⟨pr, _, _, h⟩ := toy_faithful.proves ins h
      exact ⟨pr, h⟩) h8 a h9 h10 h11
  refine ⟨p, a, pp, pr, p1, h1, h2, h10, e1, fun p2 hl => ⟨e2 p2 hl, ?_⟩⟩
  obtain ⟨_, _, b, _, c, _⟩ := C32_pre_submission_kept toyMachine.env h1 ht ⟨a, 0⟩ h9 pp pr e1 hl
  rw [h6] at b
  exact ⟨b, c⟩

end Verif.Props
