import Verif.Props.DemoMembers
import Verif.Props.ContractPre2
import Verif.Props.Client

/-!
Concrete cases that meet the hypotheses of theorems of other files (`ContractPre`, `Client`)
beside which no example could be given because the states come from later files.
-/

namespace Verif.Props
open ZkdvrfPre DemoMembers Services

/-- `C41_pre_node_can_submit`, `C41_pre_round_opens`, `C33_pre_*`, `C32_pre_parameters`: round 1 is open, a
registered member with a share key has not submitted. -/
example : ∃ (p : State) (a : Address) (sk : Fr), Reachable toyMachine.env p ∧ 1 ≤ p.threshold ∧
    p.contractPhase = .Ready ∧ p.currentRoundNum = 1 ∧ ¬ Completed p p.currentRoundNum ∧ a ≠ 0 ∧
    Registered p a ∧ p.lastSubmittedRound a < p.currentRoundNum ∧
    p.vkList[indexOf p a]? = some (encodeG1 (sk • g1)) := by
  obtain ⟨w, h1, h2, h3⟩ := toy_demo
  obtain ⟨w1, gf, vf, _, e2⟩ := setup_ok h2 h1 h3 true
  have hthr := e2.thr
  have hcnt := e2.cnt
  have hcur := e2.cur
  have ht : 1 ≤ w1.p.threshold := by rw [hthr]; decide
  obtain ⟨hreg, hidx⟩ := e2.idx 2 (3, toyDraw) rfl
  obtain ⟨fs, _, _, _, hv, _⟩ := C75_pre_randoms_from_draws toyMachine.env e2.reach ht
    (by rw [hthr, hcnt]; exact h2.sound) e2.ready
  refine ⟨w1.p, 3, (fs.map (fun f => Spec.poly f ((2 + 1 : ℕ) : Fr))).sum, e2.reach, ht, e2.ready, hcur, ?_, by decide, hreg, ?_, ?_⟩
  · rw [hcur]; exact fun h => h e2.opened
  · rw [hcur]; exact e2.last 3 List.not_mem_nil
  · rw [show indexOf w1.p 3 = 2 from hidx, hv, hcnt]; rfl

/-- `C41_pre_round_completes`: threshold 2, members 3 and 1 have submitted, any two members may be combined. -/
example : ∃ (p : State) (sk : ℕ → Fr), Reachable toyMachine.env p ∧ 1 ≤ p.threshold ∧
    p.contractPhase = .Ready ∧ ¬ Completed p p.currentRoundNum ∧ p.owner ≠ 0 ∧
    p.threshold ≤ p.roundSubmissionCount p.currentRoundNum ∧
    Spec.SnarkSound toyMachine.env p.threshold p.memberCount ∧
    [1, 3].length = p.threshold ∧ Spec.ValidIndices p.memberCount [1, 3] ∧
    ∀ i ∈ [1, 3], p.vkList[i - 1]? = some (encodeG1 (sk i • g1)) := by
  obtain ⟨w, h1, h2, h3⟩ := toy_demo
  obtain ⟨w1, gf, vf, _, e2⟩ := setup_ok h2 h1 h3 true
  obtain ⟨w2, done, _, _, f3, f4, _⟩ := eval_all h2.sound [((3 : Address), toyDraw), (1, toyDraw)] [] w1 e2 rfl
    (by
      intro m hm
      simp only [List.mem_cons, List.not_mem_nil, or_false] at hm
      rcases hm with rfl | rfl <;> simp) (by decide) (fun m _ => List.not_mem_nil)
  have hthr := f4.thr
  have hcnt := f4.cnt
  have hcur := f4.cur
  have ht : 1 ≤ w2.p.threshold := by rw [hthr]; decide
  obtain ⟨fs, _, _, _, hv, _⟩ := C75_pre_randoms_from_draws toyMachine.env f4.reach ht
    (by rw [hthr, hcnt]; exact h2.sound) f4.ready
  refine ⟨w2.p, fun i => (fs.map (fun f => Spec.poly f (i : Fr))).sum, f4.reach, ht, f4.ready, ?_,
    ?_, ?_, ?_, by rw [hthr]; rfl, ?_, ?_⟩
  · rw [hcur]; exact fun h => h f4.opened
  · rw [f4.owner]; decide
  · rw [hcur, f4.count, f3, hthr]; decide
  · rw [hthr, hcnt]; exact h2.sound
  · rw [hcnt]
    refine ⟨?_, by decide⟩
    decide
  · intro i hi
    rw [hv, hcnt]
    simp only [List.mem_cons, List.not_mem_nil, or_false] at hi
    rcases hi with rfl | rfl <;> rfl

/-- A completed round, with threshold 2 and three members. -/
theorem toy_pre_done : ∃ p : State, Reachable toyMachine.env p ∧ 1 ≤ p.threshold ∧ Completed p 1 ∧
    p.currentRoundNum = 1 := by
  obtain ⟨w, h1, h2, h3⟩ := toy_demo
  obtain ⟨w1, gf, vf, _, e2⟩ := setup_ok h2 h1 h3 true
  obtain ⟨w2, done, _, _, f3, f4, _⟩ := eval_all h2.sound [((3 : Address), toyDraw), (1, toyDraw)] [] w1 e2 rfl
    (by
      intro m hm
      simp only [List.mem_cons, List.not_mem_nil, or_false] at hm
      rcases hm with rfl | rfl <;> simp) (by decide) (fun m _ => List.not_mem_nil)
  obtain ⟨p3, _, g2, g3, _, g5⟩ := publish false h2.sound h2.hash h1.owner_ne f4 (by rw [f3]; decide)
  have hthr := g5.thr
  have ht : 1 ≤ p3.threshold := by rw [hthr]; decide
  exact ⟨p3, g5.reach, ht, g2, g3⟩

/-- `C37_pre_quorum`, `C36_pre_*`, `C38_pre_reads`: a completed round. -/
example : ∃ (p : State) (v : SolRandom), Reachable toyMachine.env p ∧ 1 ≤ p.threshold ∧ Completed p 1 ∧
    getRandomAtRound p 1 = some v ∧ getLatestRandom p = some v := by
  obtain ⟨p3, hr, ht, g2, g3⟩ := toy_pre_done
  obtain ⟨a, -, b, -⟩ := C38_pre_reads toyMachine.env hr ht
  refine ⟨p3, _, hr, ht, g2, (a 1 _).2 ⟨g2, rfl⟩, (b _).2 ⟨1, le_refl 1, g2, ?_, rfl⟩⟩
  intro j hj hc
  have := (C37_pre_quorum toyMachine.env hr ht j hc).2.1
  rw [g3] at this
  omega

/-- `C46_violation_noncanonical_z`: an open round of zkdvrf.sol and a registered node with a share key. -/
example : ∃ (s : Zkdvrf.State) (a : Address) (sk : Fr), Zkdvrf.Reachable (toyEnv 1 2) s ∧
    ¬ Zkdvrf.Completed s s.currentRoundNum ∧ a ≠ 0 ∧ Zkdvrf.Registered s a ∧
    s.lastSubmittedRound a < s.currentRoundNum ∧
    s.vkList[Zkdvrf.indexOf s a]? = some (encodeG1 (sk • g1)) := by
  obtain ⟨s, h1, h2, h3, h4, h5, h6, h7, h8⟩ := toy_open
  have hs : Spec.SnarkSound (toyEnv 1 2) s.threshold s.memberCount := by
    rw [h3, h4]; exact toy_sound 1 2
  obtain ⟨F, _, _, hvk⟩ := Zkdvrf.group_poly h1 h2 hs
  have hreg := Zkdvrf.regInv h1
  have hrc : s.registeredCount = 2 := by
    rw [← h3]; exact hreg.started (by rw [h2]; exact Zkdvrf.Phase.noConfusion)
  obtain ⟨hst, hidx⟩ := hreg.reg_node 0 (by omega)
  have hself := (hreg.reg_idx _ hst).2.2.1
  have h0 : s.nodes 0 ≠ 0 := by
    intro h0
    rw [h0] at hst hself
    rw [hreg.empty 0 hself] at hst
    cases hst
  refine ⟨s, s.nodes 0, Spec.poly F ((0 + 1 : ℕ) : Fr), h1, by rw [h6]; exact h7, h0, hst,
    by rw [h8, h6]; norm_num, ?_⟩
  rw [show Zkdvrf.indexOf s (s.nodes 0) = 0 from hidx, hvk, h3]; rfl

/-- `C41_pre_violation_member_can_block` (whose other hypotheses are those of the example beside
`C41_violation_member_can_block`), `C16_pre_checkPublicParams_iff`: key generation has started and nobody has
submitted. -/
theorem toy_pre_nidkg : ∃ (p : State) (a : Address), Reachable toyMachine.env p ∧ p.contractPhase = .Nidkg ∧ p.threshold = 2 ∧
    p.memberCount = 3 ∧ p.owner = 7 ∧ p.ppList = [] ∧ p.pkList.length = 3 ∧ (∀ k ∈ p.pkList, ∃ P : Gk, P ≠ 0 ∧ k = Zkdvrf.keyWords P) ∧ a ≠ 0 ∧
    Registered p a ∧ (p.addrToNode a).statusPP = false := by
  obtain ⟨w, h1, h2, h3⟩ := toy_demo
  obtain ⟨w1, _, a2⟩ := register_all _ 0 w (fresh_inv h1 (fun m hm => (h3 m hm).sk)) rfl
  obtain ⟨w2, w3, _, _, b3⟩ := start_dkg h1.owner_ne a2
  have hk := b3.keys
  refine ⟨w3.p, 1, b3.reach, by rw [b3.phase]; rfl, b3.thr, b3.cnt, b3.owner,
    List.length_eq_zero_iff.1 b3.ppLen, by rw [hk]; rfl, ?_, by decide,
    (b3.idx 0 (1, toyDraw) rfl).1, b3.todo 0 (1, toyDraw) (le_refl 0) rfl⟩
  intro k hk'
  rw [hk] at hk'
  obtain ⟨m, hm, rfl⟩ := List.mem_map.1 hk'
  exact ⟨_, smul_ne_zero (h3 m hm).sk gk_ne_zero, rfl⟩

private theorem honest_verifying (keccak : Keccak) (h2c : List Byte → G1) (n : ℕ) (F : List Fr)
    (input : List Byte) (idx : List ℕ) (h : ∀ i ∈ idx, 1 ≤ i ∧ i ≤ n) (t : ℕ) :
    Spec.verifying keccak h2c ⟨t, n⟩ input
      ((List.range n).map (fun i => Spec.poly F ((i + 1 : ℕ) : Fr) • g1))
      (idx.map (fun i => DkgShareKey.evaluate keccak h2c ⟨i, Spec.poly F (i : Fr),
        Spec.poly F (i : Fr) • g1⟩ input 5)) =
    idx.map (fun i => DkgShareKey.evaluate keccak h2c ⟨i, Spec.poly F (i : Fr),
        Spec.poly F (i : Fr) • g1⟩ input 5) := by
  unfold Spec.verifying
  rw [List.filter_eq_self]
  intro e he
  obtain ⟨i, hi, rfl⟩ := List.mem_map.1 he
  obtain ⟨a, b⟩ := h i hi
  refine (@decide_eq_true_iff _ (Classical.propDecidable _)).2 ⟨Spec.poly F (i : Fr) • g1, ?_, ?_⟩
  · change ((List.range n).map _)[i - 1]? = _
    rw [List.getElem?_map, List.getElem?_range (by omega), Option.map_some,
      show i - 1 + 1 = i from by omega]
  · exact evaluate_verifies keccak h2c ⟨t, n⟩ ⟨i, _, _⟩ rfl a b input 5

/-- `C46_succeeds` and `C46_combine_spec`: honest evaluations of the members 1 and 3 of three, in order;
`C46_unordered_rejected`: the same, out of order. -/
example (keccak : Keccak) (h2c : List Byte → G1) (input : List Byte) :
    ∃ (evals : List ℕ → List PartialEval) (ef : List ℕ → List PartialEvalSerde) (gf : Point2Serde)
      (vf : List PointSerde) (vks : List G1) (F : List Fr),
      (∀ l, (ef l).mapM PartialEvalSerde.read = .ok (evals l)) ∧
      gf.toG2 = .ok (smul2 (Spec.poly F 0) g2) ∧ vf.mapM PointSerde.toG1 = .ok vks ∧
      vks.length = 3 ∧ F.length = 2 ∧
      Spec.ValidIndices 3 ((evals [1, 3]).map (·.index)) ∧
      2 ≤ (Spec.verifying keccak h2c ⟨2, 3⟩ input vks (evals [1, 3])).length ∧
      (∀ e ∈ evals [1, 3], Spec.Verifies keccak h2c ⟨2, 3⟩ input vks e →
        e.value = Spec.poly F (e.index : Fr) • h2c input) ∧
      2 ≤ (Spec.verifying keccak h2c ⟨2, 3⟩ input vks (evals [3, 1])).length ∧
      ¬ (((Spec.verifying keccak h2c ⟨2, 3⟩ input vks (evals [3, 1])).take 2).map (·.index)).Pairwise (· < ·) := by
  obtain ⟨F, hF⟩ : ∃ F : List Fr, F.length = 2 := ⟨[7, 4], rfl⟩
  have k13 := honest_verifying keccak h2c 3 F input [1, 3] (by decide) 2
  have k31 := honest_verifying keccak h2c 3 F input [3, 1] (by decide) 2
  refine ⟨fun l => l.map (fun i => DkgShareKey.evaluate keccak h2c ⟨i, Spec.poly F (i : Fr),
        Spec.poly F (i : Fr) • g1⟩ input 5),
    fun l => (l.map (fun i => DkgShareKey.evaluate keccak h2c ⟨i, Spec.poly F (i : Fr),
        Spec.poly F (i : Fr) • g1⟩ input 5)).map PartialEvalSerde.of, .ofG2 (smul2 (Spec.poly F 0) g2),
    ((List.range 3).map (fun i => Spec.poly F ((i + 1 : ℕ) : Fr) • g1)).map PointSerde.ofG1,
    (List.range 3).map (fun i => Spec.poly F ((i + 1 : ℕ) : Fr) • g1), F,
    ?_, ?_, ?_, ?_, hF, ?_, ?_, ?_, ?_, ?_⟩
  · intro l
    have := Client.mapM_map_ok PartialEvalSerde.read PartialEvalSerde.of id
      (l.map (fun i => DkgShareKey.evaluate keccak h2c ⟨i, Spec.poly F (i : Fr),
        Spec.poly F (i : Fr) • g1⟩ input 5)) (fun p _ => C17_roundtrip.2.2.2.2.2.1 p)
    rw [List.map_id] at this
    exact this
  · exact C17_points.2.2.2.2.2 _
  · have := Client.mapM_map_ok PointSerde.toG1 PointSerde.ofG1 id
      ((List.range 3).map (fun i => Spec.poly F ((i + 1 : ℕ) : Fr) • g1)) (fun p _ => C17_points.2.2.2.1 p)
    rw [List.map_id] at this
    exact this
  · rfl
  · change Spec.ValidIndices 3 [1, 3]
    unfold Spec.ValidIndices
    decide
  · rw [k13]; exact le_refl 2
  · intro e he _
    obtain ⟨i, hi, rfl⟩ := List.mem_map.1 he
    rfl
  · rw [k31]; exact le_refl 2
  · rw [k31]
    intro h
    change [3, 1].Pairwise (· < ·) at h
    revert h; decide

end Verif.Props
