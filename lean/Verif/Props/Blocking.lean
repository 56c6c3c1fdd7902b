import Verif.Props.Liveness

/-! Property C41, the limits of liveness: unreduced coordinates block the contract for good. -/

namespace Verif.Props
open Verif Zkdvrf WeierstrassCurve.Affine DkgCircuit

/-- C41 (limit). Once parameters with an unreduced coordinate are stored, the contract never becomes
`Ready`, whatever anybody does. -/
theorem C41_violation_unreduced_blocks (env : Env) {s : State} (hr : Reachable env s)
    (w : List Word) (hw : w ∈ s.ppList) (hn : ¬ Spec.Reduced s.memberCount w)
    {s' : State} (hl : Later env s s') : s'.contractPhase ≠ .Ready := by
  intro hp
  have hk := hl.keeps hr
  apply hn
  rw [← hk.memberCount]
  exact createGpp_reduced ((dkgInv (hl.reachable hr)).ready hp) w (hk.ppList.subset hw)

/-- An instance with an unreduced coordinate with which the circuit can be satisfied: the constant
polynomial 1, whose public value is `(1, 2)`, given as `(1 + q, 2)`. -/
theorem unreduced_submission {t n : ℕ} (ht : 0 < t) (hn : 1 ≤ n) (hb : n < 2 ^ 32)
    (auxG1 : G1) (auxG2 : G2) (h1 : Spec.TableFits 3 g1 auxG1) (h2 : r • auxG2 = 0)
    (h3 : Spec.TableFits 3 g2 auxG2) (hu1 : Spec.Usable g1 auxG1 1) (hu2 : Spec.Usable g2 auxG2 1)
    (pks : List Gk) (hl : pks.length = n) (hpk : ∀ P ∈ pks, P ≠ 0) :
    ∃ ins, synthesize ⟨t, n⟩ auxG1 auxG2 ins ∧ (wordsOf ins).length = 7 * n + 14 ∧
      (wordsOf ins).drop (5 * n + 14) = (pks.map keyWords).flatMap (fun k => [k.x, k.y]) ∧
      ¬ Spec.Reduced n (wordsOf ins) := by
  let draw : ℕ → Fr := fun i => if i = 0 ∨ i = t then 1 else 0
  have hpoly : ∀ x : Fr, Spec.poly ((List.range t).map draw) x = 1 := by
    intro x
    obtain ⟨u, rfl⟩ : ∃ u, t = u + 1 := ⟨t - 1, by omega⟩
    have e : (List.range (u + 1)).map draw = 1 :: List.replicate u 0 := by
      rw [List.range_succ_eq_map, List.map_cons, List.map_map]
      have e2 : (List.range u).map (draw ∘ Nat.succ) = List.replicate u 0 := by
        rw [List.eq_replicate_iff]
        refine ⟨by simp, ?_⟩
        intro b hb
        obtain ⟨i, hi, rfl⟩ := List.mem_map.1 hb
        have hi := List.mem_range.1 hi
        simp only [draw, Function.comp]
        rw [if_neg (by omega)]
      rw [e2]
      simp only [draw, true_or, if_true]
    rw [e, poly_cons, poly_replicate_zero, mul_zero, add_zero]
  obtain ⟨mp, ins, hnew, hins, hsyn⟩ := C29_honest_instance_satisfies true t n ht hn
    (lt_trans hb (by norm_num)) auxG1 auxG2 h1 h2 h3 pks hl hpk draw
    (by simp only [draw, or_true, if_true]; exact one_ne_zero)
    (by simp only [draw, true_or, if_true]; exact hu1)
    (by simp only [draw, true_or, if_true]; exact hu2)
    (fun i _ _ => by rw [hpoly]; exact hu1)
  have hd := new_eq_dealt t n ht hn pks hl _ mp hnew
  obtain ⟨hls, hlc⟩ := length_dealt n ((List.range t).map draw) (draw t).val pks
  rw [← hd] at hls hlc
  have hga : mp.publicParams.ga = g1 := by
    rw [hd]; simp only [dealtParams]; rw [hpoly, one_smul]
  obtain ⟨e1, e2⟩ := instance_keys hls hlc hl hins
  have hins' : ins = encParams mp.publicParams pks := by
    rw [toInstance_eq true _ pks (by rw [hls, hl])] at hins
    split at hins
    · cases hins
    · exact (Except.ok.inj hins).symm
  obtain ⟨rest, hrest⟩ : ∃ rest, ins =
      (((1 : Fq).val % 2 ^ 136 : ℕ) : Fr) :: (((1 : Fq).val / 2 ^ 136 : ℕ) : Fr) :: rest := by
    rw [hins', encParams, hga, enc1, encCoord, show coords g1 = (1, 2) from rfl]
    simp only [List.cons_append, List.append_assoc]
    exact ⟨_, rfl⟩
  rw [hrest] at hsyn
  have hroom : (1 : Fq).val + q < 2 ^ 254 := by decide +kernel
  obtain ⟨hs', _⟩ := C28_violation_unreduced_coordinates t n ht (lt_trans hb (by norm_num)) auxG1 auxG2
    (1 : Fq) rest hroom hsyn
  refine ⟨_, hs', ?_, ?_, ?_⟩
  · rw [hrest] at e1
    simpa only [wordsOf, List.length_map, List.length_cons] using e1
  · rw [hrest] at e2
    rw [← e2]
    simp only [wordsOf_cons]
    rw [show 5 * n + 14 = (5 * n + 12) + 1 + 1 by ring]
    simp only [List.drop_succ_cons]
  · intro hred
    have := hred 0 (by omega)
    simp only [wordsOf_cons, Nat.mul_zero, Nat.zero_add, List.getD_cons_zero, List.getD_cons_succ,
      word_val, cell_lo_val, cell_hi_val hroom, Nat.mod_add_div] at this
    omega

/-- C41 (limit). During the DKG any single member that has not submitted yet can, with an accepted
proof, submit parameters after which the contract never becomes `Ready`: nobody can remove them.  (The
proof system accepts what satisfies the circuit, and the auxiliary points are such that the circuit can
multiply by 1.) -/
theorem C41_violation_member_can_block (env : Env) {s : State} (hr : Reachable env s)
    (hp : s.contractPhase = .Nidkg) (ht : 0 < s.threshold)
    (auxG1 : G1) (auxG2 : G2) (h1 : Spec.TableFits 3 g1 auxG1) (h2 : r • auxG2 = 0)
    (h3 : Spec.TableFits 3 g2 auxG2) (hu1 : Spec.Usable g1 auxG1 1) (hu2 : Spec.Usable g2 auxG2 1)
    (hc : ∀ ins, synthesize ⟨s.threshold, s.memberCount⟩ auxG1 auxG2 ins →
      ∃ proof, env.verifyProof proof (wordsOf ins) = some true)
    (hk : ∀ k ∈ s.pkList, ∃ P : Gk, P ≠ 0 ∧ k = keyWords P)
    (a : Address) (ha : Registered s a) (hnew : (s.addrToNode a).statusPP = false) :
    ∃ pp proof s1, exec env s ⟨a, 0⟩ (.submitPublicParams pp proof) = some s1 ∧
      ∀ s2, Later env s1 s2 → s2.contractPhase ≠ .Ready := by
  have hreg := regInv hr
  have hb := hreg.bound
  obtain ⟨pks, e1, e2⟩ := keys_exist _ hk
  have hstart : s.registeredCount = s.memberCount :=
    hreg.started (by rw [hp]; exact Phase.noConfusion)
  have hl : pks.length = s.memberCount := by
    have := hreg.pkLen
    rw [e1, List.length_map] at this
    rw [this, hstart]
  have hidx := hreg.reg_idx a ha
  have hself := hidx.2.2.1
  have hpos : 1 ≤ s.memberCount := by have := hidx.1; omega
  obtain ⟨ins, i1, i2, i3, i4⟩ := unreduced_submission ht hpos (by omega) auxG1 auxG2 h1 h2 h3 hu1 hu2
    pks hl e2
  obtain ⟨proof, hv⟩ := hc ins i1
  have hchk : checkPublicParams s (wordsOf ins) = some true :=
    (checkPublicParams_true hreg.len hreg.bound _).2
      ⟨by rw [e1, List.length_map, hl], i2, by rw [i3, e1]⟩
  have hcount : s.ppSubmissionCount < s.memberCount := by
    rcases (dkgInv hr).nidkg hp with h | h
    · exact h
    · omega
  have h0 : a ≠ 0 := by
    intro h0
    subst h0
    have := ha
    rw [Registered, hreg.empty 0 hself] at this
    cases this
  have he : exec env s ⟨a, 0⟩ (.submitPublicParams (wordsOf ins) proof) = some _ :=
    submitPublicParams_some.2 ⟨rfl, hself.symm, hp, hnew, hchk, hv, by omega, rfl⟩
  refine ⟨_, _, _, he, fun s2 hl2 => ?_⟩
  refine C41_violation_unreduced_blocks env (hr.call (m := ⟨a, 0⟩) h0 he) (wordsOf ins) ?_ i4 hl2
  simp only [List.mem_append, List.mem_singleton, or_true]

/-- The hypotheses are met: two members, both registered, none has submitted yet. -/
example : ∃ s a, Reachable (toyEnv 1 2) s ∧ s.contractPhase = .Nidkg ∧ Registered s a ∧
    ∃ pp proof s1, exec (toyEnv 1 2) s ⟨a, 0⟩ (.submitPublicParams pp proof) = some s1 ∧
      ∀ s2, Later (toyEnv 1 2) s1 s2 → s2.contractPhase ≠ .Ready := by
  obtain ⟨s0, d1, d2, d3, d4, d5, d6, d7⟩ := toy_deploy
  obtain ⟨s, a1, a2, a3, d, a4, a5⟩ := start (keyWords gk) (key_on_curve gk_ne_zero) d1 d2
    (by rw [d5]; decide)
  have hr := a1.reachable d1
  have hkp := a1.keeps d1
  have hreg := regInv hr
  have hrc : s.registeredCount = 2 := by
    rw [hreg.started (by rw [a2]; exact Phase.noConfusion), hkp.memberCount, d3]
  obtain ⟨hst, _⟩ := hreg.reg_node 0 (by omega)
  have hnone : ∀ a, (s.addrToNode a).statusPP = false := by
    intro a
    cases h : (s.addrToNode a).statusPP with
    | false => rfl
    | true =>
      exfalso
      have h1 := ((dkgInv hr).ppMem a).2 h
      have h2 : s.ppListOrder.length = 0 := by
        rw [(dkgInv hr).ordLen, ← (dkgInv hr).ppLen, a5, d7]; rfl
      rw [List.length_eq_zero_iff.1 h2] at h1
      cases h1
  have hu1 : Spec.Usable g1 (5 • g1) ((1 : ℕ) : Fr) :=
    ⟨1, by norm_num, rfl, FixedPoint.fitsN_spec addOrderOf_g1 (by decide +kernel)⟩
  have hu2 : Spec.Usable g2 FixedPoint.aux2 ((1 : ℕ) : Fr) :=
    ⟨1, by norm_num, rfl, FixedPoint.fits3N_spec (by decide +kernel)⟩
  rw [Nat.cast_one] at hu1 hu2
  refine ⟨s, s.nodes 0, hr, a2, hst, ?_⟩
  refine C41_violation_member_can_block (toyEnv 1 2) hr a2 (by rw [hkp.threshold, d4]; norm_num)
    (5 • g1) FixedPoint.aux2 (FixedPoint.tableFitsN_spec addOrderOf_g1 (by decide +kernel))
    FixedPoint.r_nsmul_aux2 FixedPoint.aux2_tableFits hu1 hu2 ?_ ?_ _ hst (hnone _)
  · intro ins h
    rw [hkp.threshold, hkp.memberCount, d3, d4] at h
    classical
    exact ⟨[], congrArg some (decide_eq_true ⟨ins, rfl, h⟩)⟩
  · intro k hk
    rw [a4, d6, List.nil_append] at hk
    exact ⟨gk, gk_ne_zero, List.eq_of_mem_replicate hk⟩

end Verif.Props
