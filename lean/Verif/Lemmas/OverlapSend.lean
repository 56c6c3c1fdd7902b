import Verif.Lemmas.Overlap
namespace Verif.Overlap
open Verif.Services
open Verif.ZkdvrfPre
open Verif.Props

/-! What the services send when their passes overlap. -/

open Zkdvrf in
/-- A member can evaluate for the current round, whether or not the round is complete. -/
theorem evaluate_any (env : Env) {s : Zkdvrf.State} (hr : Zkdvrf.Reachable env s) (hp : s.contractPhase = .Ready)
    (hs : Spec.SnarkSound env s.threshold s.memberCount) (a : Address)
    (ha : Zkdvrf.Registered s a) (sk : Fq) (hk : s.pkList[Zkdvrf.indexOf s a]? = some (keyWords (sk • gk)))
    (nonce : Fr) :
    ∃ i gf vf f e w, Zkdvrf.getIndexPlus s a = some i ∧
      Client.derive ⟨s.threshold, s.memberCount⟩ (Client.instancesFile s.ppList)
        (some (i, Client.keygen sk)) = .ok ⟨gf, vf, some f⟩ ∧
      Client.eval env.keccak (evalHash env.keccak) ⟨s.threshold, s.memberCount⟩ i f
        (s.roundInput s.currentRoundNum) nonce = .ok e ∧
      Client.verifyEval env.keccak (evalHash env.keccak) ⟨s.threshold, s.memberCount⟩ i e vf
        (s.roundInput s.currentRoundNum) = .ok () ∧
      Client.evalSubmission e = some w ∧ w.indexPlus = Zkdvrf.indexOf s a + 1 ∧
      (∃ vk, s.vkList[Zkdvrf.indexOf s a]? = some vk ∧ PseudoRandSol.verifyPartialEval env.keccak
        (s.roundInput s.currentRoundNum) w.value ⟨w.z, w.c⟩ vk = some true) ∧
      w.z.toNat < r ∧ ∀ v V, decodeG1 w.value = some v →
        s.vkList[Zkdvrf.indexOf s a]? = some (encodeG1 V) →
        Spec.SameLog (evalHash env.keccak (s.roundInput s.currentRoundNum)) V v := by
  obtain ⟨pks, ds, F, hv⟩ := Client.view hr hs (Or.inr hp)
  have hreg := regInv hr
  have hb := hreg.bound
  have hi : Zkdvrf.indexOf s a < s.memberCount := by
    have h1 := (hreg.reg_idx a ha).1
    have h2 := hreg.started (by rw [hp]; exact Phase.noConfusion)
    unfold Zkdvrf.indexOf
    omega
  have hidx : Zkdvrf.getIndexPlus s a = some (Zkdvrf.indexOf s a + 1) := by
    unfold Zkdvrf.getIndexPlus u32
    exact if_pos (by change Zkdvrf.indexOf s a + 1 < _; omega)
  have hready := (dkgInv hr).ready hp
  have h2 := congrArg Prod.snd ((hv.chain (createGpp_reduced hready) _ _).1 hready).2
  dsimp only at h2
  have hvk : s.vkList[Zkdvrf.indexOf s a]? =
      some (encodeG1 (Spec.poly F ((Zkdvrf.indexOf s a + 1 : ℕ) : Fr) • g1)) := by
    rw [h2, List.getElem?_map, List.getElem?_range hi, Option.map_some]
  have hci : Client.checkIndex ⟨s.threshold, s.memberCount⟩ (Zkdvrf.indexOf s a + 1) = .ok () := by
    unfold Client.checkIndex
    rw [if_neg]
    simp only
    omega
  refine ⟨Zkdvrf.indexOf s a + 1, _, _, _, PartialEvalSerde.of (DkgShareKey.evaluate env.keccak
    (evalHash env.keccak) ⟨Zkdvrf.indexOf s a + 1, Spec.poly F ((Zkdvrf.indexOf s a + 1 : ℕ) : Fr),
      Spec.poly F ((Zkdvrf.indexOf s a + 1 : ℕ) : Fr) • g1⟩ (s.roundInput s.currentRoundNum) nonce),
    evalWords (DkgShareKey.evaluate env.keccak
    (evalHash env.keccak) ⟨Zkdvrf.indexOf s a + 1, Spec.poly F ((Zkdvrf.indexOf s a + 1 : ℕ) : Fr),
      Spec.poly F ((Zkdvrf.indexOf s a + 1 : ℕ) : Fr) • g1⟩ (s.roundInput s.currentRoundNum) nonce),
    hidx, view_share hv hi hk, ?_, ?_, ?_, rfl, ⟨_, hvk,
      C21_honest_accepted env.keccak _ (input_ok hr _) _ nonce _⟩, ?_, ?_⟩
  · unfold Client.eval
    rw [hci, ok_bind', C17_roundtrip.2.1 _ rfl]
    rfl
  · unfold Client.verifyEval
    rw [hci, ok_bind', C17_roundtrip.2.2.2.2.2.1, Verif.Props.lift_bind, read_vks, Verif.Props.lift_bind]
    have : getOrPanic ((List.range s.memberCount).map
        (fun j => Spec.poly F ((j + 1 : ℕ) : Fr) • g1)) (Zkdvrf.indexOf s a + 1 - 1) =
        .ok (Spec.poly F ((Zkdvrf.indexOf s a + 1 : ℕ) : Fr) • g1) := by
      unfold getOrPanic
      rw [Nat.add_sub_cancel, List.getElem?_map, List.getElem?_range hi]
      rfl
    rw [this, Verif.Props.lift_bind, evaluate_verifies env.keccak (evalHash env.keccak)
      ⟨s.threshold, s.memberCount⟩ ⟨Zkdvrf.indexOf s a + 1, Spec.poly F ((Zkdvrf.indexOf s a + 1 : ℕ) : Fr), _⟩ rfl
      (Nat.succ_le_succ (Nat.zero_le _)) hi]
    rfl
  · unfold Client.evalSubmission PartialEvalSerde.of PointSerde.ofG1
    simp only [Client.wordOfHex_Fr, Client.wordOfHex_Fq]
    rfl
  · exact wordOf_lt_r _
  · intro v V h3 h4
    have h5 := (decode_encode _).symm.trans h3
    rw [hvk] at h4
    exact ⟨_, (encodeG1_inj (Option.some.inj h4)).symm, (Option.some.inj h5).symm⟩

section
variable {M : Machine} {o : Address} {ws : List Address} {t n : ℕ} {p : State} {ad : Files}
  {nd : Address → Files}

/-- New files of node `a`. -/
theorem Core.files (h : Core M o ws t n p ad nd) (a : Address) (f : Files)
    (h1 : Registered p a → f.member = (nd a).member)
    (h2 : p.lastSubmittedRound a ≠ 0 → HasShare t n p f a) :
    Core M o ws t n p ad (Function.update nd a f) := by
  refine { h with keys := ?_, shr := ?_ }
  · intro b hb
    obtain ⟨sk, k1, k2, k3⟩ := h.keys b hb
    refine ⟨sk, k1, ?_, k3⟩
    by_cases hba : b = a
    · subst hba; rw [Function.update_self, h1 hb]; exact k2
    · rw [Function.update_of_ne hba]; exact k2
  · intro b hb
    by_cases hba : b = a
    · subst hba; rw [Function.update_self]; exact h2 hb
    · rw [Function.update_of_ne hba]; exact h.shr b hb

theorem Core.early (h : Core M o ws t n p ad nd) (hp : p.contractPhase ≠ .Ready) (a : Address) :
    p.lastSubmittedRound a = 0 := (Props.early h.reach h.ht hp).1 a

theorem run_register (h : Core M o ws t n p ad nd) {a : Address} (ha : a ∈ ws)
    (hst : (p.addrToNode a).status = false) (d : Draw) (hd : d.sk ≠ 0) (k : ℕ) :
    ∃ f c, Services.registerNode (nd a) d = .send f c ∧ SentOk M t n p f a k c ∧
      Core M o ws t n p ad (Function.update nd a f) := by
  obtain ⟨hx, o1, o2, hz⟩ := sim h.reach h.ht
  have hp := h.unreg ha hst
  have hnr : ¬ Registered p a := by
    unfold Registered; rw [hst]; exact Bool.noConfusion
  obtain ⟨r1, -, -⟩ := C54_register M.env hz (toZk_unreg.2 (Or.inl hp)) ⟨a, 0⟩
    ((h.added a).2 ha) hnr (by change p.minNodeDeposit ≤ 0; rw [h.dep]) d.sk
  refine ⟨{ nd a with member := some (Client.keygen d.sk) },
    .registerNode (Zkdvrf.keyWords (d.sk • gk)), ?_, ⟨hst, d.sk, hd, rfl, rfl⟩, ?_⟩
  · unfold Services.registerNode
    dsimp only
    rw [r1]
  · exact h.files a _ (fun hr => absurd hr hnr)
      (fun h0 => absurd (h.early (by rw [hp]; exact Phase.noConfusion) a) h0)

theorem Core.keys_ok (h : Core M o ws t n p ad nd) :
    ∀ k ∈ p.pkList, ∃ P : Gk, P ≠ 0 ∧ k = Zkdvrf.keyWords P := by
  intro k hk
  obtain ⟨i, hi, rfl⟩ := List.mem_iff_getElem.1 hk
  obtain ⟨a, ha, hai⟩ := (C31_pre_registration M.env h.reach h.ht).2.2.2.1 i hi
  obtain ⟨sk, k1, _, k3⟩ := h.keys a ha
  refine ⟨sk • gk, ?_, ?_⟩
  · intro h0
    rcases smul_Gk_eq_zero h0 with h0 | h0
    · exact k1 h0
    · exact gk_ne_zero h0
  · rw [hai, List.getElem?_eq_getElem hi] at k3
    exact Option.some.inj k3

theorem run_deal {aux1 : G1} {aux2 : G2} (hM : Faithful M t n aux1 aux2) (h : Core M o ws t n p ad nd)
    {a : Address} (ha : a ∈ ws) (hk : 2 ≤ p.contractPhase.rank)
    (hst : (p.addrToNode a).statusPP = false) (d : Draw) (hd : GoodDraw t n aux1 aux2 d) (k : ℕ) :
    ∃ f c, submitPP M p a (nd a) d = .send f c ∧ SentOk M t n p f a k c ∧
      Core M o ws t n p ad (Function.update nd a f) := by
  have hp := h.dealing ha hk hst
  obtain ⟨hx, o1, o2, hz⟩ := sim h.reach h.ht
  obtain ⟨hself, ha0⟩ := h.self ha
  obtain ⟨c1, c2, _, _, c5, _, c7⟩ := C31_pre_registration M.env h.reach h.ht
  obtain ⟨c7, c8⟩ := c7 (by rw [hp]; exact Phase.noConfusion)
  have hra := c8 a ((h.added a).2 ha)
  have hlt := c2 a hra
  have hb : 7 * p.memberCount + 14 < 2 ^ 32 := (Zkdvrf.regInv hz).bound
  have hidx : getIndexPlus p a = some (indexOf p a + 1) := by
    unfold getIndexPlus u32
    exact if_pos (by change indexOf p a + 1 < _; omega)
  have hthr := h.thr
  have hcnt := h.cnt
  obtain ⟨pr, file, pp, s', q1, q2, q3, q4, q5, q6⟩ := C54_prove M.env hz (toZk_nidkg.2 hp)
    h.keys_ok h.ht aux1 aux2 hM.table1 hM.order2 hM.table2 M.prover M.verifier
    (by change ∀ ins, DkgCircuit.synthesize ⟨p.threshold, p.memberCount⟩ aux1 aux2 ins → _
        rw [h.thr, h.cnt]; exact hM.proves)
    (indexOf p a + 1) (Nat.le_add_left _ _) (by change indexOf p a + 1 ≤ p.memberCount; omega)
    M.infPanics d.stream
    (by change d.stream p.threshold ≠ 0; rw [h.thr]; exact hd.enc) hd.use1 hd.use2
    (by change ∀ i, 1 ≤ i → i ≤ p.memberCount → Spec.Usable g1 aux1
          (Spec.poly ((List.range p.threshold).map d.stream) (i : Fr))
        rw [h.thr, h.cnt]; exact hd.shares) a hra hst
  obtain ⟨p', o1', o2', he, hs'⟩ := sim_back hz hx ha0 (by have := h.t_pos; have := h.t_le; omega) (Or.inl rfl) q4
  obtain ⟨_, _, _, _, z1, z2, _, _⟩ := submitPublicParams_some.1 he
  refine ⟨nd a, .submitPublicParams pp pr, ?_, ⟨hk, hst, by rw [← hcnt]; exact q6, z1, z2⟩, ?_⟩
  · unfold submitPP
    dsimp only
    rw [hidx]
    dsimp only
    have q1' : Client.prove M.prover M.infPanics (config p) (indexOf p a + 1)
      (Client.mpksFile p.pkList) d.stream = .ok (pr, file) := q1
    have q2' : Client.dkgVerify M.verifier (config p) (indexOf p a + 1) pr file
      (Client.mpksFile p.pkList) = .ok () := q2
    rw [q1']
    dsimp only
    rw [q2']
    dsimp only
    rw [q3]
  · rw [Function.update_eq_self]
    exact h

/-- An evaluation that derives its share, or has it. -/
theorem run_eval_any (hM : Spec.SnarkSound M.env t n) (h : Core M o ws t n p ad nd) {a : Address} (ha : a ∈ ws)
    (hp : p.contractPhase = .Ready) {b : Bool} (hb : b = false → p.lastSubmittedRound a ≠ 0)
    (d : Draw) :
    ∃ f e, nodeRun M p a (nd a) d (.eval b) = .send f (.submitPartialEval e) ∧ HasShare t n p f a ∧
      e.indexPlus = indexOf p a + 1 ∧ RightEval M p p.currentRoundNum (indexOf p a) e ∧
      (∃ vk, p.vkList[indexOf p a]? = some vk ∧
        PseudoRandSol.verifyPartialEval M.env.keccak (p.roundInput p.currentRoundNum) e.value ⟨e.z, e.c⟩ vk =
          some true) ∧
      Core M o ws t n p ad (Function.update nd a f) := by
  have hthr := h.thr
  have hcnt := h.cnt
  obtain ⟨hx, o1, o2, hz⟩ := sim h.reach h.ht
  have hra := h.registered ha (by rw [hp]; exact Phase.noConfusion)
  obtain ⟨sk, k1, k2, k3⟩ := h.keys a hra
  obtain ⟨i, gf, vf, f, e, u, q1, q2, q3, q4, q5, q6, q7, q8, q9⟩ := evaluate_any M.env hz
    (toZk_ready.2 hp) (by change Spec.SnarkSound M.env p.threshold p.memberCount; rw [h.thr, h.cnt]; exact hM)
    a hra sk k3 d.nonce
  have q1 : getIndexPlus p a = some i := q1
  have q2 : Client.derive (config p) (Client.instancesFile p.ppList) (some (i, Client.keygen sk)) =
    .ok ⟨gf, vf, some f⟩ := q2
  have q3 : Client.eval M.env.keccak (evalHash M.env.keccak) (config p) i f
        (p.roundInput p.currentRoundNum) d.nonce = .ok e := q3
  have q4 : Client.verifyEval M.env.keccak (evalHash M.env.keccak) (config p) i e vf
        (p.roundInput p.currentRoundNum) = .ok () := q4
  have hsub : ∀ g : Files, g.share = some f → g.vks = some vf →
      Services.submitPartialEval M p a g d = .send g (.submitPartialEval u) := by
    intro g g1 g2
    unfold Services.submitPartialEval
    dsimp only
    rw [q1, g1, g2]
    dsimp only
    rw [q3]
    dsimp only
    rw [q4]
    dsimp only
    rw [q5]
  have hfiles : ∃ g : Files, nodeRun M p a (nd a) d (.eval b) = .send g (.submitPartialEval u) ∧
      g.member = some (Client.keygen sk) ∧ g.share = some f ∧ g.vks = some vf := by
    unfold nodeRun
    dsimp only
    by_cases h0 : b = true
    · rw [if_pos h0]
      refine ⟨{ nd a with gpk := some gf, vks := some vf, share := some f }, ?_, k2, rfl, rfl⟩
      have : nidkgDerive p a (nd a) =
          some { nd a with gpk := some gf, vks := some vf, share := some f } := by
        unfold nidkgDerive
        rw [q1, k2]
        dsimp only
        rw [q2]
        dsimp only
        rw [k2]
      rw [this]
      exact hsub _ rfl rfl
    · rw [if_neg h0]
      obtain ⟨sk', i', gf', vf', f', m1, m2, m3, m4, m5, m6⟩ := h.shr a (hb (Bool.not_eq_true _ ▸ h0))
      have hkk : Client.keygen sk' = Client.keygen sk := Option.some.inj (m1.symm.trans k2)
      have hii : i' = i := Option.some.inj (m3.symm.trans q1)
      rw [hkk, hii, ← hthr, ← hcnt] at m4
      have heq := Except.ok.inj (m4.symm.trans q2)
      have hf : some f' = some f := congrArg Client.DeriveOut.share heq
      have hv : vf' = vf := congrArg Client.DeriveOut.vks heq
      refine ⟨nd a, hsub _ (m5.trans hf) (by rw [m6, hv]), k2, m5.trans hf, by rw [m6, hv]⟩
  obtain ⟨g, g1, g2, g3, g4⟩ := hfiles
  have hsh : HasShare t n p g a := by
    refine ⟨sk, i, gf, vf, f, g2, k3, q1, ?_, g3, g4⟩
    rw [← hthr, ← hcnt]
    exact q2
  refine ⟨g, u, g1, hsh, q6, ⟨q8, q9⟩, q7, ?_⟩
  exact h.files a g (fun _ => g2.trans k2.symm) (fun _ => hsh)

theorem run_eval (hM : Spec.SnarkSound M.env t n) (h : Core M o ws t n p ad nd) {a : Address} (ha : a ∈ ws)
    (hl : p.lastSubmittedRound a < p.currentRoundNum) {b : Bool} (hb : b = true ↔ p.lastSubmittedRound a = 0)
    (d : Draw) :
    ∃ f c, nodeRun M p a (nd a) d (.eval b) = .send f c ∧ SentOk M t n p f a p.currentRoundNum c ∧
      Core M o ws t n p ad (Function.update nd a f) := by
  obtain ⟨g, u, h1, h2, h3, h4, h5, h6⟩ := run_eval_any hM h ha (h.ready hl) (b := b)
    (fun hf h0 => by rw [hb.2 h0] at hf; cases hf) d
  exact ⟨g, .submitPartialEval u, h1, ⟨by omega, le_rfl, hl, h2, h3, h4, h5⟩, h6⟩

theorem run_gpp (hM : Spec.SnarkSound M.env t n) (h : Core M o ws t n p ad nd)
    (hp : p.contractPhase = .NidkgComplete) :
    ∃ f c, Services.createGpp p ad = .send f c ∧ AdminSent M t n p f c ∧ Core M o ws t n p f nd := by
  have hthr := h.thr
  have hcnt := h.cnt
  obtain ⟨hx, o1, o2, hz⟩ := sim h.reach h.ht
  obtain ⟨gf, vf, gpk, q1, q2, q3, q4⟩ := C53_compute_vk M.env hz (toZk_complete.2 hp)
    (by change Spec.SnarkSound M.env p.threshold p.memberCount; rw [h.thr, h.cnt]; exact hM) o
  have q1' : Client.derive (config p) (Client.instancesFile p.ppList) none = .ok ⟨gf, vf, none⟩ := q1
  obtain ⟨s', hs'⟩ := q3.2 (by
    intro v hv
    change Spec.Reduced p.memberCount v
    rw [h.cnt]
    exact h.red v hv)
  obtain ⟨p', o1', o2', he, -⟩ := sim_back hz hx h.o_ne (by have := h.t_pos; have := h.t_le; omega) (Or.inl rfl) hs'
  obtain ⟨_, _, out, ho, _⟩ := computeVk_some.1 he
  refine ⟨{ ad with gpk := some gf, vks := some vf }, .computeVk gpk, ?_, ⟨hp, ⟨out, ho⟩, gf, vf, ?_, rfl, rfl⟩, ?_⟩
  · unfold Services.createGpp
    rw [q1']
    dsimp only
    rw [q2]
  · rw [← hthr, ← hcnt]
    exact q1'
  · refine { h with adm := ?_ }
    intro hc; rw [hp] at hc; cases hc

theorem run_random (hM : Spec.SnarkSound M.env t n) (h : Core M o ws t n p ad nd)
    (hp : p.contractPhase = .Ready) (h0 : p.currentRoundNum ≠ 0)
    (hopen : (p.roundToRandom p.currentRoundNum).value = 0)
    (hq : p.threshold ≤ p.roundSubmissionCount p.currentRoundNum) :
    ∃ c, createRandom M p ad = .send ad c ∧ AdminSent M t n p ad c := by
  have hthr := h.thr
  have hcnt := h.cnt
  obtain ⟨hx, o1, o2, hz⟩ := sim h.reach h.ht
  obtain ⟨gf, vf, a1, a2, a3⟩ := h.adm hp
  obtain ⟨gf', vf', q1, out, q2, rnd, q3, s', q4, q5⟩ := C52_combine_with_derived_files M.env hz
    (toZk_ready.2 hp) (fun hc => hc hopen) h.ht
    (by change Spec.SnarkSound M.env p.threshold p.memberCount; rw [h.thr, h.cnt]; exact hM)
    hq (fun i hi => (h.evs _ i hi).1) (fun i hi => (h.evs _ i hi).2)
  have q1 : Client.derive ⟨p.threshold, p.memberCount⟩ (Client.instancesFile p.ppList) none =
      .ok ⟨gf', vf', none⟩ := q1
  rw [hthr, hcnt] at q1
  have heq := Except.ok.inj (q1.symm.trans a1)
  have hg : gf' = gf := congrArg Client.DeriveOut.gpk heq
  have hv : vf' = vf := congrArg Client.DeriveOut.vks heq
  have q2 : Client.combine M.env.E M.env.keccak (evalHash M.env.keccak) (config p)
    (Client.evalsFile p.memberCount (p.roundToEval p.currentRoundNum)) gf' vf'
    (p.roundInput p.currentRoundNum) false = .ok out := q2
  rw [hg, hv] at q2
  have qv := (C46_output_verifies _ _ _ _ _ _ _ _ _ _ q2).2
  have q4' : Zkdvrf.exec M.env (p.toZk o1 o2) ⟨o, 0⟩ (.submitRandom rnd) = some s' := by
    rw [← h.owner]; exact q4
  obtain ⟨p', o1', o2', he, -⟩ := sim_back hz hx h.o_ne (by have := h.t_pos; have := h.t_le; omega)
    (Or.inr ⟨by omega, hq⟩) q4'
  obtain ⟨_, _, _, _, z5, z6, _⟩ := submitRandom_some.1 he
  refine ⟨.submitRandom rnd, ?_, ⟨hp, hopen, hq, z5, z6⟩⟩
  unfold createRandom
  dsimp only
  rw [a2, a3]
  dsimp only
  rw [q2]
  dsimp only
  rw [qv]
  dsimp only
  rw [q3]

end

end Verif.Overlap
