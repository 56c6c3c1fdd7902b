import Verif.Props.Services
namespace Verif.Props
open Verif.Services
open Verif.ZkdvrfPre

/-! ### C55: honest services -/

/-- Number of transactions that lead to a state. -/
noncomputable def work (t n : ℕ) (p : State) : ℕ :=
  match p.contractPhase with
  | .Unregistered => p.pkList.length
  | .Registered => p.pkList.length
  | .Nidkg => n + 1 + p.ppList.length
  | .NidkgComplete => 2 * n + 1
  | .Ready => 2 * n + 2 + if p.currentRoundNum = 0 then 0 else (p.currentRoundNum - 1) * (t + 2) + 1 +
      p.roundSubmissionCount p.currentRoundNum +
      if (p.roundToRandom p.currentRoundNum).value = 0 then 0 else 1

structure SInv (M : Machine) (o : Address) (ws : List Address) (t n N : ℕ) (w : World) :
    Prop where
  reach : Reachable M.env w.p
  owner : w.p.owner = o
  thr : w.p.threshold = t
  cnt : w.p.memberCount = n
  dep : w.p.minNodeDeposit = 0
  added : ∀ a, Added w.p a ↔ a ∈ ws
  keys : ∀ a, Registered w.p a → ∃ sk : Fq, sk ≠ 0 ∧ (w.node a).member = some (Client.keygen sk) ∧
    w.p.pkList[indexOf w.p a]? = some (Zkdvrf.keyWords (sk • gk))
  red : ∀ v ∈ w.p.ppList, Spec.Reduced n v
  adm : w.p.contractPhase = .Ready → ∃ gf vf,
    Client.derive ⟨t, n⟩ (Client.instancesFile w.p.ppList) none = .ok ⟨gf, vf, none⟩ ∧
    w.admin.gpk = some gf ∧ w.admin.vks = some vf
  shr : ∀ a, w.p.lastSubmittedRound a ≠ 0 → ∃ sk i gf vf f,
    (w.node a).member = some (Client.keygen sk) ∧
    w.p.pkList[indexOf w.p a]? = some (Zkdvrf.keyWords (sk • gk)) ∧ getIndexPlus w.p a = some i ∧
    Client.derive ⟨t, n⟩ (Client.instancesFile w.p.ppList) (some (i, Client.keygen sk)) =
      .ok ⟨gf, vf, some f⟩ ∧ (w.node a).share = some f ∧ (w.node a).vks = some vf
  evs : ∀ k i, Submitted w.p k i → (w.p.roundToEval k i).z.toNat < r ∧
    ∀ v V, decodeG1 (w.p.roundToEval k i).value = some v → w.p.vkList[i]? = some (encodeG1 V) →
      Spec.SameLog (evalHash M.env.keccak (w.p.roundInput k)) V v
  cnts : ∀ k, w.p.roundSubmissionCount k ≤ t
  tx : N = work t n w.p

/-- The contract accepts, and the new world is again as it should be. -/
private def Next (M : Machine) (o : Address) (ws : List Address) (t n N : ℕ) (p : State) (a : Address)
    (mk : State → Files → World) (out : Out) : Prop :=
  ∃ f c p', out = .send f c ∧ exec M.env p ⟨a, 0⟩ c = some p' ∧ SInv M o ws t n (N + 1) (mk p' f)

theorem reach_next {M : Machine} {p p' : State} {a : Address} {c : Zkdvrf.Call}
    (h : Reachable M.env p) (ha : a ≠ 0) (he : exec M.env p ⟨a, 0⟩ c = some p') :
    Reachable M.env p' := by
  have := Reachable.step (.call ⟨a, 0⟩ c) ha h
  rwa [step_some he] at this

theorem self_of {M : Machine} {o : Address} {ws : List Address} {t n N : ℕ} {w : World}
    (ht : 1 ≤ t) (h : SInv M o ws t n N w) {a : Address} (ha : a ∈ ws) :
    (w.p.addrToNode a).nodeAddress = a ∧ a ≠ 0 := by
  obtain ⟨_, o1, o2, hz⟩ := sim h.reach (by rw [h.thr]; exact ht)
  have hadd := (h.added a).2 ha
  have hs : (w.p.addrToNode a).nodeAddress = a := (Zkdvrf.regInv hz).addr_self a hadd
  refine ⟨hs, ?_⟩
  rintro rfl
  exact hadd hs

/-- Before phase `Ready` nothing has been evaluated. -/
theorem early {env : Env} {p : State} (hr : Reachable env p) (ht : 1 ≤ p.threshold)
    (hp : p.contractPhase ≠ .Ready) : (∀ a, p.lastSubmittedRound a = 0) ∧
    (∀ k i, ¬ Submitted p k i) ∧ p.currentRoundNum = 0 ∧ ∀ k, p.roundSubmissionCount k = 0 := by
  obtain ⟨hx, o1, o2, hz⟩ := sim hr ht
  have hev := Zkdvrf.evalInv hz
  have h0 : p.currentRoundNum = 0 :=
    ((Zkdvrf.dkgInv hz).pre (fun h => hp (toZk_ready.1 h))).2.2
  have hs : ∀ k i, ¬ Submitted p k i := by
    intro k i hi
    have := (hev.stored k i hi).1
    change 1 ≤ k ∧ k ≤ p.currentRoundNum at this
    omega
  refine ⟨fun a => ?_, hs, h0, fun k => ?_⟩
  · have := hev.last_le a
    change p.lastSubmittedRound a ≤ p.currentRoundNum at this
    omega
  · refine (hev.count k).trans ?_
    rw [Finset.card_eq_zero, Finset.filter_eq_empty_iff]
    intro i _
    exact hs k i

private theorem step_register {M : Machine} {o : Address} {ws : List Address} {t n N : ℕ} {w : World}
    (ht : 1 ≤ t) (hn : 1 ≤ n) (h : SInv M o ws t n N w) {a : Address} (ha : a ∈ ws)
    (hp : w.p.contractPhase = .Unregistered) (hst : (w.p.addrToNode a).status = false) (d : Draw)
    (hd : d.sk ≠ 0) :
    Next M o ws t n N w.p a (fun p' f => { w with p := p', node := Function.update w.node a f })
      (registerNode (w.node a) d) := by
  obtain ⟨hx, o1, o2, hz⟩ := sim h.reach (by rw [h.thr]; exact ht)
  obtain ⟨hself, ha0⟩ := self_of ht h ha
  have hreg := Zkdvrf.regInv hz
  obtain ⟨r1, r2, _⟩ := C54_register M.env hz (toZk_unreg.2 (Or.inl hp)) ⟨a, 0⟩
    ((h.added a).2 ha) (by unfold Zkdvrf.Registered; change ¬ (w.p.addrToNode a).status = true; rw [hst]; exact Bool.noConfusion)
    (by change w.p.minNodeDeposit ≤ 0; rw [h.dep]) d.sk
  obtain ⟨s', he⟩ := r2.2 hd
  obtain ⟨p', o1', o2', he, -⟩ := sim_back hz hx ha0 (by rw [h.cnt]; omega) (Or.inl rfl) he
  refine ⟨{ w.node a with member := some (Client.keygen d.sk) },
    .registerNode (Zkdvrf.keyWords (d.sk • gk)), p', ?_, he, ?_⟩
  · unfold Services.registerNode
    dsimp only
    rw [r1]
  · have hr' := reach_next h.reach ha0 he
    obtain ⟨_, _, _, _, _, _, _, hp'⟩ := registerNode_some.1 he
    obtain ⟨e1, e2, e3, e4⟩ := early h.reach (by rw [h.thr]; exact ht) (by rw [hp]; exact Phase.noConfusion)
    have hpl : w.p.ppList = [] := (Zkdvrf.dkgInv hz).unreg (toZk_unreg.2 (Or.inl hp))
    have hlen : w.p.pkList.length = w.p.registeredCount := hreg.pkLen
    have hidx : w.p.pkListIndex = w.p.registeredCount := hreg.pkIdx
    subst hp'
    refine ⟨hr', h.owner, h.thr, h.cnt, h.dep, ?_, ?_, h.red, ?_, ?_, ?_, h.cnts, ?_⟩
    · intro b
      rw [← h.added b]
      unfold Added
      dsimp only
      by_cases hb : b = a
      · subst hb; rw [Function.update_self]
      · rw [Function.update_of_ne hb]
    · intro b hb
      unfold Registered at hb
      dsimp only [indexOf] at hb ⊢
      by_cases hba : b = a
      · subst hba
        refine ⟨d.sk, hd, ?_, ?_⟩
        · rw [Function.update_self]
        · rw [Function.update_self, hidx, ← hlen, List.getElem?_concat_length]
      · rw [Function.update_of_ne hba] at hb ⊢
        rw [Function.update_of_ne hba]
        obtain ⟨sk, k1, k2, k3⟩ := h.keys b hb
        refine ⟨sk, k1, k2, ?_⟩
        have hlt : (w.p.addrToNode b).pkIndex < w.p.pkList.length := by
          rw [hlen]; exact (hreg.reg_idx b hb).1
        rw [List.getElem?_append_left hlt]
        exact k3
    · intro hc
      exfalso
      dsimp only at hc
      split at hc
      · cases hc
      · rw [hp] at hc; cases hc
    · intro b hb
      exact absurd (e1 b) hb
    · intro k i hi
      exact absurd hi (e2 k i)
    · rw [h.tx]
      unfold work
      dsimp only
      rw [hp]
      by_cases hc : w.p.registeredCount + 1 = w.p.memberCount
      · rw [if_pos hc]; dsimp only; rw [List.length_append]; rfl
      · rw [if_neg hc]; dsimp only; rw [List.length_append]; rfl

private theorem step_start {M : Machine} {o : Address} {ws : List Address} {t n N : ℕ} {w : World}
    (ho : o ≠ 0) (ht : 1 ≤ t) (h : SInv M o ws t n N w) (hp : w.p.contractPhase = .Registered) :
    Next M o ws t n N w.p o (fun p' f => { w with p := p', admin := f })
      (.send w.admin .startNidkg) := by
  obtain ⟨hx, o1, o2, hz⟩ := sim h.reach (by rw [h.thr]; exact ht)
  have he : exec M.env w.p ⟨o, 0⟩ .startNidkg = some _ :=
    startNidkg_some.2 ⟨rfl, h.owner.symm, hp, rfl⟩
  refine ⟨w.admin, .startNidkg, _, rfl, he, ?_⟩
  have hr' := reach_next h.reach ho he
  have hpl : w.p.ppList = [] := (Zkdvrf.dkgInv hz).unreg (toZk_unreg.2 (Or.inr hp))
  refine ⟨hr', h.owner, h.thr, h.cnt, h.dep, h.added, h.keys, h.red, ?_, h.shr, h.evs, h.cnts, ?_⟩
  · intro hc; cases hc
  · rw [h.tx]
    unfold work
    rw [hp]
    dsimp only
    rw [hpl]
    have h1 := (hx.reg hp).1
    have h2 : w.p.pkList.length = w.p.registeredCount := (Zkdvrf.regInv hz).pkLen
    rw [h2, h1, h.cnt]
    rfl

private theorem keys_ok {M : Machine} {o : Address} {ws : List Address} {t n N : ℕ} {w : World}
    (ht : 1 ≤ t) (h : SInv M o ws t n N w) :
    ∀ k ∈ w.p.pkList, ∃ P : Gk, P ≠ 0 ∧ k = Zkdvrf.keyWords P := by
  intro k hk
  obtain ⟨i, hi, rfl⟩ := List.mem_iff_getElem.1 hk
  obtain ⟨a, ha, hai⟩ := (C31_pre_registration M.env h.reach (by rw [h.thr]; exact ht)).2.2.2.1 i hi
  obtain ⟨sk, k1, _, k3⟩ := h.keys a ha
  refine ⟨sk • gk, ?_, ?_⟩
  · intro h0
    rcases smul_Gk_eq_zero h0 with h0 | h0
    · exact k1 h0
    · exact gk_ne_zero h0
  · rw [hai, List.getElem?_eq_getElem hi] at k3
    exact Option.some.inj k3

private theorem step_deal {M : Machine} {o : Address} {ws : List Address} {t n N : ℕ} {w : World}
    {aux1 : G1} {aux2 : G2} (hM : Faithful M t n aux1 aux2)
    (ht : 1 ≤ t) (hn : 1 ≤ n) (h : SInv M o ws t n N w) {a : Address} (ha : a ∈ ws)
    (hp : w.p.contractPhase = .Nidkg) (hst : (w.p.addrToNode a).statusPP = false) (d : Draw)
    (hd : GoodDraw t n aux1 aux2 d) :
    Next M o ws t n N w.p a (fun p' f => { w with p := p', node := Function.update w.node a f })
      (submitPP M w.p a (w.node a) d) := by
  have ht' : 1 ≤ w.p.threshold := by rw [h.thr]; exact ht
  obtain ⟨hx, o1, o2, hz⟩ := sim h.reach ht'
  obtain ⟨hself, ha0⟩ := self_of ht h ha
  have hreg := Zkdvrf.regInv hz
  obtain ⟨c1, c2, _, _, c5, _, c7⟩ := C31_pre_registration M.env h.reach ht'
  obtain ⟨c7, c8⟩ := c7 (by rw [hp]; exact Phase.noConfusion)
  have hra := c8 a ((h.added a).2 ha)
  have hlt := c2 a hra
  have hb : 7 * w.p.memberCount + 14 < 2 ^ 32 := hreg.bound
  have hidx : getIndexPlus w.p a = some (indexOf w.p a + 1) := by
    unfold getIndexPlus u32
    exact if_pos (by change indexOf w.p a + 1 < _; omega)
  have hthr := h.thr
  have hcnt := h.cnt
  obtain ⟨pr, file, pp, s', q1, q2, q3, q4, q5, q6⟩ := C54_prove M.env hz (toZk_nidkg.2 hp)
    (keys_ok ht h) ht' aux1 aux2 hM.table1 hM.order2 hM.table2 M.prover M.verifier
    (by change ∀ ins, DkgCircuit.synthesize ⟨w.p.threshold, w.p.memberCount⟩ aux1 aux2 ins → _
        rw [h.thr, h.cnt]; exact hM.proves)
    (indexOf w.p a + 1) (Nat.le_add_left _ _) (by change indexOf w.p a + 1 ≤ w.p.memberCount; omega)
    M.infPanics d.stream
    (by change d.stream w.p.threshold ≠ 0; rw [h.thr]; exact hd.enc) hd.use1 hd.use2
    (by change ∀ i, 1 ≤ i → i ≤ w.p.memberCount → Spec.Usable g1 aux1
          (Spec.poly ((List.range w.p.threshold).map d.stream) (i : Fr))
        rw [h.thr, h.cnt]; exact hd.shares) a hra hst
  obtain ⟨p', o1', o2', he, hs'⟩ := sim_back hz hx ha0 (by omega) (Or.inl rfl) q4
  refine ⟨w.node a, .submitPublicParams pp pr, p', ?_, he, ?_⟩
  · unfold submitPP
    dsimp only
    rw [hidx]
    dsimp only
    have q1' : Client.prove M.prover M.infPanics (config w.p) (indexOf w.p a + 1)
      (Client.mpksFile w.p.pkList) d.stream = .ok (pr, file) := q1
    have q2' : Client.dkgVerify M.verifier (config w.p) (indexOf w.p a + 1) pr file
      (Client.mpksFile w.p.pkList) = .ok () := q2
    rw [q1']
    dsimp only
    rw [q2']
    dsimp only
    rw [q3]
  · have hr' := reach_next h.reach ha0 he
    obtain ⟨_, _, _, _, _, _, _, hp'⟩ := submitPublicParams_some.1 he
    obtain ⟨e1, e2, e3, e4⟩ := early h.reach ht' (by rw [hp]; exact Phase.noConfusion)
    have hlen : w.p.ppList.length = w.p.ppSubmissionCount := (Zkdvrf.dkgInv hz).ppLen
    have hup : Function.update w.node a (w.node a) = w.node := Function.update_eq_self a w.node
    have hred : Spec.Reduced n pp := by rw [← hcnt]; exact q6
    subst hp'
    beta_reduce
    rw [hup]
    refine ⟨hr', h.owner, h.thr, h.cnt, h.dep, ?_, ?_, ?_, ?_, ?_, ?_, h.cnts, ?_⟩
    · intro b
      rw [← h.added b]
      unfold Added
      dsimp only
      by_cases hb : b = a
      · subst hb; rw [Function.update_self]
      · rw [Function.update_of_ne hb]
    · intro b hb
      unfold Registered at hb
      dsimp only [indexOf] at hb ⊢
      by_cases hba : b = a
      · subst hba
        rw [Function.update_self] at hb ⊢
        exact h.keys b hb
      · rw [Function.update_of_ne hba] at hb ⊢
        exact h.keys b hb
    · intro v hv
      rcases List.mem_append.1 hv with hv | hv
      · exact h.red v hv
      · rw [List.mem_singleton.1 hv]; exact hred
    · intro hc
      exfalso
      dsimp only at hc
      split at hc
      · cases hc
      · rw [hp] at hc; cases hc
    · intro b hb
      exact absurd (e1 b) hb
    · intro k i hi
      exact absurd hi (e2 k i)
    · rw [h.tx]
      unfold work
      dsimp only
      rw [hp]
      by_cases hc : w.p.ppSubmissionCount + 1 = w.p.memberCount
      · rw [if_pos hc]; dsimp only; omega
      · rw [if_neg hc]; dsimp only; rw [List.length_append]; rfl

private theorem step_gpp {M : Machine} {o : Address} {ws : List Address} {t n N : ℕ} {w : World}
    (hM : Spec.SnarkSound M.env t n) (ho : o ≠ 0) (ht : 1 ≤ t) (hn : 1 ≤ n)
    (h : SInv M o ws t n N w) (hp : w.p.contractPhase = .NidkgComplete) :
    Next M o ws t n N w.p o (fun p' f => { w with p := p', admin := f })
      (Services.createGpp w.p w.admin) := by
  have ht' : 1 ≤ w.p.threshold := by rw [h.thr]; exact ht
  have hthr := h.thr
  have hcnt := h.cnt
  obtain ⟨hx, o1, o2, hz⟩ := sim h.reach ht'
  obtain ⟨gf, vf, gpk, q1, q2, q3, q4⟩ := C53_compute_vk M.env hz (toZk_complete.2 hp)
    (by change Spec.SnarkSound M.env w.p.threshold w.p.memberCount; rw [h.thr, h.cnt]; exact hM) o
  have q1' : Client.derive (config w.p) (Client.instancesFile w.p.ppList) none = .ok ⟨gf, vf, none⟩ := q1
  obtain ⟨s', hs'⟩ := q3.2 (by
    intro v hv
    change Spec.Reduced w.p.memberCount v
    rw [h.cnt]
    exact h.red v hv)
  obtain ⟨p', o1', o2', he, -⟩ := sim_back hz hx ho (by omega) (Or.inl rfl) hs'
  refine ⟨{ w.admin with gpk := some gf, vks := some vf }, .computeVk gpk, p', ?_, he, ?_⟩
  · unfold Services.createGpp
    rw [q1']
    dsimp only
    rw [q2]
  · have hr' := reach_next h.reach ho he
    obtain ⟨_, _, out, _, hp'⟩ := computeVk_some.1 he
    obtain ⟨e1, e2, e3, e4⟩ := early h.reach ht' (by rw [hp]; exact Phase.noConfusion)
    subst hp'
    refine ⟨hr', h.owner, h.thr, h.cnt, h.dep, h.added, h.keys, h.red, ?_, ?_, ?_, h.cnts, ?_⟩
    · intro _
      refine ⟨gf, vf, ?_, rfl, rfl⟩
      rw [← hthr, ← hcnt]
      exact q1'
    · intro b hb
      exact absurd (e1 b) hb
    · intro k i hi
      exact absurd hi (e2 k i)
    · rw [h.tx]
      unfold work
      rw [hp]
      dsimp only
      rw [if_pos e3]

private theorem step_open {M : Machine} {o : Address} {ws : List Address} {t n N : ℕ} {w : World}
    (ho : o ≠ 0) (ht : 1 ≤ t) (hn : 1 ≤ n)
    (h : SInv M o ws t n N w) (hp : w.p.contractPhase = .Ready)
    (hb : w.p.currentRoundNum + 1 < 2 ^ 256)
    (hd : w.p.currentRoundNum = 0 ∨ Completed w.p w.p.currentRoundNum) :
    Next M o ws t n N w.p o (fun p' f => { w with p := p', admin := f })
      (.send w.admin .initiateRandom) := by
  have ht' : 1 ≤ w.p.threshold := by rw [h.thr]; exact ht
  obtain ⟨hx, o1, o2, hz⟩ := sim h.reach ht'
  obtain ⟨s', hs', _⟩ := C41_round_opens M.env (s := w.p.toZk o1 o2) (toZk_ready.2 hp) hb hd
  have hs'' : Zkdvrf.exec M.env (w.p.toZk o1 o2) ⟨o, 0⟩ .initiateRandom = some s' := by
    rw [← h.owner]; exact hs'
  have hcnt := h.cnt
  obtain ⟨p', o1', o2', he, -⟩ := sim_back hz hx ho (by omega) (Or.inl rfl) hs''
  refine ⟨w.admin, .initiateRandom, p', rfl, he, ?_⟩
  have hr' := reach_next h.reach ho he
  obtain ⟨_, _, _, _, _, _, _, hp'⟩ := initiateRandom_some.1 he
  have hev := Zkdvrf.evalInv hz
  have hro := Zkdvrf.roundInv hz
  have hno : ∀ i, ¬ Submitted w.p (w.p.currentRoundNum + 1) i := by
    intro i hi
    have := (hev.stored _ i hi).1.2
    change w.p.currentRoundNum + 1 ≤ w.p.currentRoundNum at this
    omega
  have hc0 : w.p.roundSubmissionCount (w.p.currentRoundNum + 1) = 0 := by
    refine (hev.count _).trans ?_
    rw [Finset.card_eq_zero, Finset.filter_eq_empty_iff]
    intro i _
    exact hno i
  have hv0 : (w.p.roundToRandom (w.p.currentRoundNum + 1)).value = 0 := by
    have : w.p.roundToRandom (w.p.currentRoundNum + 1) = .empty := hro.future _ (Nat.lt_succ_self _)
    rw [this]; rfl
  subst hp'
  refine ⟨hr', h.owner, h.thr, h.cnt, h.dep, h.added, h.keys, h.red, h.adm, h.shr, ?_, h.cnts, ?_⟩
  · intro k i hi
    have hne : k ≠ w.p.currentRoundNum + 1 := by
      rintro rfl
      exact hno i hi
    dsimp only
    rw [Function.update_of_ne hne]
    exact h.evs k i hi
  · rw [h.tx]
    unfold work
    rw [hp]
    dsimp only
    rw [hc0, if_pos hv0, if_neg (Nat.succ_ne_zero _)]
    by_cases h0 : w.p.currentRoundNum = 0
    · rw [if_pos h0, h0]; omega
    · rw [if_neg h0]
      have hC := hd.resolve_left h0
      have hC' : ¬ (w.p.roundToRandom w.p.currentRoundNum).value = 0 := hC
      rw [if_neg hC']
      have hq := (quorum h.reach ht' _ hC).2
      rw [h.thr] at hq
      have := h.cnts w.p.currentRoundNum
      have heq : w.p.roundSubmissionCount w.p.currentRoundNum = t := by omega
      rw [heq]
      obtain ⟨k, hk⟩ := Nat.exists_eq_succ_of_ne_zero h0
      rw [hk]
      simp only [Nat.succ_eq_add_one, Nat.add_sub_cancel]
      ring

private theorem step_eval {M : Machine} {o : Address} {ws : List Address} {t n N : ℕ} {w : World}
    (hM : Spec.SnarkSound M.env t n)
    (ht : 1 ≤ t) (hn : 1 ≤ n) (h : SInv M o ws t n N w) {a : Address} (ha : a ∈ ws)
    (hp : w.p.contractPhase = .Ready)
    (hj : w.p.currentRoundNum ≠ w.p.lastSubmittedRound a)
    (hlt : w.p.roundSubmissionCount w.p.currentRoundNum < w.p.threshold) (d : Draw) :
    Next M o ws t n N w.p a (fun p' f => { w with p := p', node := Function.update w.node a f })
      (if w.p.lastSubmittedRound a = 0 then
          match nidkgDerive w.p a (w.node a) with
          | none => .failed (w.node a)
          | some f' => Services.submitPartialEval M w.p a f' d
        else Services.submitPartialEval M w.p a (w.node a) d) := by
  have ht' : 1 ≤ w.p.threshold := by rw [h.thr]; exact ht
  have hthr := h.thr
  have hcnt := h.cnt
  obtain ⟨hx, o1, o2, hz⟩ := sim h.reach ht'
  obtain ⟨hself, ha0⟩ := self_of ht h ha
  have hev := Zkdvrf.evalInv hz
  obtain ⟨c1, c2, c3, c4, c5, _, c7⟩ := C31_pre_registration M.env h.reach ht'
  obtain ⟨c7, c8⟩ := c7 (by rw [hp]; exact Phase.noConfusion)
  have hra := c8 a ((h.added a).2 ha)
  obtain ⟨sk, k1, k2, k3⟩ := h.keys a hra
  have hopen : ¬ Completed w.p w.p.currentRoundNum := by
    intro hc
    have := (quorum h.reach ht' _ hc).2
    omega
  have hll : w.p.lastSubmittedRound a < w.p.currentRoundNum := by
    have := hev.last_le a
    change w.p.lastSubmittedRound a ≤ w.p.currentRoundNum at this
    omega
  obtain ⟨i, gf, vf, f, e, u, s', q1, q2, q3, q4, q5, q6, q7, q8, q9⟩ := C54_evaluate M.env hz
    (toZk_ready.2 hp) (by change Spec.SnarkSound M.env w.p.threshold w.p.memberCount; rw [h.thr, h.cnt]; exact hM)
    hopen a ha0 hra hll sk k3 d.nonce
  have q1 : getIndexPlus w.p a = some i := q1
  have q2 : Client.derive (config w.p) (Client.instancesFile w.p.ppList) (some (i, Client.keygen sk)) =
    .ok ⟨gf, vf, some f⟩ := q2
  have q3 : Client.eval M.env.keccak (evalHash M.env.keccak) (config w.p) i f
        (w.p.roundInput w.p.currentRoundNum) d.nonce = .ok e := q3
  have q4 : Client.verifyEval M.env.keccak (evalHash M.env.keccak) (config w.p) i e vf
        (w.p.roundInput w.p.currentRoundNum) = .ok () := q4
  obtain ⟨p', o1', o2', he, -⟩ := sim_back hz hx ha0 (by omega) (Or.inl rfl) q6
  have hsub : ∀ g : Files, g.share = some f → g.vks = some vf →
      Services.submitPartialEval M w.p a g d = .send g (.submitPartialEval u) := by
    intro g g1 g2
    unfold Services.submitPartialEval
    dsimp only
    rw [q1, g1, g2]
    dsimp only
    rw [q3]
    dsimp only
    rw [q4]
    dsimp only
    rw [q5]
  -- the files with which the evaluation is made
  have hfiles : ∃ g : Files, (if w.p.lastSubmittedRound a = 0 then
          match nidkgDerive w.p a (w.node a) with
          | none => .failed (w.node a)
          | some f' => Services.submitPartialEval M w.p a f' d
        else Services.submitPartialEval M w.p a (w.node a) d) = .send g (.submitPartialEval u) ∧
      g.member = some (Client.keygen sk) ∧ g.share = some f ∧ g.vks = some vf := by
    by_cases h0 : w.p.lastSubmittedRound a = 0
    · rw [if_pos h0]
      refine ⟨{ w.node a with gpk := some gf, vks := some vf, share := some f }, ?_, k2, rfl, rfl⟩
      have : nidkgDerive w.p a (w.node a) =
          some { w.node a with gpk := some gf, vks := some vf, share := some f } := by
        unfold nidkgDerive
        rw [q1, k2]
        dsimp only
        rw [q2]
        dsimp only
        rw [k2]
      rw [this]
      exact hsub _ rfl rfl
    · rw [if_neg h0]
      obtain ⟨sk', i', gf', vf', f', m1, m2, m3, m4, m5, m6⟩ := h.shr a h0
      have hkk : Client.keygen sk' = Client.keygen sk := Option.some.inj (m1.symm.trans k2)
      have hii : i' = i := Option.some.inj (m3.symm.trans q1)
      rw [hkk, hii, ← hthr, ← hcnt] at m4
      have heq := Except.ok.inj (m4.symm.trans q2)
      have hf : some f' = some f := congrArg Client.DeriveOut.share heq
      have hv : vf' = vf := congrArg Client.DeriveOut.vks heq
      refine ⟨w.node a, hsub _ (m5.trans hf) (by rw [m6, hv]), k2, m5.trans hf, by rw [m6, hv]⟩
  obtain ⟨g, g1, g2, g3, g4⟩ := hfiles
  refine ⟨g, .submitPartialEval u, p', g1, he, ?_⟩
  have hr' := reach_next h.reach ha0 he
  obtain ⟨_, _, _, _, _, z6, _, _, hp'⟩ := submitPartialEval_some.1 he
  dsimp only at z6
  have hne : w.p.currentRoundNum ≠ 0 := by omega
  subst hp'
  refine ⟨hr', h.owner, h.thr, h.cnt, h.dep, h.added, ?_, h.red, h.adm, ?_, ?_, ?_, ?_⟩
  · intro b hb
    by_cases hba : b = a
    · subst hba
      refine ⟨sk, k1, ?_, k3⟩
      dsimp only
      rw [Function.update_self]
      exact g2
    · obtain ⟨x, x1, x2, x3⟩ := h.keys b hb
      refine ⟨x, x1, ?_, x3⟩
      dsimp only
      rw [Function.update_of_ne hba]
      exact x2
  · intro b hb
    by_cases hba : b = a
    · subst hba
      refine ⟨sk, i, gf, vf, f, ?_, k3, q1, ?_, ?_, ?_⟩
      · dsimp only
        rw [Function.update_self]
        exact g2
      · rw [← hthr, ← hcnt]
        exact q2
      · dsimp only
        rw [Function.update_self]
        exact g3
      · dsimp only
        rw [Function.update_self]
        exact g4
    · dsimp only at hb ⊢
      rw [Function.update_of_ne hba] at hb ⊢
      exact h.shr b hb
  · intro k j hj
    by_cases hkj : k = w.p.currentRoundNum ∧ j = indexOf w.p a
    · obtain ⟨rfl, rfl⟩ := hkj
      dsimp only [indexOf]
      rw [Function.update_self, Function.update_self]
      exact ⟨q8, q9⟩
    · have hsame : Function.update w.p.roundToEval w.p.currentRoundNum
          (Function.update (w.p.roundToEval w.p.currentRoundNum) (w.p.addrToNode a).pkIndex u) k j =
          w.p.roundToEval k j := by
        by_cases hk : k = w.p.currentRoundNum
        · subst hk
          rw [Function.update_self, Function.update_of_ne]
          intro hj'
          exact hkj ⟨rfl, hj'⟩
        · rw [Function.update_of_ne hk]
      unfold Submitted at hj
      dsimp only at hj ⊢
      rw [hsame] at hj ⊢
      exact h.evs k j hj
  · intro k
    dsimp only
    by_cases hk : k = w.p.currentRoundNum
    · subst hk; rw [Function.update_self]; omega
    · rw [Function.update_of_ne hk]; exact h.cnts k
  · rw [h.tx]
    unfold work
    dsimp only
    rw [hp]
    dsimp only
    rw [if_neg hne, if_neg hne, Function.update_self]
    omega

private theorem step_random {M : Machine} {o : Address} {ws : List Address} {t n N : ℕ} {w : World}
    (hM : Spec.SnarkSound M.env t n) (hK : ∀ b, M.env.keccak b ≠ 0) (ho : o ≠ 0) (ht : 1 ≤ t)
    (hn : 1 ≤ n)
    (h : SInv M o ws t n N w) (hp : w.p.contractPhase = .Ready) (h0 : w.p.currentRoundNum ≠ 0)
    (hopen : (w.p.roundToRandom w.p.currentRoundNum).value = 0)
    (hq : w.p.threshold ≤ w.p.roundSubmissionCount w.p.currentRoundNum) :
    Next M o ws t n N w.p o (fun p' f => { w with p := p', admin := f })
      (createRandom M w.p w.admin) := by
  have ht' : 1 ≤ w.p.threshold := by rw [h.thr]; exact ht
  have hthr := h.thr
  have hcnt := h.cnt
  obtain ⟨hx, o1, o2, hz⟩ := sim h.reach ht'
  obtain ⟨gf, vf, a1, a2, a3⟩ := h.adm hp
  obtain ⟨gf', vf', q1, out, q2, rnd, q3, s', q4, q5⟩ := C52_combine_with_derived_files M.env hz
    (toZk_ready.2 hp) (fun hc => hc hopen) ht'
    (by change Spec.SnarkSound M.env w.p.threshold w.p.memberCount; rw [h.thr, h.cnt]; exact hM)
    hq (fun i hi => (h.evs _ i hi).1) (fun i hi => (h.evs _ i hi).2)
  have q1 : Client.derive ⟨w.p.threshold, w.p.memberCount⟩ (Client.instancesFile w.p.ppList) none =
      .ok ⟨gf', vf', none⟩ := q1
  rw [hthr, hcnt] at q1
  have heq := Except.ok.inj (q1.symm.trans a1)
  have hg : gf' = gf := congrArg Client.DeriveOut.gpk heq
  have hv : vf' = vf := congrArg Client.DeriveOut.vks heq
  have q2 : Client.combine M.env.E M.env.keccak (evalHash M.env.keccak) (config w.p)
    (Client.evalsFile w.p.memberCount (w.p.roundToEval w.p.currentRoundNum)) gf' vf'
    (w.p.roundInput w.p.currentRoundNum) false = .ok out := q2
  rw [hg, hv] at q2
  have qv := (C46_output_verifies _ _ _ _ _ _ _ _ _ _ q2).2
  have q4' : Zkdvrf.exec M.env (w.p.toZk o1 o2) ⟨o, 0⟩ (.submitRandom rnd) = some s' := by
    rw [← h.owner]; exact q4
  obtain ⟨p', o1', o2', he, -⟩ := sim_back hz hx ho (by omega) (Or.inr ⟨by omega, hq⟩) q4'
  refine ⟨w.admin, .submitRandom rnd, p', ?_, he, ?_⟩
  · unfold createRandom
    dsimp only
    rw [a2, a3]
    dsimp only
    rw [q2]
    dsimp only
    rw [qv]
    dsimp only
    rw [q3]
  · have hr' := reach_next h.reach ho he
    obtain ⟨_, _, _, _, _, z6, hp'⟩ := submitRandom_some.1 he
    have hne : ¬ (Function.update w.p.roundToRandom w.p.currentRoundNum rnd
        w.p.currentRoundNum).value = 0 := by rw [Function.update_self, z6]; exact hK _
    subst hp'
    refine ⟨hr', h.owner, h.thr, h.cnt, h.dep, h.added, h.keys, h.red, h.adm, h.shr, h.evs, h.cnts, ?_⟩
    rw [h.tx]
    unfold work
    dsimp only
    rw [hp]
    dsimp only
    rw [if_neg h0, if_neg h0, if_pos hopen, if_neg hne]
    omega

private theorem node_fine {M : Machine} {o : Address} {ws : List Address} {t n N : ℕ} {w : World}
    {aux1 : G1} {aux2 : G2} (hM : Faithful M t n aux1 aux2) (ht : 1 ≤ t) (hn : 1 ≤ n)
    (h : SInv M o ws t n N w) {a : Address} (ha : a ∈ ws) (d : Draw) (hd : GoodDraw t n aux1 aux2 d) :
    nodePass M w.p a (w.node a) d = .idle ∨
    Next M o ws t n N w.p a (fun p' f => { w with p := p', node := Function.update w.node a f })
      (nodePass M w.p a (w.node a) d) := by
  have hself := (self_of ht h ha).1
  unfold nodePass
  dsimp only
  rw [if_pos hself]
  cases hp : w.p.contractPhase with
  | Unregistered =>
    dsimp only
    cases hst : (w.p.addrToNode a).status with
    | true => exact Or.inl rfl
    | false => exact Or.inr (step_register ht hn h ha hp hst d hd.sk)
  | Registered => exact Or.inl rfl
  | Nidkg =>
    dsimp only
    cases hst : (w.p.addrToNode a).statusPP with
    | true => exact Or.inl rfl
    | false => exact Or.inr (step_deal hM ht hn h ha hp hst d hd)
  | NidkgComplete => exact Or.inl rfl
  | Ready =>
    dsimp only
    by_cases hc : (jsGreater w.p.currentRoundNum (w.p.lastSubmittedRound a) &&
          decide (w.p.roundSubmissionCount w.p.currentRoundNum < w.p.threshold)) = true
    · rw [if_pos hc]
      rw [Bool.and_eq_true, decide_eq_true_eq] at hc
      exact Or.inr (step_eval hM.sound ht hn h ha hp (jsGreater_ne hc.1) hc.2 d)
    · rw [if_neg hc]; exact Or.inl rfl

private theorem admin_fine {M : Machine} {o : Address} {ws : List Address} {t n N : ℕ} {w : World}
    {aux1 : G1} {aux2 : G2} (hM : Faithful M t n aux1 aux2) (ho : o ≠ 0) (ht : 1 ≤ t) (hn : 1 ≤ n)
    (h : SInv M o ws t n N w) (begun : Bool) :
    adminPass M w.p w.admin begun = .idle ∨
    Next M o ws t n N w.p o (fun p' f => { w with p := p', admin := f })
      (adminPass M w.p w.admin begun) := by
  unfold adminPass
  cases hp : w.p.contractPhase with
  | Unregistered => exact Or.inl rfl
  | Registered => exact Or.inr (step_start ho ht h hp)
  | Nidkg => exact Or.inl rfl
  | NidkgComplete => exact Or.inr (step_gpp hM.sound ho ht hn h hp)
  | Ready =>
    dsimp only
    cases begun with
    | false => exact Or.inl rfl
    | true =>
      by_cases h0 : w.p.currentRoundNum = 0
      · rw [if_neg (by decide), if_pos h0]
        exact Or.inr (step_open ho ht hn h hp (by rw [h0]; decide +kernel) (Or.inl h0))
      · rw [if_neg (by decide), if_neg h0]
        by_cases hc : (w.p.roundToRandom w.p.currentRoundNum).value = 0 ∧
          w.p.threshold ≤ w.p.roundSubmissionCount w.p.currentRoundNum
        · rw [if_pos hc]
          exact Or.inr (step_random hM.sound hM.hash ho ht hn h hp h0 hc.1 hc.2)
        · rw [if_neg hc]; exact Or.inl rfl

private theorem tick_fine {M : Machine} {o : Address} {ws : List Address} {t n N : ℕ} {w : World}
    (ho : o ≠ 0) (ht : 1 ≤ t) (hn : 1 ≤ n)
    (h : SInv M o ws t n N w) (begun elapsed : Bool) (hN : N < 2 ^ 255)
    (he : elapsed = true → Completed w.p w.p.currentRoundNum) :
    adminTick w.p w.admin begun elapsed = .idle ∨
    Next M o ws t n N w.p o (fun p' f => { w with p := p', admin := f })
      (adminTick w.p w.admin begun elapsed) := by
  unfold adminTick
  cases hp : w.p.contractPhase with
  | Unregistered => exact Or.inl rfl
  | Registered => exact Or.inl rfl
  | Nidkg => exact Or.inl rfl
  | NidkgComplete => exact Or.inl rfl
  | Ready =>
    dsimp only
    by_cases hc : (begun && decide (w.p.currentRoundNum ≠ 0) && elapsed) = true
    · rw [if_pos hc]
      rw [Bool.and_eq_true] at hc
      have hb : w.p.currentRoundNum + 1 < 2 ^ 256 := by
        have h1 := h.tx
        unfold work at h1
        rw [hp] at h1
        dsimp only at h1
        by_cases h0 : w.p.currentRoundNum = 0
        · rw [h0]; decide +kernel
        · rw [if_neg h0] at h1
          have h2 : w.p.currentRoundNum - 1 ≤ (w.p.currentRoundNum - 1) * (t + 2) :=
            Nat.le_mul_of_pos_right _ (by omega)
          have h3 : w.p.currentRoundNum ≤ N := by
            rw [h1]
            omega
          calc w.p.currentRoundNum + 1 < 2 ^ 255 + 1 := Nat.add_lt_add_right (lt_of_le_of_lt h3 hN) 1
            _ < 2 ^ 256 := by decide +kernel
      exact Or.inr (step_open ho ht hn h hp hb (Or.inr (he hc.2)))
    · rw [if_neg hc]; exact Or.inl rfl

private theorem node_world {M : Machine} {o : Address} {ws : List Address} {t n N : ℕ} {w : World}
    {a : Address} {d : Draw} (h : SInv M o ws t n N w)
    (hf : nodePass M w.p a (w.node a) d = .idle ∨
      Next M o ws t n N w.p a (fun p' f => { w with p := p', node := Function.update w.node a f })
        (nodePass M w.p a (w.node a) d)) :
    SInv M o ws t n (N + (nodePass M w.p a (w.node a) d).sent) (w.nodeStep M a d) := by
  unfold World.nodeStep
  rcases hf with hf | ⟨f, c, p', hf, he, hi⟩
  · rw [hf]; exact h
  · rw [hf]
    dsimp only
    unfold mine
    rw [step_some he]
    exact hi

private theorem admin_world {M : Machine} {o : Address} {ws : List Address} {t n N : ℕ} {w : World}
    {out : Out} (h : SInv M o ws t n N w)
    (hf : out = .idle ∨ Next M o ws t n N w.p o (fun p' f => { w with p := p', admin := f }) out) :
    SInv M o ws t n (N + out.sent) (w.adminStep M o out) := by
  rcases hf with rfl | ⟨f, c, p', rfl, he, hi⟩
  · exact h
  · unfold World.adminStep mine
    dsimp only
    rw [step_some he]
    exact hi

theorem honest_inv {M : Machine} {o : Address} {ws : List Address} {t n : ℕ} {aux1 : G1}
    {aux2 : G2} (hM : Faithful M t n aux1 aux2) {w w' : World} (h0 : Fresh M o ws t n w.p) {N : ℕ}
    (h : Honest M o ws t n aux1 aux2 w N w') (hN : N ≤ 2 ^ 255) : SInv M o ws t n N w' := by
  have ht := h0.t_pos
  have hn : 1 ≤ n := ht.trans h0.t_le
  induction h with
  | refl =>
    have ht' : 1 ≤ w.p.threshold := by rw [h0.threshold]; exact ht
    obtain ⟨e1, e2, e3, e4⟩ := early h0.reachable ht' (by rw [h0.phase]; exact Phase.noConfusion)
    obtain ⟨hx, o1, o2, hz⟩ := sim h0.reachable ht'
    have hpl : w.p.ppList = [] := (Zkdvrf.dkgInv hz).unreg (toZk_unreg.2 (Or.inl h0.phase))
    refine ⟨h0.reachable, h0.owner, h0.threshold, h0.members, h0.deposit, h0.added, ?_, ?_, ?_, ?_, ?_, ?_, ?_⟩
    · intro a ha
      have := (C31_pre_registration M.env h0.reachable ht').2.1 a ha
      rw [h0.keys] at this
      exact absurd this (Nat.not_lt_zero _)
    · rw [hpl]; intro v hv; cases hv
    · intro hc; rw [h0.phase] at hc; cases hc
    · intro a ha; exact absurd (e1 a) ha
    · intro k i hi; exact absurd hi (e2 k i)
    · intro k; rw [e4 k]; exact Nat.zero_le _
    · unfold work; rw [h0.phase]; dsimp only; rw [h0.keys]; rfl
  | @node N w' a d ha hd _ ih =>
    have ih := ih (le_trans (Nat.le_add_right _ _) hN)
    exact node_world ih (node_fine hM ht hn ih ha d hd)
  | @admin N w' begun _ ih =>
    have ih := ih (le_trans (Nat.le_add_right _ _) hN)
    exact admin_world ih (admin_fine hM h0.owner_ne ht hn ih begun)
  | @tick N w' begun elapsed he _ ih =>
    have ih := ih (le_trans (Nat.le_add_right _ _) hN)
    by_cases hs : (adminTick w'.p w'.admin begun elapsed).sent = 0
    · cases hs' : adminTick w'.p w'.admin begun elapsed with
      | idle => exact admin_world ih (Or.inl rfl)
      | failed f =>
        exfalso
        unfold adminTick at hs'
        split at hs'
        · split at hs' <;> cases hs'
        · cases hs'
      | send f c => rw [hs'] at hs; cases hs
    · have hN' : N < 2 ^ 255 := lt_of_lt_of_le (Nat.lt_add_of_pos_right (Nat.pos_of_ne_zero hs)) hN
      exact admin_world ih (tick_fine h0.owner_ne ht hn ih begun elapsed hN' he)

private theorem Next.fine {M : Machine} {o : Address} {ws : List Address} {t n N : ℕ} {p : State}
    {a : Address} {mk : State → Files → World} {out : Out}
    (h : out = .idle ∨ Next M o ws t n N p a mk out) : Fine M p a out := by
  rcases h with rfl | ⟨f, c, p', rfl, he, _⟩
  · trivial
  · exact ⟨p', he⟩

/-- C55. Services started on a contract just set up for them, with a proof system that works and good
draws, never fail, whatever the order of their passes: every pass finds nothing to do or makes a
transaction that the contract accepts (up to `2 ^ 255` transactions). -/
theorem C55_no_failure (M : Machine) {o : Address} {ws : List Address} {t n : ℕ} {aux1 : G1}
    {aux2 : G2} (hM : Faithful M t n aux1 aux2) {w w' : World} (h0 : Fresh M o ws t n w.p) {N : ℕ}
    (h : Honest M o ws t n aux1 aux2 w N w') (hN : N < 2 ^ 255) :
    (∀ a ∈ ws, ∀ d, GoodDraw t n aux1 aux2 d → Fine M w'.p a (nodePass M w'.p a (w'.node a) d)) ∧
    (∀ begun, Fine M w'.p o (adminPass M w'.p w'.admin begun)) ∧
    ∀ begun elapsed, (elapsed = true → Completed w'.p w'.p.currentRoundNum) →
      Fine M w'.p o (adminTick w'.p w'.admin begun elapsed) := by
  have ht := h0.t_pos
  have hn : 1 ≤ n := ht.trans h0.t_le
  have hi := honest_inv hM h0 h hN.le
  exact ⟨fun a ha d hd => (node_fine hM ht hn hi ha d hd).elim (fun e => by rw [e]; trivial)
      (fun e => Next.fine (Or.inr e)),
    fun b => Next.fine (admin_fine hM h0.owner_ne ht hn hi b),
    fun b e he => Next.fine (tick_fine h0.owner_ne ht hn hi b e hN he)⟩

private theorem rounds_done {M : Machine} {o : Address} {ws : List Address} {t n : ℕ} {aux1 : G1}
    {aux2 : G2} (hM : Faithful M t n aux1 aux2) {w w' : World} (h0 : Fresh M o ws t n w.p) {N : ℕ}
    (h : Honest M o ws t n aux1 aux2 w N w') (hN : N < 2 ^ 255) (K : ℕ)
    (hK : 2 * n + 2 + K * (t + 2) ≤ N) : ∀ k, 1 ≤ k → k ≤ K → Completed w'.p k := by
  have hi := honest_inv hM h0 h hN.le
  have ht' : 1 ≤ w'.p.threshold := by rw [hi.thr]; exact h0.t_pos
  obtain ⟨_, o1, o2, hz⟩ := sim hi.reach ht'
  have hpk := (C31_pre_registration M.env hi.reach ht').2.2.2.2.1
  rw [hi.cnt] at hpk
  have htx := hi.tx
  have hcn := hi.cnts w'.p.currentRoundNum
  unfold work at htx
  intro k hk1 hk2
  have hpos : 0 < K * (t + 2) := Nat.mul_pos (by omega) (by omega)
  cases hp : w'.p.contractPhase with
  | Unregistered => rw [hp] at htx; dsimp only at htx; omega
  | Registered => rw [hp] at htx; dsimp only at htx; omega
  | Nidkg =>
    rw [hp] at htx
    dsimp only at htx
    have h1 : w'.p.ppList.length = w'.p.ppSubmissionCount := (Zkdvrf.dkgInv hz).ppLen
    have h2 : w'.p.ppSubmissionCount < w'.p.memberCount ∨ w'.p.memberCount = 0 :=
      (Zkdvrf.dkgInv hz).nidkg (toZk_nidkg.2 hp)
    have h3 := hi.cnt
    have h4 := h0.t_pos
    have h5 := h0.t_le
    omega
  | NidkgComplete => rw [hp] at htx; dsimp only at htx; omega
  | Ready =>
    rw [hp] at htx
    dsimp only at htx
    by_cases hc0 : w'.p.currentRoundNum = 0
    · rw [if_pos hc0] at htx; omega
    · rw [if_neg hc0] at htx
      have hle : K ≤ w'.p.currentRoundNum := by
        by_contra hlt
        have h1 : w'.p.currentRoundNum + 1 ≤ K := by omega
        have h2 : (w'.p.currentRoundNum + 1) * (t + 2) ≤ K * (t + 2) := Nat.mul_le_mul_right _ h1
        obtain ⟨c, hc⟩ := Nat.exists_eq_succ_of_ne_zero hc0
        rw [hc] at h2 htx hcn
        simp only [Nat.succ_eq_add_one, Nat.add_sub_cancel] at h2 htx hcn
        have h3 : (c + 1 + 1) * (t + 2) = c * (t + 2) + 2 * (t + 2) := by ring
        split at htx <;> omega
      by_cases hkc : k < w'.p.currentRoundNum
      · exact (C34_pre_rounds M.env hi.reach ht').1 k hk1 hkc
      · have hkc : k = w'.p.currentRoundNum := by omega
        have hKc : K = w'.p.currentRoundNum := by omega
        rw [hkc]
        intro hv
        rw [if_pos hv] at htx
        rw [hKc] at hK
        obtain ⟨c, hc⟩ := Nat.exists_eq_succ_of_ne_zero hc0
        rw [hc] at hK htx hcn
        simp only [Nat.succ_eq_add_one, Nat.add_sub_cancel] at hK htx hcn
        have h3 : (c + 1) * (t + 2) = c * (t + 2) + (t + 2) := by ring
        omega

/-- C55. With `n` members and threshold `t`, once the services have made `2 n + 2 + K (t + 2)`
transactions (`n` registrations, the start, `n` dealings, the keys; and for every round the opening,
`t` evaluations and the random), and not before, round `K` is complete. -/
theorem C55_rounds (M : Machine) {o : Address} {ws : List Address} {t n : ℕ} {aux1 : G1}
    {aux2 : G2} (hM : Faithful M t n aux1 aux2) {w w' : World} (h0 : Fresh M o ws t n w.p) {N : ℕ}
    (h : Honest M o ws t n aux1 aux2 w N w') (hN : N < 2 ^ 255) (K : ℕ)
    (hK1 : 1 ≤ K) : Completed w'.p K ↔ 2 * n + 2 + K * (t + 2) ≤ N := by
  refine ⟨?_, fun hK => rounds_done hM h0 h hN K hK K hK1 le_rfl⟩
  intro hC
  have hi := honest_inv hM h0 h hN.le
  have ht' : 1 ≤ w'.p.threshold := by rw [hi.thr]; exact h0.t_pos
  obtain ⟨_, o1, o2, hz⟩ := sim hi.reach ht'
  have hle : K ≤ w'.p.currentRoundNum := by
    by_contra hgt
    have : w'.p.roundToRandom K = .empty := (Zkdvrf.roundInv hz).future K (by
      change w'.p.currentRoundNum < K
      omega)
    refine hC ?_
    rw [this]
    rfl
  have hp : w'.p.contractPhase = .Ready := (C34_pre_rounds M.env hi.reach ht').2.2.2 (by omega)
  have htx := hi.tx
  unfold work at htx
  rw [hp] at htx
  dsimp only at htx
  rw [if_neg (by omega)] at htx
  obtain ⟨c, hc⟩ := Nat.exists_eq_succ_of_ne_zero (show w'.p.currentRoundNum ≠ 0 by omega)
  by_cases hKc : K = w'.p.currentRoundNum
  · rw [hKc] at hC ⊢
    have hv : ¬ (w'.p.roundToRandom w'.p.currentRoundNum).value = 0 := hC
    have hq := (quorum hi.reach ht' _ hC).2
    rw [hi.thr] at hq
    rw [if_neg hv] at htx
    rw [hc] at hq htx ⊢
    simp only [Nat.succ_eq_add_one, Nat.add_sub_cancel] at hq htx ⊢
    have h3 : (c + 1) * (t + 2) = c * (t + 2) + (t + 2) := by ring
    omega
  · rw [hc] at htx hle hKc
    simp only [Nat.succ_eq_add_one, Nat.add_sub_cancel] at htx hle hKc
    have h2 : K * (t + 2) ≤ c * (t + 2) := Nat.mul_le_mul_right _ (by omega)
    omega

private theorem uniq {m a b x y : ℕ} (hx : x < m) (hy : y < m) (h : a * m + x = b * m + y) :
    a = b ∧ x = y := by
  have key : ∀ {a b x y : ℕ}, x < m → a * m + x = b * m + y → ¬ a < b := by
    intro a b x y hx h hlt
    have h1 : (a + 1) * m ≤ b * m := Nat.mul_le_mul_right _ hlt
    have h2 : (a + 1) * m = a * m + m := by ring
    omega
  have h1 := key hx h
  have h2 := key hy h.symm
  obtain rfl : a = b := by omega
  exact ⟨rfl, by omega⟩

/-- C55. The number of transactions made tells exactly how far the services have come, whatever the
order of their passes. -/
theorem C55_stage (M : Machine) {o : Address} {ws : List Address} {t n : ℕ} {aux1 : G1}
    {aux2 : G2} (hM : Faithful M t n aux1 aux2) {w w' : World} (h0 : Fresh M o ws t n w.p) {N : ℕ}
    (h : Honest M o ws t n aux1 aux2 w N w') (hN : N < 2 ^ 255) :
    (N < n → w'.p.contractPhase = .Unregistered ∧ w'.p.pkList.length = N) ∧
    (N = n → w'.p.contractPhase = .Registered ∧ w'.p.pkList.length = n) ∧
    (∀ j, j < n → N = n + 1 + j → w'.p.contractPhase = .Nidkg ∧ w'.p.ppList.length = j) ∧
    (N = 2 * n + 1 → w'.p.contractPhase = .NidkgComplete ∧ w'.p.ppList.length = n) ∧
    (∀ k, N = 2 * n + 2 + k * (t + 2) → w'.p.contractPhase = .Ready ∧ w'.p.currentRoundNum = k ∧
      (k ≠ 0 → Completed w'.p k)) ∧
    (∀ k j, j ≤ t → N = 2 * n + 2 + k * (t + 2) + 1 + j → w'.p.contractPhase = .Ready ∧
      w'.p.currentRoundNum = k + 1 ∧ ¬ Completed w'.p (k + 1) ∧
      w'.p.roundSubmissionCount (k + 1) = j) := by
  have hi := honest_inv hM h0 h hN.le
  have ht := h0.t_pos
  have htn := h0.t_le
  have ht' : 1 ≤ w'.p.threshold := by rw [hi.thr]; exact ht
  obtain ⟨hx, o1, o2, hz⟩ := sim hi.reach ht'
  have hcnt := hi.cnt
  have htx := hi.tx
  have hlen : w'.p.pkList.length = w'.p.registeredCount := (Zkdvrf.regInv hz).pkLen
  have hpl : w'.p.ppList.length = w'.p.ppSubmissionCount := (Zkdvrf.dkgInv hz).ppLen
  unfold work at htx
  cases hp : w'.p.contractPhase with
  | Unregistered =>
    rw [hp] at htx
    dsimp only at htx
    have h2 := hx.unreg hp
    refine ⟨fun _ => ⟨rfl, htx.symm⟩, fun e => ?_, fun j _ e => ?_, fun e => ?_, fun k e => ?_,
      fun k j _ e => ?_⟩ <;> omega
  | Registered =>
    rw [hp] at htx
    dsimp only at htx
    have h2 := hx.reg hp
    refine ⟨fun e => ?_, fun e => ⟨rfl, by omega⟩, fun j _ e => ?_, fun e => ?_, fun k e => ?_,
      fun k j _ e => ?_⟩ <;> omega
  | Nidkg =>
    rw [hp] at htx
    dsimp only at htx
    have h2 : w'.p.ppSubmissionCount < w'.p.memberCount ∨ w'.p.memberCount = 0 :=
      (Zkdvrf.dkgInv hz).nidkg (toZk_nidkg.2 hp)
    refine ⟨fun e => ?_, fun e => ?_, fun j _ e => ⟨rfl, by omega⟩, fun e => ?_, fun k e => ?_,
      fun k j _ e => ?_⟩ <;> omega
  | NidkgComplete =>
    rw [hp] at htx
    dsimp only at htx
    have h2 : w'.p.ppSubmissionCount = w'.p.memberCount :=
      (Zkdvrf.dkgInv hz).late (Or.inl (toZk_complete.2 hp))
    refine ⟨fun e => ?_, fun e => ?_, fun j _ e => ?_, fun e => ⟨rfl, by omega⟩, fun k e => ?_,
      fun k j _ e => ?_⟩ <;> omega
  | Ready =>
    rw [hp] at htx
    dsimp only at htx
    refine ⟨fun e => ?_, fun e => ?_, fun j _ e => ?_, fun e => ?_, fun k e => ⟨rfl, ?_⟩,
      fun k j hj e => ⟨rfl, ?_⟩⟩
    · omega
    · omega
    · omega
    · omega
    · by_cases hc0 : w'.p.currentRoundNum = 0
      · rw [if_pos hc0] at htx
        have hk : k = 0 := by
          by_contra hk
          have : 0 < k * (t + 2) := Nat.mul_pos (by omega) (by omega)
          omega
        exact ⟨by omega, fun h => absurd hk h⟩
      · rw [if_neg hc0] at htx
        obtain ⟨c, hc⟩ := Nat.exists_eq_succ_of_ne_zero hc0
        have hcn := hi.cnts w'.p.currentRoundNum
        by_cases hv : (w'.p.roundToRandom w'.p.currentRoundNum).value = 0
        · exfalso
          rw [if_pos hv] at htx
          rw [hc] at htx hcn
          simp only [Nat.succ_eq_add_one, Nat.add_sub_cancel] at htx hcn
          have := (uniq (m := t + 2) (a := k) (b := c) (x := 0)
            (y := 1 + w'.p.roundSubmissionCount (c + 1)) (by omega) (by omega) (by omega)).2
          omega
        · have hq := (quorum hi.reach ht' _ hv).2
          rw [hi.thr] at hq
          rw [if_neg hv] at htx
          have hcc : w'.p.roundSubmissionCount w'.p.currentRoundNum = t := by omega
          rw [hcc, hc] at htx
          simp only [Nat.succ_eq_add_one, Nat.add_sub_cancel] at htx
          have h3 : (c + 1) * (t + 2) = c * (t + 2) + (t + 2) := by ring
          have := (uniq (m := t + 2) (a := k) (b := c + 1) (x := 0) (y := 0) (by omega) (by omega)
            (by omega)).1
          have hk : w'.p.currentRoundNum = k := by omega
          exact ⟨hk, fun _ => by rw [← hk]; exact hv⟩
    · have hc0 : w'.p.currentRoundNum ≠ 0 := by
        intro hc0
        rw [if_pos hc0] at htx
        omega
      rw [if_neg hc0] at htx
      obtain ⟨c, hc⟩ := Nat.exists_eq_succ_of_ne_zero hc0
      have hcn := hi.cnts w'.p.currentRoundNum
      by_cases hv : (w'.p.roundToRandom w'.p.currentRoundNum).value = 0
      · rw [if_pos hv] at htx
        rw [hc] at htx hcn hv
        simp only [Nat.succ_eq_add_one, Nat.add_sub_cancel] at htx hcn hv
        obtain ⟨u1, u2⟩ := uniq (m := t + 2) (a := k) (b := c) (x := 1 + j)
          (y := 1 + w'.p.roundSubmissionCount (c + 1)) (by omega) (by omega) (by omega)
        subst u1
        exact ⟨hc, fun h => h hv, by omega⟩
      · exfalso
        have hq := (quorum hi.reach ht' _ hv).2
        rw [hi.thr] at hq
        rw [if_neg hv] at htx
        have hcc : w'.p.roundSubmissionCount w'.p.currentRoundNum = t := by omega
        rw [hcc, hc] at htx
        simp only [Nat.succ_eq_add_one, Nat.add_sub_cancel] at htx
        have h3 : (c + 1) * (t + 2) = c * (t + 2) + (t + 2) := by ring
        have := (uniq (m := t + 2) (a := k) (b := c + 1) (x := 1 + j) (y := 0) (by omega) (by omega)
          (by omega)).2
        omega

/-- A transaction is made. -/
private theorem sent_of {o : Out} (h : o ≠ .idle) (hf : ∀ f, o ≠ .failed f) : o.sent = 1 := by
  cases o with
  | idle => exact absurd rfl h
  | failed f => exact absurd rfl (hf f)
  | send f c => rfl

private theorem sent_next {M : Machine} {o : Address} {ws : List Address} {t n N : ℕ} {p : State}
    {a : Address} {mk : State → Files → World} {out : Out}
    (h : out = .idle ∨ Next M o ws t n N p a mk out) (hne : out ≠ .idle) : out.sent = 1 := by
  rcases h with rfl | ⟨f, c, p', rfl, he, _⟩
  · exact absurd rfl hne
  · rfl

/-- C55. The services do not stop before the end of the ninth round: in every world they reach in
which one of the rounds 1 to 9 is not complete, some service makes a transaction at its next pass (the
admin once the start date has passed, or once the interval has elapsed after a complete round). -/
theorem C55_progress (M : Machine) {o : Address} {ws : List Address} {t n : ℕ} {aux1 : G1}
    {aux2 : G2} (hM : Faithful M t n aux1 aux2) {w w' : World} (h0 : Fresh M o ws t n w.p) {N : ℕ}
    (h : Honest M o ws t n aux1 aux2 w N w') (hN : N < 2 ^ 255) (K : ℕ) (hK1 : 1 ≤ K) (hK9 : K ≤ 9)
    (hK : ¬ Completed w'.p K) :
    (∃ a ∈ ws, ∀ d, GoodDraw t n aux1 aux2 d → (nodePass M w'.p a (w'.node a) d).sent = 1) ∨
    (adminPass M w'.p w'.admin true).sent = 1 ∨
    Completed w'.p w'.p.currentRoundNum ∧ (adminTick w'.p w'.admin true true).sent = 1 := by
  have ht := h0.t_pos
  have hn : 1 ≤ n := ht.trans h0.t_le
  have hi := honest_inv hM h0 h hN.le
  have ht' : 1 ≤ w'.p.threshold := by rw [hi.thr]; exact h0.t_pos
  obtain ⟨hx, o1, o2, hz⟩ := sim hi.reach ht'
  obtain ⟨c1, c2, c3, c4, c5, _, c7⟩ := C31_pre_registration M.env hi.reach ht'
  have hcnt := hi.cnt
  have hthr := hi.thr
  have hlen := h0.length
  have htn := h0.t_le
  cases hp : w'.p.contractPhase with
  | Unregistered =>
    left
    have hlt : w'.p.pkList.length < n := by
      have h1 : w'.p.pkList.length = w'.p.registeredCount := (Zkdvrf.regInv hz).pkLen
      have h2 := hx.unreg hp
      omega
    have hex : ∃ a ∈ ws, (w'.p.addrToNode a).status = false := by
      by_contra hall
      have hall : ∀ a ∈ ws, Registered w'.p a := by
        intro a ha
        by_contra hc
        refine hall ⟨a, ha, ?_⟩
        unfold Registered at hc
        cases hs : (w'.p.addrToNode a).status with
        | true => exact absurd hs hc
        | false => rfl
      have h1 : (ws.map (indexOf w'.p)).Nodup :=
        List.Nodup.map_on (fun a ha b hb hab => c3 a b (hall a ha) (hall b hb) hab) h0.nodup
      have h2 : (ws.map (indexOf w'.p)) ⊆ List.range w'.p.pkList.length := by
        intro i hi'
        obtain ⟨a, ha, rfl⟩ := List.mem_map.1 hi'
        exact List.mem_range.2 (c2 a (hall a ha))
      have h3 := (List.Nodup.subperm h1 h2).length_le
      rw [List.length_map, List.length_range] at h3
      omega
    obtain ⟨a, ha, hst⟩ := hex
    refine ⟨a, ha, fun d hd => sent_next (node_fine hM ht hn hi ha d hd) ?_⟩
    unfold nodePass Services.registerNode
    dsimp only
    rw [if_pos (self_of ht hi ha).1, hp, hst]
    dsimp only
    rw [if_pos (by decide : (!false) = true)]
    split <;> exact Out.noConfusion
  | Registered =>
    refine Or.inr (Or.inl ?_)
    unfold adminPass
    rw [hp]
    rfl
  | Nidkg =>
    left
    have hd := Zkdvrf.dkgInv hz
    have hex : ∃ a ∈ ws, (w'.p.addrToNode a).statusPP = false := by
      by_contra hall
      have hsub : ws ⊆ o2 := by
        intro a ha
        refine (hd.ppMem a).2 ?_
        change (w'.p.addrToNode a).statusPP = true
        cases hs : (w'.p.addrToNode a).statusPP with
        | true => rfl
        | false => exact absurd ⟨a, ha, hs⟩ hall
      have h3 := (List.Nodup.subperm h0.nodup hsub).length_le
      have h4 : o2.length = w'.p.ppSubmissionCount := hd.ordLen
      have h5 : w'.p.ppSubmissionCount < w'.p.memberCount ∨ w'.p.memberCount = 0 :=
        hd.nidkg (toZk_nidkg.2 hp)
      omega
    obtain ⟨a, ha, hst⟩ := hex
    refine ⟨a, ha, fun d hd => ?_⟩
    have hs := (self_of ht hi ha).1
    have hnx := step_deal hM ht hn hi ha hp hst d hd
    have he : nodePass M w'.p a (w'.node a) d = submitPP M w'.p a (w'.node a) d := by
      unfold nodePass
      dsimp only
      rw [if_pos hs, hp, hst]
      rfl
    rw [he]
    obtain ⟨f, c, p', e, _⟩ := hnx
    rw [e]
    rfl
  | NidkgComplete =>
    refine Or.inr (Or.inl ?_)
    obtain ⟨f, c, p', e, _⟩ := step_gpp hM.sound h0.owner_ne ht hn hi hp
    unfold adminPass
    rw [hp]
    dsimp only
    rw [e]
    rfl
  | Ready =>
    by_cases hc0 : w'.p.currentRoundNum = 0
    · refine Or.inr (Or.inl ?_)
      unfold adminPass
      rw [hp]
      dsimp only
      rw [if_neg (by decide), if_pos hc0]
      rfl
    · have hcK : w'.p.currentRoundNum ≤ 9 := by
        by_contra hgt
        exact hK ((C34_pre_rounds M.env hi.reach ht').1 K hK1 (by omega))
      by_cases hv : (w'.p.roundToRandom w'.p.currentRoundNum).value = 0
      · by_cases hq : w'.p.threshold ≤ w'.p.roundSubmissionCount w'.p.currentRoundNum
        · refine Or.inr (Or.inl ?_)
          obtain ⟨f, c, p', e, _⟩ := step_random hM.sound hM.hash h0.owner_ne ht hn hi hp hc0 hv hq
          unfold adminPass
          rw [hp]
          dsimp only
          rw [if_neg (by decide), if_neg hc0, if_pos ⟨hv, hq⟩, e]
          rfl
        · left
          have hev := Zkdvrf.evalInv hz
          have hqlt : w'.p.roundSubmissionCount w'.p.currentRoundNum < w'.p.threshold := by omega
          obtain ⟨c7, c8⟩ := c7 (by rw [hp]; exact Phase.noConfusion)
          have hex : ∃ a ∈ ws, w'.p.lastSubmittedRound a < w'.p.currentRoundNum := by
            by_contra hall
            have hfull : w'.p.roundSubmissionCount w'.p.currentRoundNum = w'.p.memberCount := by
              refine (hev.count w'.p.currentRoundNum).trans ?_
              rw [Finset.filter_true_of_mem, Finset.card_range]
              · rfl
              intro i hi'
              have hi' : i < w'.p.memberCount := Finset.mem_range.1 hi'
              obtain ⟨a, ha, rfl⟩ := c4 i (by rw [c7]; exact hi')
              have haw : a ∈ ws := (hi.added a).1 (c1 a ha)
              have hla : w'.p.lastSubmittedRound a = w'.p.currentRoundNum := by
                have h1 : w'.p.lastSubmittedRound a ≤ w'.p.currentRoundNum := hev.last_le a
                by_contra hne
                exact hall ⟨a, haw, by omega⟩
              have := (hev.last_stored a (by change 0 < w'.p.lastSubmittedRound a; omega)).2
              change (w'.p.roundToEval (w'.p.lastSubmittedRound a) (indexOf w'.p a)).indexPlus ≠ 0 at this
              rw [hla] at this
              exact this
            omega
          obtain ⟨a, ha, hl⟩ := hex
          refine ⟨a, ha, fun d _ => ?_⟩
          obtain ⟨f, c, p', e, _⟩ := step_eval hM.sound ht hn hi ha hp (by omega) hqlt d
          have hj : jsGreater w'.p.currentRoundNum (w'.p.lastSubmittedRound a) = true :=
            (C56_comparison_below_ten _ _ hcK (by omega)).2 hl
          unfold nodePass
          dsimp only
          rw [if_pos (self_of ht hi ha).1, hp]
          dsimp only
          rw [hj, if_pos (by rw [Bool.true_and]; exact decide_eq_true hqlt)]
          exact congrArg Out.sent e
      · refine Or.inr (Or.inr ⟨hv, ?_⟩)
        unfold adminTick
        rw [hp]
        dsimp only
        rw [if_pos (by rw [Bool.true_and, Bool.and_true]; exact decide_eq_true hc0)]
        rfl

private theorem honest_trans {M : Machine} {o : Address} {ws : List Address} {t n : ℕ} {aux1 : G1} {aux2 : G2}
    {w w' w'' : World} {N N' : ℕ} (h : Honest M o ws t n aux1 aux2 w N w')
    (h' : Honest M o ws t n aux1 aux2 w' N' w'') : Honest M o ws t n aux1 aux2 w (N + N') w'' := by
  induction h' with
  | refl => exact h
  | node a d ha hd _ ih => rw [← Nat.add_assoc]; exact .node a d ha hd ih
  | admin b _ ih => rw [← Nat.add_assoc]; exact .admin b ih
  | tick b e he _ ih => rw [← Nat.add_assoc]; exact .tick b e he ih

/-- C55. From every world that the services reach, they can go on, one transaction at a time, up to the
end of the ninth round. -/
theorem C55_completes (M : Machine) {o : Address} {ws : List Address} {t n : ℕ} {aux1 : G1}
    {aux2 : G2} (hM : Faithful M t n aux1 aux2) (d : Draw) (hd : GoodDraw t n aux1 aux2 d)
    {w w' : World} (h0 : Fresh M o ws t n w.p) {N : ℕ}
    (h : Honest M o ws t n aux1 aux2 w N w') :
    ∀ N', N + N' ≤ 2 * n + 2 + 9 * (t + 2) → ∃ w'', Honest M o ws t n aux1 aux2 w' N' w'' := by
  have hbound : 2 * n + 2 + 9 * (t + 2) < 2 ^ 254 := by
    have ht' : 1 ≤ w.p.threshold := by rw [h0.threshold]; exact h0.t_pos
    obtain ⟨_, o1, o2, hz⟩ := sim h0.reachable ht'
    have hb : 7 * w.p.memberCount + 14 < 2 ^ 32 := (Zkdvrf.regInv hz).bound
    rw [h0.members] at hb
    have := h0.t_le
    refine lt_trans (show 2 * n + 2 + 9 * (t + 2) < 2 ^ 40 by omega) (by decide +kernel)
  intro N'
  induction N' with
  | zero => exact fun _ => ⟨w', .refl⟩
  | succ j ih =>
    intro hle
    obtain ⟨w1, h1⟩ := ih (by omega)
    have hs := honest_trans h h1
    have hN' : N + j < 2 ^ 255 :=
      lt_trans (lt_of_lt_of_le (show N + j < N + (j + 1) by omega) hle) (lt_trans hbound (by decide +kernel))
    have hk : ¬ Completed w1.p 9 := by
      intro hk
      have := (C55_rounds M hM h0 hs hN' 9 (by norm_num)).1 hk
      omega
    have key : ∃ w2, Honest M o ws t n aux1 aux2 w1 1 w2 := by
      rcases C55_progress M hM h0 hs hN' 9 (by norm_num) le_rfl hk with ⟨a, ha, e⟩ | e | ⟨hc, e⟩
      · have := Honest.node (M := M) (o := o) (t := t) (n := n) (w := w1) a d ha hd .refl
        rw [e d hd] at this
        exact ⟨_, this⟩
      · have := Honest.admin (M := M) (o := o) (ws := ws) (t := t) (n := n) (aux1 := aux1)
          (aux2 := aux2) (w := w1) true .refl
        rw [e] at this
        exact ⟨_, this⟩
      · have := Honest.tick (M := M) (o := o) (ws := ws) (t := t) (n := n) (aux1 := aux1)
          (aux2 := aux2) (w := w1) true true (fun _ => hc) .refl
        rw [e] at this
        exact ⟨_, this⟩
    obtain ⟨w2, h2⟩ := key
    exact ⟨w2, honest_trans h1 h2⟩

/-! ### Concrete services meeting the hypotheses -/

open Classical in
/-- A machine with a concrete pairing, a prover and verifiers that work, threshold 2 of 3. -/
noncomputable def toyMachine : Machine where
  env := toyEnv 2 3
  prover := fun _ => some []
  verifier := fun _ _ => true
  infPanics := true

open Classical in
theorem toy_faithful : Faithful toyMachine 2 3 (5 • g1) FixedPoint.aux2 where
  sound := toy_sound 2 3
  table1 := FixedPoint.tableFitsN_spec addOrderOf_g1 (by decide +kernel)
  order2 := FixedPoint.r_nsmul_aux2
  table2 := FixedPoint.aux2_tableFits
  proves := fun ins h => ⟨[], rfl, rfl, congrArg some (decide_eq_true ⟨ins, rfl, h⟩)⟩
  hash := fun _ => by change (1 : Word) ≠ 0; decide +kernel

/-- Draws with which everything works: the polynomial is constant. -/
noncomputable def toyDraw : Draw := ⟨1, fun i => if i = 1 then 0 else 7, 3⟩

theorem toy_good : GoodDraw 2 3 (5 • g1) FixedPoint.aux2 toyDraw := by
  have hu1 : Spec.Usable g1 (5 • g1) (7 : Fr) :=
    ⟨7, by norm_num, rfl, FixedPoint.fitsN_spec addOrderOf_g1 (by decide +kernel)⟩
  have hu2 : Spec.Usable g2 FixedPoint.aux2 (7 : Fr) := toy_usable2
  refine ⟨?_, ?_, hu1, hu2, ?_⟩
  · change (1 : Fq) ≠ 0
    decide +kernel
  · change (7 : Fr) ≠ 0
    decide +kernel
  · intro i _ _
    have : Spec.poly ((List.range 2).map toyDraw.stream) (i : Fr) = 7 := by
      change Spec.poly [(7 : Fr), 0] (i : Fr) = 7
      simp [Spec.poly]
    rw [this]
    exact hu1

/-- The contract after its deployment and the addition of the nodes 1, 2 and 3. -/
theorem toy_fresh : ∃ p, Fresh toyMachine 7 [1, 2, 3] 2 3 p := by
  have add : ∀ (p : State) (a : Address), Reachable toyMachine.env p → p.owner = 7 →
      p.memberCount = 3 → p.currentIndex < 3 → a ≠ 0 → (p.addrToNode a).nodeAddress = 0 →
      ∃ p', Reachable toyMachine.env p' ∧ p' = { p with
        addrToNode := Function.update p.addrToNode a ⟨a, false, 0, false, 0⟩
        currentIndex := p.currentIndex + 1 } := by
    intro p a hr h1 h2 h3 h4 h5
    have e : exec toyMachine.env p ⟨7, 0⟩ (.addPermissionedNodes a) = some _ :=
      addPermissionedNodes_some.2 ⟨rfl, h1.symm, by rw [h2]; exact h3, h4, h5, by omega, rfl⟩
    exact ⟨_, reach_next hr (a := 7) (by decide) e, rfl⟩
  obtain ⟨p0, e0⟩ : ∃ p0, constructor ⟨7, 0⟩ 2 3 7 true true true 0 = some p0 :=
    ⟨_, constructor_some.2 ⟨rfl, by decide, rfl, by norm_num, by norm_num, by norm_num, by norm_num, rfl⟩⟩
  have r0 := Reachable.deploy (env := toyMachine.env) e0
  obtain ⟨_, _, _, _, _, _, _, rfl⟩ := constructor_some.1 e0
  obtain ⟨p1, r1, rfl⟩ := add _ 1 r0 rfl rfl (by norm_num) (by decide) rfl
  obtain ⟨p2, r2, rfl⟩ := add _ 2 r1 rfl rfl (by norm_num) (by decide) rfl
  obtain ⟨p3, r3, rfl⟩ := add _ 3 r2 rfl rfl (by norm_num) (by decide) rfl
  refine ⟨_, r3, rfl, by decide, rfl, rfl, by norm_num, by norm_num, rfl, rfl, rfl, by decide, rfl, ?_⟩
  intro a
  unfold Added
  dsimp only
  by_cases h3 : a = 3
  · subst h3; rw [Function.update_self]; decide
  · rw [Function.update_of_ne h3]
    by_cases h2 : a = 2
    · subst h2; rw [Function.update_self]; decide
    · rw [Function.update_of_ne h2]
      by_cases h1 : a = 1
      · subst h1; rw [Function.update_self]; decide
      · rw [Function.update_of_ne h1]
        constructor
        · intro h; exact absurd rfl h
        · intro h
          simp only [List.mem_cons, List.not_mem_nil, or_false] at h
          rcases h with h | h | h <;> contradiction

/-- The services of these three nodes, with any number of transactions up to the end of round 9. -/
theorem toy_world : ∃ w, Fresh toyMachine 7 [1, 2, 3] 2 3 w.p ∧ w.admin = .none ∧ ∀ N ≤ 44, ∃ w',
    Honest toyMachine 7 [1, 2, 3] 2 3 (5 • g1) FixedPoint.aux2 w N w' := by
  obtain ⟨p, hp⟩ := toy_fresh
  refine ⟨⟨p, .none, fun _ => .none⟩, hp, rfl, fun N hN => ?_⟩
  exact C55_completes toyMachine toy_faithful toyDraw toy_good
    (w := ⟨p, .none, fun _ => .none⟩) hp .refl N (by omega)

/-- They complete nine rounds. -/
theorem toy_nine : ∃ w N w', Fresh toyMachine 7 [1, 2, 3] 2 3 w.p ∧
    Honest toyMachine 7 [1, 2, 3] 2 3 (5 • g1) FixedPoint.aux2 w N w' ∧
    ∀ k, 1 ≤ k → k ≤ 9 → Completed w'.p k := by
  obtain ⟨w, hp, _, hw⟩ := toy_world
  obtain ⟨w', h1⟩ := hw 44 le_rfl
  refine ⟨w, 44, w', hp, h1, fun k k1 k9 => ?_⟩
  exact (C55_rounds toyMachine toy_faithful hp h1 (lt_trans (show 44 < 2 ^ 10 by norm_num)
    (by decide +kernel)) k k1).2 (by omega)

/-- `C56_violation_tenth_round` applies to them: they never complete the tenth. -/
example : ∃ w w', Deployed toyMachine 7 [1, 2, 3] w.p ∧ w.p.memberCount < 2 * w.p.threshold ∧
    Run toyMachine 7 [1, 2, 3] w w' ∧ (∀ k, 1 ≤ k → k ≤ 9 → Completed w'.p k) ∧
    ∀ w'', Run toyMachine 7 [1, 2, 3] w w'' → ¬ Completed w''.p 10 := by
  obtain ⟨w, N, w', h0, h1, h2⟩ := toy_nine
  have hd : Deployed toyMachine 7 [1, 2, 3] w.p := by
    refine ⟨h0.reachable, h0.owner, h0.owner_ne, by rw [h0.threshold]; norm_num,
      fun a ha => (h0.added a).1 ha, ?_, ?_⟩
    · intro a ha
      simp only [List.mem_cons, List.not_mem_nil, or_false] at ha
      rcases ha with rfl | rfl | rfl <;> decide
    · exact (early h0.reachable (by rw [h0.threshold]; norm_num)
        (by rw [h0.phase]; exact Phase.noConfusion)).2.2.1
  have hm : w.p.memberCount < 2 * w.p.threshold := by rw [h0.threshold, h0.members]; norm_num
  refine ⟨w, w', hd, hm, ?_, h2, fun w'' h => (C56_violation_tenth_round toyMachine hd hm h).1⟩
  clear h2
  induction h1 with
  | refl => exact .refl
  | node a d ha _ _ ih => exact .node a d ha ih
  | admin b _ ih => exact .admin b ih
  | tick b e _ _ ih => exact .tick b e ih


/-- They meet `C56_node_idle_in_round_ten` as well: in their tenth round, a member that has submitted for the
ninth does nothing, whatever its files and its randomness. -/
example : ∃ (p : State) (i : ℕ), Reachable toyMachine.env p ∧ Submitted p 9 i ∧ p.currentRoundNum = 10 ∧
    ∀ f d, nodePass toyMachine p (p.nodes i) f d = .idle := by
  obtain ⟨w, hp, _, hw⟩ := toy_world
  obtain ⟨w', h1⟩ := hw 44 le_rfl
  have hb : (44 : ℕ) < 2 ^ 255 := lt_trans (show 44 < 2 ^ 10 by norm_num) (by decide +kernel)
  have hi := honest_inv toy_faithful hp h1 hb.le
  have ht : 1 ≤ w'.p.threshold := by rw [hi.thr]; norm_num
  have h9 : Completed w'.p 9 := (C55_rounds toyMachine toy_faithful hp h1 hb 9 (by norm_num)).2 (by norm_num)
  obtain ⟨_, q2, q3, _, q5⟩ := C37_pre_quorum toyMachine.env hi.reach ht 9 h9
  have hk : w'.p.currentRoundNum = 9 := by
    have htx := hi.tx
    unfold work at htx
    rw [q3] at htx
    dsimp only at htx
    rw [if_neg (by omega)] at htx
    omega
  have hN : Next toyMachine 7 [1, 2, 3] 2 3 44 w'.p 7 (fun p' f => { w' with p := p', admin := f })
      (.send w'.admin .initiateRandom) :=
    step_open (by decide) (by norm_num) (by norm_num) hi q3 (by rw [hk]; norm_num) (Or.inr (by rw [hk]; exact h9))
  obtain ⟨f, c, p', hc, he, _⟩ := hN
  cases hc
  have hr' := reach_next hi.reach (by decide) he
  obtain ⟨i, -, hsub⟩ : ∃ i, i < w'.p.memberCount ∧ Submitted w'.p 9 i := by
    by_contra hno
    push Not at hno
    have : IsEmpty {i : ℕ // i < w'.p.memberCount ∧ Submitted w'.p 9 i} := ⟨fun x => hno x.1 x.2.1 x.2.2⟩
    rw [Nat.card_of_isEmpty] at q5
    omega
  obtain ⟨hx, o1, o2, hz⟩ := sim hi.reach ht
  have hev := Zkdvrf.evalInv hz
  obtain ⟨_, _, _, _, hle, _⟩ := hev.stored 9 i hsub
  have hge := hev.last_le (w'.p.nodes i)
  have hge' : w'.p.lastSubmittedRound (w'.p.nodes i) ≤ w'.p.currentRoundNum := hge
  have hle' : 9 ≤ w'.p.lastSubmittedRound (w'.p.nodes i) := hle
  obtain ⟨_, _, _, _, _, _, _, hp'⟩ := initiateRandom_some.1 he
  have e1 : p'.currentRoundNum = 10 := by rw [← hp']; show w'.p.currentRoundNum + 1 = 10; rw [hk]
  have e2 : p'.lastSubmittedRound (p'.nodes i) = w'.p.lastSubmittedRound (w'.p.nodes i) := by rw [← hp']
  refine ⟨p', i, hr', by rw [← hp']; exact hsub, e1, fun f d => ?_⟩
  exact C56_node_idle_in_round_ten toyMachine p' (by rw [← hp']; exact q3) e1 _ (by omega) (by omega) f d

end Verif.Props
