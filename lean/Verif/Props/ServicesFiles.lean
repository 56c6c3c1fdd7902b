import Verif.Lemmas.ServicesFilesSim

/-! C91: services that keep their data in files and can be stopped at any point. -/

namespace Verif.Props
open Disk Disk.Prog Spec ServicesFiles
open Services (Machine Draw GoodDraw Faithful Fresh)
open ZkdvrfPre (State Completed Registered indexOf)

/-- C91. Stops and restarts do not change what can happen on the chain: the contract is in a state of a
history of C55, without stops and with as many transactions. -/
theorem C91_same_chain (M : Machine) {o : Address} {ws : List Address} {t n : ℕ} {aux1 : G1} {aux2 : G2}
    (hM : Faithful M t n aux1 aux2) {w w' : World} (h0 : Fresh M o ws t n w.p) {N : ℕ}
    (h : Honest M o ws t n aux1 aux2 w N w') (hN : N < 2 ^ 255) :
    ∃ v v', v.p = w.p ∧ v'.p = w'.p ∧ Services.Honest M o ws t n aux1 aux2 v N v' := by
  obtain ⟨v, hv⟩ := simulated hM h0 h hN
  exact ⟨_, v, rfl, hv.state, hv.honest⟩

/-- C91. Whatever was stopped before: no pass fails and no transaction reverts. -/
theorem C91_no_failure (M : Machine) {o : Address} {ws : List Address} {t n : ℕ} {aux1 : G1} {aux2 : G2}
    (hM : Faithful M t n aux1 aux2) {w w' : World} (h0 : Fresh M o ws t n w.p) {N : ℕ}
    (h : Honest M o ws t n aux1 aux2 w N w') (hN : N < 2 ^ 255) :
    (∀ a ∈ ws, ∀ d, GoodDraw t n aux1 aux2 d → Fine M w'.p a ((nodePass M w'.p a d).run (w'.node a)).2) ∧
    ∀ d begun, Fine M w'.p o ((adminPass M w'.p d begun).run w'.admin).2 := by
  obtain ⟨v, hv⟩ := simulated hM h0 h hN
  have h0' : Fresh M o ws t n (⟨w.p, .none, fun _ => .none⟩ : Services.World).p := h0
  obtain ⟨f1, f2, -⟩ := C55_no_failure M hM h0' hv.honest hN
  refine ⟨fun a ha d hd => ?_, fun d begun => ?_⟩
  · obtain ⟨s', r1, -⟩ := hv.nodeRun hM h0' hN ha hd
    have hf := f1 a ha d hd
    rw [hv.state] at hf
    rw [r1]
    cases ho : Services.nodePass M w'.p a (v.node a) d with
    | idle => trivial
    | failed f => rw [ho] at hf; exact hf
    | send f c => rw [ho] at hf; exact hf
  · obtain ⟨s', r1, -⟩ := hv.adminRun hM h0' hN d begun
    have hf := f2 begun
    rw [hv.state] at hf
    rw [r1]
    cases ho : Services.adminPass M w'.p v.admin begun with
    | idle => trivial
    | failed f => rw [ho] at hf; exact hf
    | send f c => rw [ho] at hf; exact hf

/-- C91. Round `K` is complete exactly after `2n + 2 + K (t + 2)` transactions, however often services were
stopped. -/
theorem C91_rounds (M : Machine) {o : Address} {ws : List Address} {t n : ℕ} {aux1 : G1} {aux2 : G2}
    (hM : Faithful M t n aux1 aux2) {w w' : World} (h0 : Fresh M o ws t n w.p) {N : ℕ}
    (h : Honest M o ws t n aux1 aux2 w N w') (hN : N < 2 ^ 255) (K : ℕ) (hK : 1 ≤ K) :
    Completed w'.p K ↔ 2 * n + 2 + K * (t + 2) ≤ N := by
  obtain ⟨v, hv⟩ := simulated hM h0 h hN
  rw [← hv.state]
  exact C55_rounds M hM (w := ⟨w.p, .none, fun _ => .none⟩) h0 hv.honest hN K hK

/-- C91. While one of the first nine rounds is not complete, some service has something to send, whatever
was stopped before. -/
theorem C91_progress (M : Machine) {o : Address} {ws : List Address} {t n : ℕ} {aux1 : G1} {aux2 : G2}
    (hM : Faithful M t n aux1 aux2) {w w' : World} (h0 : Fresh M o ws t n w.p) {N : ℕ}
    (h : Honest M o ws t n aux1 aux2 w N w') (hN : N < 2 ^ 255) (K : ℕ) (hK1 : 1 ≤ K) (hK9 : K ≤ 9)
    (hK : ¬ Completed w'.p K) :
    (∃ a ∈ ws, ∀ d, GoodDraw t n aux1 aux2 d → sent ((nodePass M w'.p a d).run (w'.node a)).2 = 1) ∨
    (∀ d, sent ((adminPass M w'.p d true).run w'.admin).2 = 1) ∨
    Completed w'.p w'.p.currentRoundNum ∧ (Services.adminTick w'.p .none true true).sent = 1 := by
  obtain ⟨v, hv⟩ := simulated hM h0 h hN
  have h0' : Fresh M o ws t n (⟨w.p, .none, fun _ => .none⟩ : Services.World).p := h0
  have hK' : ¬ Completed v.p K := by rw [hv.state]; exact hK
  have hp := C55_progress M hM h0' hv.honest hN K hK1 hK9 hK'
  rw [hv.state] at hp
  rcases hp with ⟨a, ha, e⟩ | e | ⟨hc, e⟩
  · refine Or.inl ⟨a, ha, fun d hd => ?_⟩
    obtain ⟨s', r1, -⟩ := hv.nodeRun hM h0' hN ha hd
    rw [r1]
    exact (sent_resultOf _).trans (e d hd)
  · refine Or.inr (Or.inl (fun d => ?_))
    obtain ⟨s', r1, -⟩ := hv.adminRun hM h0' hN d true
    rw [r1]
    exact (sent_resultOf _).trans e
  · refine Or.inr (Or.inr ⟨hc, ?_⟩)
    rcases tick_out w'.p .none v.admin true true with ⟨k1, k2⟩ | ⟨-, k1, k2⟩
    · rw [k2] at e; cases e
    · rw [k1]; rfl

theorem files_trans {M : Machine} {o : Address} {ws : List Address} {t n : ℕ} {aux1 : G1} {aux2 : G2}
    {w w' w'' : World} {N N' : ℕ} (h : Honest M o ws t n aux1 aux2 w N w')
    (h' : Honest M o ws t n aux1 aux2 w' N' w'') : Honest M o ws t n aux1 aux2 w (N + N') w'' := by
  induction h' with
  | refl => exact h
  | node a d ha hd _ ih => rw [← Nat.add_assoc]; exact .node a d ha hd ih
  | nodeStopped a d s hs _ ih => exact .nodeStopped a d s hs ih
  | admin d b _ ih => rw [← Nat.add_assoc]; exact .admin d b ih
  | adminStopped d b s hs _ ih => exact .adminStopped d b s hs ih
  | tick b e he _ ih => rw [← Nat.add_assoc]; exact .tick b e he ih

/-- C91. From every such history, with any stops, the services can go on to complete nine rounds. -/
theorem C91_completes (M : Machine) {o : Address} {ws : List Address} {t n : ℕ} {aux1 : G1} {aux2 : G2}
    (hM : Faithful M t n aux1 aux2) (d : Draw) (hd : GoodDraw t n aux1 aux2 d) {w w' : World}
    (h0 : Fresh M o ws t n w.p) {N : ℕ} (h : Honest M o ws t n aux1 aux2 w N w') :
    ∀ N', N + N' ≤ 2 * n + 2 + 9 * (t + 2) → ∃ w'', Honest M o ws t n aux1 aux2 w' N' w'' := by
  have hbound : 2 * n + 2 + 9 * (t + 2) < 2 ^ 254 := by
    have ht' : 1 ≤ w.p.threshold := by rw [h0.threshold]; exact h0.t_pos
    obtain ⟨_, o1, o2, hz⟩ := ZkdvrfPre.sim h0.reachable ht'
    have hb : 7 * w.p.memberCount + 14 < 2 ^ 32 := (Zkdvrf.regInv hz).bound
    rw [h0.members] at hb
    have := h0.t_le
    refine lt_trans (show 2 * n + 2 + 9 * (t + 2) < 2 ^ 40 by omega) (by decide +kernel)
  intro N'
  induction N' with
  | zero => exact fun _ => ⟨w', .refl⟩
  | succ j ih =>
    intro hle
    obtain ⟨w1, h1⟩ := ih (by omega)
    have hs := files_trans h h1
    have hN' : N + j < 2 ^ 255 :=
      lt_trans (lt_of_lt_of_le (show N + j < N + (j + 1) by omega) hle) (lt_trans hbound (by decide +kernel))
    have hk : ¬ Completed w1.p 9 := by
      intro hk
      have := (C91_rounds M hM h0 hs hN' 9 (by norm_num)).1 hk
      omega
    have key : ∃ w2, Honest M o ws t n aux1 aux2 w1 1 w2 := by
      rcases C91_progress M hM h0 hs hN' 9 (by norm_num) le_rfl hk with ⟨a, ha, e⟩ | e | ⟨hc, e⟩
      · have := Honest.node (M := M) (o := o) (t := t) (n := n) (w := w1) a d ha hd .refl
        rw [e d hd] at this
        exact ⟨_, this⟩
      · have := Honest.admin (M := M) (o := o) (ws := ws) (t := t) (n := n) (aux1 := aux1)
          (aux2 := aux2) (w := w1) d true .refl
        rw [e d] at this
        exact ⟨_, this⟩
      · have := Honest.tick (M := M) (o := o) (ws := ws) (t := t) (n := n) (aux1 := aux1)
          (aux2 := aux2) (w := w1) true true (fun _ => hc) .refl
        rw [e] at this
        exact ⟨_, this⟩
    obtain ⟨w2, h2⟩ := key
    exact ⟨w2, files_trans h1 h2⟩

/-- C91. The secret of every registered key is in the key file of its node. -/
theorem C91_keys (M : Machine) {o : Address} {ws : List Address} {t n : ℕ} {aux1 : G1} {aux2 : G2}
    (hM : Faithful M t n aux1 aux2) {w w' : World} (h0 : Fresh M o ws t n w.p) {N : ℕ}
    (h : Honest M o ws t n aux1 aux2 w N w') (hN : N < 2 ^ 255) (a : Address) (ha : Registered w'.p a) :
    ∃ sk : Fq, sk ≠ 0 ∧ w'.p.pkList[indexOf w'.p a]? = some (Zkdvrf.keyWords (sk • gk)) ∧
      load (w'.node a) (.member (memberName M.env.keccak a)) = some (Client.keygen sk) := by
  obtain ⟨v, hv⟩ := simulated hM h0 h hN
  have hi := hv.inv hM h0 hN
  have ha' : Registered v.p a := by rw [hv.state]; exact ha
  obtain ⟨sk, k1, k2, k3⟩ := hi.keys a ha'
  rw [hv.state] at k3
  exact ⟨sk, k1, k3, ((hv.node a).member ha).trans k2⟩

/-- C91. A pass that is started again after a stop does what it would have done without the stop. -/
theorem C91_restart (M : Machine) {o : Address} {ws : List Address} {t n : ℕ} {aux1 : G1} {aux2 : G2}
    (hM : Faithful M t n aux1 aux2) {w w' : World} (h0 : Fresh M o ws t n w.p) {N : ℕ}
    (h : Honest M o ws t n aux1 aux2 w N w') (hN : N < 2 ^ 255) :
    (∀ a ∈ ws, ∀ d d' s, GoodDraw t n aux1 aux2 d → Stopped (nodePass M w'.p a d') (w'.node a) s →
      ((nodePass M w'.p a d).run s).2 = ((nodePass M w'.p a d).run (w'.node a)).2) ∧
    ∀ d d' begun begun' s, Stopped (adminPass M w'.p d' begun') w'.admin s →
      ((adminPass M w'.p d begun).run s).2 = ((adminPass M w'.p d begun).run w'.admin).2 := by
  obtain ⟨v, hv⟩ := simulated hM h0 h hN
  have h0' : Fresh M o ws t n (⟨w.p, .none, fun _ => .none⟩ : Services.World).p := h0
  refine ⟨fun a ha d d' s hd hs => ?_, fun d d' begun begun' s hs => ?_⟩
  · obtain ⟨s1, r1, -⟩ := hv.nodeRun hM h0' hN ha hd
    obtain ⟨s2, r2, -⟩ := (hv.nodeStopped hM h0' hN hs).nodeRun hM h0' hN ha hd
    dsimp only at r2
    rw [Function.update_self] at r2
    rw [r1, r2]
  · obtain ⟨s1, r1, -⟩ := hv.adminRun hM h0' hN d begun
    obtain ⟨s2, r2, -⟩ := (hv.adminStopped hM h0' hN hs).adminRun hM h0' hN d begun
    dsimp only at r2
    rw [r1, r2]

theorem registration_keygen (sk : Fq) :
    Client.registration (Client.keygen sk) = some (Zkdvrf.keyWords (sk • gk)) := by
  unfold Client.registration Client.keygen MemberKeySerde.of PointSerde.ofGk
  simp only [Client.wordOfHex_Fr]
  rfl

/-- The secret of a registered key can be lost.  A node is stopped after it has sent its registration and
before that is mined.  Started again, it finds itself unregistered, overwrites its key file with a new
key and sends a second registration.  The first one is accepted and the second reverts: the key file is
not for the registered key. -/
theorem C91_violation_pending (M : Machine) {o : Address} {ws : List Address} {t n : ℕ} {p : State}
    (h0 : Fresh M o ws t n p) (a : Address) (ha : a ∈ ws) (d₁ d₂ : Draw) (h1 : d₁.sk ≠ 0) (h2 : d₂.sk ≠ 0)
    (hne : d₁.sk ≠ d₂.sk) (s : Store) :
    ∃ s₁ c₁ s₂ c₂ p', (nodePass M p a d₁).run s = (s₁, .ok (some c₁)) ∧
      (nodePass M p a d₂).run s₁ = (s₂, .ok (some c₂)) ∧
      ZkdvrfPre.exec M.env p ⟨a, 0⟩ c₁ = some p' ∧ ZkdvrfPre.exec M.env p' ⟨a, 0⟩ c₂ = none ∧
      Registered p' a ∧
      p'.pkList[indexOf p' a]? = some (Zkdvrf.keyWords (d₁.sk • gk)) ∧
      load s₂ (.member (memberName M.env.keccak a)) = some (Client.keygen d₂.sk) ∧
      Zkdvrf.keyWords (d₂.sk • gk) ≠ Zkdvrf.keyWords (d₁.sk • gk) := by
  have ht' : 1 ≤ p.threshold := by rw [h0.threshold]; exact h0.t_pos
  obtain ⟨hx, o1, o2, hz⟩ := ZkdvrfPre.sim h0.reachable ht'
  have hreg := Zkdvrf.regInv hz
  have hadd := (h0.added a).2 ha
  have hself : (p.addrToNode a).nodeAddress = a := hreg.addr_self a hadd
  have ha0 : a ≠ 0 := by
    rintro rfl
    exact hadd hself
  have hst : (p.addrToNode a).status = false := by
    cases hs : (p.addrToNode a).status with
    | false => rfl
    | true =>
      have := (C31_pre_registration M.env h0.reachable ht').2.1 a hs
      rw [h0.keys] at this
      exact absurd this (Nat.not_lt_zero _)
  have key : ∀ d : Draw, d.sk ≠ 0 → Client.registration (Client.keygen d.sk) = some (Zkdvrf.keyWords (d.sk • gk)) ∧
      ∃ p', ZkdvrfPre.exec M.env p ⟨a, 0⟩ (.registerNode (Zkdvrf.keyWords (d.sk • gk))) = some p' := by
    intro d hd
    obtain ⟨r1, r2, _⟩ := C54_register M.env hz (ZkdvrfPre.toZk_unreg.2 (Or.inl h0.phase)) ⟨a, 0⟩ hadd
      (by unfold Zkdvrf.Registered; change ¬ (p.addrToNode a).status = true; rw [hst]; exact Bool.noConfusion)
      (by change p.minNodeDeposit ≤ 0; rw [h0.deposit]) d.sk
    obtain ⟨s', he⟩ := r2.2 hd
    obtain ⟨p', o1', o2', he, -⟩ := ZkdvrfPre.sim_back hz hx ha0
      (by have := h0.t_pos; have := h0.t_le; rw [h0.members]; omega) (Or.inl rfl) he
    exact ⟨r1, p', he⟩
  have hrun : ∀ (d : Draw), d.sk ≠ 0 → ∀ s : Store, (nodePass M p a d).run s =
      (save s (.member (memberName M.env.keccak a)) (Client.keygen d.sk),
        .ok (some (.registerNode (Zkdvrf.keyWords (d.sk • gk))))) := by
    intro d hd s
    unfold nodePass
    dsimp only
    rw [if_pos hself, h0.phase]
    dsimp only
    rw [hst]
    exact sending_run (register_run p a d s (key d hd).1)
  obtain ⟨p', he⟩ := (key d₁ h1).2
  obtain ⟨_, _, _, _, _, _, _, hp'⟩ := ZkdvrfPre.registerNode_some.1 he
  have hpk : p.pkListIndex = p.pkList.length := by
    have e1 : p.pkListIndex = p.registeredCount := hreg.pkIdx
    have e2 : p.pkList.length = p.registeredCount := hreg.pkLen
    rw [e1, e2]
  have hstat : (p'.addrToNode a).status = true := by
    rw [← hp']
    dsimp only
    rw [Function.update_self]
  refine ⟨_, _, _, _, p', hrun d₁ h1 s, hrun d₂ h2 _, he, ?_, hstat, ?_, load_save (Serde.good_member _ 125) _ _, ?_⟩
  · cases hc : ZkdvrfPre.exec M.env p' ⟨a, 0⟩ (.registerNode (Zkdvrf.keyWords (d₂.sk • gk))) with
    | none => rfl
    | some p'' =>
      obtain ⟨_, _, hs, _⟩ := ZkdvrfPre.registerNode_some.1 hc
      dsimp only at hs
      rw [hstat] at hs
      cases hs
  · rw [← hp']
    unfold indexOf
    dsimp only
    rw [Function.update_self]
    dsimp only
    rw [hpk, List.getElem?_concat_length]
  · intro hk
    have := Client.keyWords_inj hk
    have h3 : (d₂.sk - d₁.sk) • gk = 0 := by rw [sub_smul, this, sub_self]
    rcases smul_Gk_eq_zero h3 with h4 | h4
    · exact hne (sub_eq_zero.1 h4).symm
    · exact gk_ne_zero h4

/-- C91. Node 1 of three is stopped while it writes its key file, which is left empty; the data directories
were in any state before.  Afterwards the services complete nine rounds in 44 transactions. -/
example (s₀ : Store) : ∃ w w₁ w', Fresh toyMachine 7 [1, 2, 3] 2 3 w.p ∧ (∀ a, w.node a = s₀) ∧
    Honest toyMachine 7 [1, 2, 3] 2 3 (5 • g1) FixedPoint.aux2 w 0 w₁ ∧
    w₁.node 1 (DataFile.member (memberName toyMachine.env.keccak 1)).name = some [] ∧
    Honest toyMachine 7 [1, 2, 3] 2 3 (5 • g1) FixedPoint.aux2 w₁ 44 w' ∧
    ∀ k, 1 ≤ k → k ≤ 9 → Completed w'.p k := by
  obtain ⟨p, hp⟩ := toy_fresh
  have ht' : 1 ≤ p.threshold := by rw [hp.threshold]; norm_num
  obtain ⟨hx, o1, o2, hz⟩ := ZkdvrfPre.sim hp.reachable ht'
  have hself : (p.addrToNode 1).nodeAddress = 1 := (Zkdvrf.regInv hz).addr_self 1 ((hp.added 1).2 (by simp))
  have hst : (p.addrToNode 1).status = false := by
    cases hs : (p.addrToNode 1).status with
    | false => rfl
    | true =>
      have := (C31_pre_registration toyMachine.env hp.reachable ht').2.1 1 hs
      rw [hp.keys] at this
      exact absurd this (Nat.not_lt_zero _)
  have hstop : Stopped (nodePass toyMachine p 1 toyDraw) s₀
      (put s₀ (DataFile.member (memberName toyMachine.env.keccak 1)).name []) := by
    unfold nodePass
    dsimp only
    rw [if_pos hself, hp.phase]
    dsimp only
    rw [hst]
    exact .torn (List.nil_prefix)
  have h1 : Honest toyMachine 7 [1, 2, 3] 2 3 (5 • g1) FixedPoint.aux2 ⟨p, s₀, fun _ => s₀⟩ 0 _ :=
    .nodeStopped 1 toyDraw _ hstop .refl
  obtain ⟨w', h2⟩ := C91_completes toyMachine toy_faithful toyDraw toy_good hp h1 44 (by norm_num)
  refine ⟨_, _, w', hp, fun _ => rfl, h1, ?_, h2, fun k k1 k9 => ?_⟩
  · dsimp only
    rw [Function.update_self, put_eq]
  · exact (C91_rounds toyMachine toy_faithful hp (files_trans h1 h2) (lt_trans (show 0 + 44 < 2 ^ 10 by norm_num)
      (by decide +kernel)) k k1).2 (by omega)

/-- C91. The loss of a registered key happens with these services. -/
example (s₀ : Store) : ∃ p d₂ s₁ c₁ s₂ p', Fresh toyMachine 7 [1, 2, 3] 2 3 p ∧
    (nodePass toyMachine p 1 toyDraw).run s₀ = (s₁, .ok (some c₁)) ∧
    ((nodePass toyMachine p 1 d₂).run s₁).1 = s₂ ∧
    ZkdvrfPre.exec toyMachine.env p ⟨1, 0⟩ c₁ = some p' ∧ Registered p' 1 ∧
    ∀ m, load s₂ (.member (memberName toyMachine.env.keccak 1)) = some m →
      Client.registration m ≠ p'.pkList[indexOf p' 1]? := by
  obtain ⟨p, hp⟩ := toy_fresh
  have h1 := toy_good.sk
  have hne : (toyDraw.sk : Fq) ≠ -toyDraw.sk := by
    unfold toyDraw
    decide +kernel
  obtain ⟨s₁, c₁, s₂, c₂, p', e1, e2, e3, e4, e5, e6, e7, e8⟩ := C91_violation_pending toyMachine hp 1 (by simp)
    toyDraw { toyDraw with sk := -toyDraw.sk } h1 (neg_ne_zero.2 h1) hne s₀
  refine ⟨p, { toyDraw with sk := -toyDraw.sk }, s₁, c₁, s₂, p', hp, e1, by rw [e2], e3, e5, ?_⟩
  intro m hm
  rw [e7] at hm
  cases hm
  rw [e6, registration_keygen]
  exact fun h => e8 (Option.some.inj h)

end Verif.Props
