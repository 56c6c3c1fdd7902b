import Verif.Lemmas.ServicesProofsSim
import Verif.Props.History

/-! C94: services with any proof system. -/

namespace Verif.Props
open Disk Disk.Prog Spec ServicesFiles
open Services (Machine Draw GoodDraw Faithful Fresh)
open ZkdvrfPre (State Completed Registered indexOf)

/-- C94. With any prover, any verifier of the client and any verifier of the contract, sound or not, working or
not: round `K` is complete exactly after `2n + 2 + K (t + 2)` transactions that the contract accepted. -/
theorem C94_rounds (M : Machine) {o : Address} {ws : List Address} {t n : ℕ} {aux1 : G1} {aux2 : G2}
    (hM : Sane M aux1 aux2) {w w' : World} (h0 : Fresh M o ws t n w.p) {N : ℕ}
    (h : Accepting M o ws t n aux1 aux2 w N w') (hN : N < 2 ^ 255) (K : ℕ) (hK : 1 ≤ K) :
    Completed w'.p K ↔ 2 * n + 2 + K * (t + 2) ≤ N :=
  C91_rounds _ (ideal_faithful hM) (ideal_fresh h0) (to_ideal hM h0 h hN) hN K hK

/-- C94. Whatever failed before: no pass fails and no transaction reverts, except possibly the submission of
parameters. -/
theorem C94_other_passes (M : Machine) {o : Address} {ws : List Address} {t n : ℕ} {aux1 : G1} {aux2 : G2}
    (hM : Sane M aux1 aux2) {w w' : World} (h0 : Fresh M o ws t n w.p) {N : ℕ}
    (h : Accepting M o ws t n aux1 aux2 w N w') (hN : N < 2 ^ 255) :
    (∀ a ∈ ws, ∀ d, GoodDraw t n aux1 aux2 d →
      w'.p.contractPhase ≠ .Nidkg ∨ (w'.p.addrToNode a).statusPP = true →
      Fine M w'.p a ((nodePass M w'.p a d).run (w'.node a)).2) ∧
    (∀ d begun, Fine M w'.p o ((adminPass M w'.p d begun).run w'.admin).2) ∧
    ∀ begun elapsed, (elapsed = true → Completed w'.p w'.p.currentRoundNum) →
      Services.Fine M w'.p o (Services.adminTick w'.p .none begun elapsed) := by
  have hi := to_ideal hM h0 h hN
  refine ⟨fun a ha d hd hx => ?_, fun d begun => (admin_ideal hM h0 hi hN d begun).2,
    fun begun elapsed he => (tick_ideal hM h0 hi hN begun elapsed he).2⟩
  have hf := (C91_no_failure _ (ideal_faithful hM) (ideal_fresh h0) hi hN).1 a ha d hd
  rw [nodePass_outside w'.p a d hx] at hf
  generalize hr : (nodePass M w'.p a d).run (w'.node a) = x at hf ⊢
  obtain ⟨s, res⟩ := x
  cases res with
  | error e => exact hf
  | ok res =>
    cases res with
    | none => trivial
    | some c =>
      obtain ⟨p', he⟩ := hf
      rcases hx with hx | hx
      · rw [exec_outside c hx] at he
        exact ⟨p', he⟩
      · by_cases hp : w'.p.contractPhase = .Nidkg
        · exfalso
          unfold nodePass at hr
          dsimp only at hr
          split at hr
          · rw [hp] at hr
            dsimp only at hr
            rw [hx] at hr
            cases congrArg Prod.snd hr
          · cases congrArg Prod.snd hr
        · rw [exec_outside c hp] at he
          exact ⟨p', he⟩

/-- C94. A submission of parameters succeeds exactly when the proof system works on the instance that is
dealt; the circuit can be satisfied with that instance. -/
theorem C94_dealing (M : Machine) {o : Address} {ws : List Address} {t n : ℕ} {aux1 : G1} {aux2 : G2}
    (hM : Sane M aux1 aux2) {w w' : World} (h0 : Fresh M o ws t n w.p) {N : ℕ}
    (h : Accepting M o ws t n aux1 aux2 w N w') (hN : N < 2 ^ 255) (a : Address) (ha : a ∈ ws) (d : Draw)
    (hd : GoodDraw t n aux1 aux2 d) (hp : w'.p.contractPhase = .Nidkg)
    (hst : (w'.p.addrToNode a).statusPP = false) :
    ∃ ins, Deals M w'.p d ins ∧ DkgCircuit.synthesize ⟨t, n⟩ aux1 aux2 ins ∧
      (Fine M w'.p a ((nodePass M w'.p a d).run (w'.node a)).2 ↔ ProofAccepted M ins) :=
  dealing hM h0 (to_ideal hM h0 h hN) hN ha hd hp hst

/-- C94. If every instance with which the circuit can be satisfied is proved and accepted, no pass fails and no
transaction reverts: soundness is not needed for that. -/
theorem C94_no_failure (M : Machine) {o : Address} {ws : List Address} {t n : ℕ} {aux1 : G1} {aux2 : G2}
    (hM : Sane M aux1 aux2) (hc : ∀ ins, DkgCircuit.synthesize ⟨t, n⟩ aux1 aux2 ins → ProofAccepted M ins)
    {w w' : World} (h0 : Fresh M o ws t n w.p) {N : ℕ}
    (h : Accepting M o ws t n aux1 aux2 w N w') (hN : N < 2 ^ 255) (a : Address) (ha : a ∈ ws) (d : Draw)
    (hd : GoodDraw t n aux1 aux2 d) : Fine M w'.p a ((nodePass M w'.p a d).run (w'.node a)).2 := by
  by_cases hx : w'.p.contractPhase = .Nidkg
  · cases hst : (w'.p.addrToNode a).statusPP with
    | true => exact (C94_other_passes M hM h0 h hN).1 a ha d hd (Or.inr hst)
    | false =>
      obtain ⟨ins, -, h1, h2⟩ := C94_dealing M hM h0 h hN a ha d hd hx hst
      exact h2.2 (hc ins h1)
  · exact (C94_other_passes M hM h0 h hN).1 a ha d hd (Or.inl hx)

/-- C94. While one of the first nine rounds is not complete, some service has a transaction to send that the
contract accepts, or the DKG is going on and a node has to submit its parameters. -/
theorem C94_progress (M : Machine) {o : Address} {ws : List Address} {t n : ℕ} {aux1 : G1} {aux2 : G2}
    (hM : Sane M aux1 aux2) {w w' : World} (h0 : Fresh M o ws t n w.p) {N : ℕ}
    (h : Accepting M o ws t n aux1 aux2 w N w') (hN : N < 2 ^ 255) (K : ℕ) (hK1 : 1 ≤ K) (hK9 : K ≤ 9)
    (hK : ¬ Completed w'.p K) :
    (∃ a ∈ ws, w'.p.contractPhase = .Nidkg ∧ (w'.p.addrToNode a).statusPP = false) ∨
    (∃ a ∈ ws, ∀ d, GoodDraw t n aux1 aux2 d → landed M w'.p a ((nodePass M w'.p a d).run (w'.node a)).2 = 1) ∨
    (∀ d, landed M w'.p o ((adminPass M w'.p d true).run w'.admin).2 = 1) ∨
    Completed w'.p w'.p.currentRoundNum ∧ landedTick M w'.p o (Services.adminTick w'.p .none true true) = 1 := by
  have hi := to_ideal hM h0 h hN
  obtain ⟨f1, f2, f3⟩ := C94_other_passes M hM h0 h hN
  rcases C91_progress _ (ideal_faithful hM) (ideal_fresh h0) hi hN K hK1 hK9 hK with ⟨a, ha, e⟩ | e | ⟨hc, e⟩
  · by_cases hx : w'.p.contractPhase ≠ .Nidkg ∨ (w'.p.addrToNode a).statusPP = true
    · refine Or.inr (Or.inl ⟨a, ha, fun d hd => ?_⟩)
      have e' := e d hd
      rw [nodePass_outside w'.p a d hx] at e'
      exact landed_of_fine (f1 a ha d hd hx) e'
    · push Not at hx
      exact Or.inl ⟨a, ha, hx.1, Bool.eq_false_iff.2 hx.2⟩
  · exact Or.inr (Or.inr (Or.inl (fun d => landed_of_fine (f2 d true) (e d))))
  · exact Or.inr (Or.inr (Or.inr ⟨hc, landedTick_of_fine (f3 true true (fun _ => hc)) e⟩))

theorem accepting_trans {M : Machine} {o : Address} {ws : List Address} {t n : ℕ} {aux1 : G1} {aux2 : G2}
    {w w' w'' : World} {N N' : ℕ} (h : Accepting M o ws t n aux1 aux2 w N w')
    (h' : Accepting M o ws t n aux1 aux2 w' N' w'') : Accepting M o ws t n aux1 aux2 w (N + N') w'' := by
  induction h' with
  | refl => exact h
  | node a d ha hd _ ih => rw [← Nat.add_assoc]; exact .node a d ha hd ih
  | nodeStopped a d s hs _ ih => exact .nodeStopped a d s hs ih
  | admin d b _ ih => rw [← Nat.add_assoc]; exact .admin d b ih
  | adminStopped d b s hs _ ih => exact .adminStopped d b s hs ih
  | tick b e he _ ih => rw [← Nat.add_assoc]; exact .tick b e he ih

private theorem extend (M : Machine) {o : Address} {ws : List Address} {t n : ℕ} {aux1 : G1} {aux2 : G2}
    (hM : Sane M aux1 aux2) (d : Draw) (hd : GoodDraw t n aux1 aux2 d) {w w' : World}
    (h0 : Fresh M o ws t n w.p) {N : ℕ} (h : Accepting M o ws t n aux1 aux2 w N w') (B : ℕ)
    (hB : B ≤ 2 * n + 2 + 9 * (t + 2))
    (hdeal : ∀ N' w'', Accepting M o ws t n aux1 aux2 w N' w'' → N' < B → N' < 2 ^ 255 → ∀ a ∈ ws,
      w''.p.contractPhase = .Nidkg → (w''.p.addrToNode a).statusPP = false →
      landed M w''.p a ((nodePass M w''.p a d).run (w''.node a)).2 = 1) :
    ∀ N', N + N' ≤ B → ∃ w'', Accepting M o ws t n aux1 aux2 w' N' w'' := by
  have hbound : 2 * n + 2 + 9 * (t + 2) < 2 ^ 254 := by
    have ht' : 1 ≤ w.p.threshold := by rw [h0.threshold]; exact h0.t_pos
    obtain ⟨_, o1, o2, hz⟩ := ZkdvrfPre.sim h0.reachable ht'
    have hb : 7 * w.p.memberCount + 14 < 2 ^ 32 := (Zkdvrf.regInv hz).bound
    rw [h0.members] at hb
    have := h0.t_le
    refine lt_trans (show 2 * n + 2 + 9 * (t + 2) < 2 ^ 40 by omega) (by decide +kernel)
  intro N'
  induction N' with
  | zero => exact fun _ => ⟨w', .refl⟩
  | succ j ih =>
    intro hle
    obtain ⟨w1, h1⟩ := ih (by omega)
    have hs := accepting_trans h h1
    have hlt : N + j < B := by omega
    have hN' : N + j < 2 ^ 255 :=
      lt_trans (lt_of_lt_of_le hlt hB) (lt_trans hbound (by decide +kernel))
    have hk : ¬ Completed w1.p 9 := by
      intro hk
      have := (C94_rounds M hM h0 hs hN' 9 (by norm_num)).1 hk
      omega
    have key : ∃ w2, Accepting M o ws t n aux1 aux2 w1 1 w2 := by
      rcases C94_progress M hM h0 hs hN' 9 (by norm_num) le_rfl hk with
        ⟨a, ha, hp, hst⟩ | ⟨a, ha, e⟩ | e | ⟨hc, e⟩
      · have := Accepting.node (M := M) (o := o) (t := t) (n := n) (w := w1) a d ha hd .refl
        rw [hdeal _ _ hs hlt hN' a ha hp hst] at this
        exact ⟨_, this⟩
      · have := Accepting.node (M := M) (o := o) (t := t) (n := n) (w := w1) a d ha hd .refl
        rw [e d hd] at this
        exact ⟨_, this⟩
      · have := Accepting.admin (M := M) (o := o) (ws := ws) (t := t) (n := n) (aux1 := aux1)
          (aux2 := aux2) (w := w1) d true .refl
        rw [e d] at this
        exact ⟨_, this⟩
      · have := Accepting.tick (M := M) (o := o) (ws := ws) (t := t) (n := n) (aux1 := aux1)
          (aux2 := aux2) (w := w1) true true (fun _ => hc) .refl
        rw [e] at this
        exact ⟨_, this⟩
    obtain ⟨w2, h2⟩ := key
    exact ⟨w2, accepting_trans h1 h2⟩

/-- C94. If every instance with which the circuit can be satisfied is proved and accepted, the services can go on
from every such history, with any failures before, to complete nine rounds. -/
theorem C94_completes (M : Machine) {o : Address} {ws : List Address} {t n : ℕ} {aux1 : G1} {aux2 : G2}
    (hM : Sane M aux1 aux2) (hc : ∀ ins, DkgCircuit.synthesize ⟨t, n⟩ aux1 aux2 ins → ProofAccepted M ins)
    (d : Draw) (hd : GoodDraw t n aux1 aux2 d) {w w' : World}
    (h0 : Fresh M o ws t n w.p) {N : ℕ} (h : Accepting M o ws t n aux1 aux2 w N w') :
    ∀ N', N + N' ≤ 2 * n + 2 + 9 * (t + 2) → ∃ w'', Accepting M o ws t n aux1 aux2 w' N' w'' :=
  extend M hM d hd h0 h _ le_rfl (fun _ _ h'' _ hN a ha hp hst =>
    dealing_landed hM h0 (to_ideal hM h0 h'' hN) hN ha hp hst (C94_no_failure M hM hc h0 h'' hN a ha d hd))

/-- C94. With any proof system, the number of accepted transactions tells exactly how far the services have come. -/
theorem C94_stage (M : Machine) {o : Address} {ws : List Address} {t n : ℕ} {aux1 : G1} {aux2 : G2}
    (hM : Sane M aux1 aux2) {w w' : World} (h0 : Fresh M o ws t n w.p) {N : ℕ}
    (h : Accepting M o ws t n aux1 aux2 w N w') (hN : N < 2 ^ 255) :
    (N < n → w'.p.contractPhase = .Unregistered ∧ w'.p.pkList.length = N) ∧
    (N = n → w'.p.contractPhase = .Registered ∧ w'.p.pkList.length = n) ∧
    (∀ j, j < n → N = n + 1 + j → w'.p.contractPhase = .Nidkg ∧ w'.p.ppList.length = j) ∧
    (N = 2 * n + 1 → w'.p.contractPhase = .NidkgComplete ∧ w'.p.ppList.length = n) ∧
    (∀ k, N = 2 * n + 2 + k * (t + 2) → w'.p.contractPhase = .Ready ∧ w'.p.currentRoundNum = k ∧
      (k ≠ 0 → Completed w'.p k)) ∧
    (∀ k j, j ≤ t → N = 2 * n + 2 + k * (t + 2) + 1 + j → w'.p.contractPhase = .Ready ∧
      w'.p.currentRoundNum = k + 1 ∧ ¬ Completed w'.p (k + 1) ∧ w'.p.roundSubmissionCount (k + 1) = j) := by
  have hi := ideal_faithful (t := t) (n := n) hM
  obtain ⟨v, hv⟩ := simulated hi (ideal_fresh h0) (to_ideal hM h0 h hN) hN
  rw [← hv.state]
  exact C55_stage _ hi (w := ⟨w.p, .none, fun _ => .none⟩) (ideal_fresh h0) hv.honest hN

/-- C94. With any proof system the services can register all nodes and start the DKG. -/
theorem C94_starts (M : Machine) {o : Address} {ws : List Address} {t n : ℕ} {aux1 : G1} {aux2 : G2}
    (hM : Sane M aux1 aux2) (d : Draw) (hd : GoodDraw t n aux1 aux2 d) {w : World} (h0 : Fresh M o ws t n w.p) :
    ∃ w', Accepting M o ws t n aux1 aux2 w (n + 1) w' ∧ w'.p.contractPhase = .Nidkg ∧
      ∀ a, (w'.p.addrToNode a).statusPP = false := by
  obtain ⟨w', h⟩ := extend M hM d hd h0 .refl (n + 1) (by omega)
    (fun N' w'' h'' hlt hN a ha hp hst => by
      obtain ⟨v, hv⟩ := simulated (ideal_faithful hM) (ideal_fresh h0) (to_ideal hM h0 h'' hN) hN
      have htx := (hv.inv (ideal_faithful hM) (ideal_fresh h0) hN).tx
      rw [hv.state] at htx
      unfold work at htx
      rw [hp] at htx
      dsimp only at htx
      omega) (n + 1) (by omega)
  have hb : n + 1 < 2 ^ 255 := by
    have ht' : 1 ≤ w.p.threshold := by rw [h0.threshold]; exact h0.t_pos
    obtain ⟨_, o1, o2, hz⟩ := ZkdvrfPre.sim h0.reachable ht'
    have hb : 7 * w.p.memberCount + 14 < 2 ^ 32 := (Zkdvrf.regInv hz).bound
    rw [h0.members] at hb
    refine lt_trans (show n + 1 < 2 ^ 32 by omega) (by decide +kernel)
  obtain ⟨v, hv⟩ := simulated (ideal_faithful hM) (ideal_fresh h0) (to_ideal hM h0 h hb) hb
  have hinv := hv.inv (ideal_faithful hM) (ideal_fresh h0) hb
  have htx := hinv.tx
  have hreg := (C31_pre_registration _ hinv.reach (by rw [hinv.thr]; exact h0.t_pos)).2.2.2.2.1
  have hcnt := hinv.cnt
  have ht := h0.t_pos
  have hn := h0.t_le
  rw [hv.state] at htx hreg hcnt
  refine ⟨w', h, ?_⟩
  unfold work at htx
  cases hp : w'.p.contractPhase with
  | Nidkg =>
    rw [hp] at htx
    dsimp only at htx
    obtain ⟨_, o1, o2, hz⟩ := ZkdvrfPre.sim hinv.reach (by rw [hinv.thr]; exact h0.t_pos)
    have hd := Zkdvrf.dkgInv hz
    rw [hv.state] at hd
    have e1 := hd.ppLen
    have e2 := hd.ordLen
    change w'.p.ppList.length = _ at e1
    have e3 : o2 = [] := List.eq_nil_of_length_eq_zero (by change o2.length = _ at e2; omega)
    refine ⟨rfl, fun a => Bool.eq_false_iff.2 (fun ha => ?_)⟩
    have : a ∈ o2 := (hd.ppMem a).2 ha
    rw [e3] at this
    cases this
  | _ =>
    exfalso
    rw [hp] at htx
    dsimp only at htx
    omega

/-- C94. The secret of every registered key is in the key file of its node, whatever failed. -/
theorem C94_keys (M : Machine) {o : Address} {ws : List Address} {t n : ℕ} {aux1 : G1} {aux2 : G2}
    (hM : Sane M aux1 aux2) {w w' : World} (h0 : Fresh M o ws t n w.p) {N : ℕ}
    (h : Accepting M o ws t n aux1 aux2 w N w') (hN : N < 2 ^ 255) (a : Address) (ha : Registered w'.p a) :
    ∃ sk : Fq, sk ≠ 0 ∧ w'.p.pkList[indexOf w'.p a]? = some (Zkdvrf.keyWords (sk • gk)) ∧
      load (w'.node a) (.member (memberName M.env.keccak a)) = some (Client.keygen sk) :=
  C91_keys _ (ideal_faithful hM) (ideal_fresh h0) (to_ideal hM h0 h hN) hN a ha

/-- C94. If all nodes run the services, then in phase `Ready` the keys on the chain come from polynomials of degree
below the threshold, also with a proof system that is not sound. -/
theorem C94_keys_are_sums (M : Machine) {o : Address} {ws : List Address} {t n : ℕ} {aux1 : G1} {aux2 : G2}
    (hM : Sane M aux1 aux2) {w w' : World} (h0 : Fresh M o ws t n w.p) {N : ℕ}
    (h : Accepting M o ws t n aux1 aux2 w N w') (hN : N < 2 ^ 255) (hp : w'.p.contractPhase = .Ready) :
    KeysFrom t n w'.p.pkList w'.p.ppList w'.p.vkList w'.p.gpkVal := by
  obtain ⟨v, hv⟩ := simulated (ideal_faithful hM) (ideal_fresh h0) (to_ideal hM h0 h hN) hN
  have hinv := hv.inv (ideal_faithful hM) (ideal_fresh h0) hN
  have h1 := hinv.reach
  have h2 := hinv.thr
  have h3 := hinv.cnt
  rw [hv.state] at h1 h2 h3
  have := C33_pre_keys_are_sums _ h1 (by rw [h2]; exact h0.t_pos) hp
    (by rw [h2, h3]; exact (ideal_faithful hM).sound)
  rwa [h2, h3] at this

/-- C94. The histories of C91 are such histories: with transactions that revert, fewer are accepted than sent. -/
theorem C94_histories (M : Machine) {o : Address} {ws : List Address} {t n : ℕ} {aux1 : G1} {aux2 : G2}
    {w w' : World} {N : ℕ} (h : Honest M o ws t n aux1 aux2 w N w') :
    ∃ N' ≤ N, Accepting M o ws t n aux1 aux2 w N' w' := by
  induction h with
  | refl => exact ⟨0, le_rfl, .refl⟩
  | node a d ha hd _ ih =>
    obtain ⟨N', h1, h2⟩ := ih
    exact ⟨_, Nat.add_le_add h1 (landed_le _ _ _ _), .node a d ha hd h2⟩
  | nodeStopped a d s hs _ ih =>
    obtain ⟨N', h1, h2⟩ := ih
    exact ⟨_, h1, .nodeStopped a d s hs h2⟩
  | admin d b _ ih =>
    obtain ⟨N', h1, h2⟩ := ih
    exact ⟨_, Nat.add_le_add h1 (landed_le _ _ _ _), .admin d b h2⟩
  | adminStopped d b s hs _ ih =>
    obtain ⟨N', h1, h2⟩ := ih
    exact ⟨_, h1, .adminStopped d b s hs h2⟩
  | tick b e he _ ih =>
    obtain ⟨N', h1, h2⟩ := ih
    exact ⟨_, Nat.add_le_add h1 (landedTick_le _ _ _ _), .tick b e he h2⟩

/-! ### Concrete cases -/

theorem toy_sane : Sane toyMachine (5 • g1) FixedPoint.aux2 :=
  ⟨toy_faithful.table1, toy_faithful.order2, toy_faithful.table2, toy_faithful.hash⟩

/-- Every proof is accepted by the contract: nothing is sound. -/
noncomputable def gullible : Machine :=
  { toyMachine with env := { toyMachine.env with verifyProof := fun _ _ => some true } }

theorem gullible_sane : Sane gullible (5 • g1) FixedPoint.aux2 := ⟨toy_sane.1, toy_sane.2, toy_sane.3, toy_sane.4⟩

theorem gullible_unsound : ¬ SnarkSound gullible.env 2 3 := by
  rintro ⟨_, _, h⟩
  obtain ⟨ins, e, -⟩ := h [] (List.replicate 35 (BitVec.ofNat 256 (2 ^ 256 - 1))) rfl (List.length_replicate)
  cases ins with
  | nil => cases e
  | cons x l =>
    have e' : BitVec.ofNat 256 (2 ^ 256 - 1) = wordOf x := (List.cons.inj e).1
    have h1 := wordOf_lt_r x
    rw [← e'] at h1
    exact absurd h1 (by decide +kernel)

theorem gullible_fresh : ∃ p, Fresh gullible 7 [1, 2, 3] 2 3 p := by
  obtain ⟨p, hp⟩ := toy_fresh
  exact ⟨p, { hp with reachable := reachable_verifier _ hp.reachable (by rw [hp.threshold]; norm_num) hp.phase }⟩

/-- With a verifier that accepts everything the services complete nine rounds in 44 transactions; the keys are
sums. -/
example (s₀ : Store) : ∃ w w', Fresh gullible 7 [1, 2, 3] 2 3 w.p ∧ (∀ a, w.node a = s₀) ∧
    Accepting gullible 7 [1, 2, 3] 2 3 (5 • g1) FixedPoint.aux2 w 44 w' ∧
    (∀ k, 1 ≤ k → k ≤ 9 → Completed w'.p k) ∧
    (w'.p.contractPhase = .Ready → KeysFrom 2 3 w'.p.pkList w'.p.ppList w'.p.vkList w'.p.gpkVal) := by
  obtain ⟨p, hp⟩ := gullible_fresh
  have h1 : Accepting gullible 7 [1, 2, 3] 2 3 (5 • g1) FixedPoint.aux2 ⟨p, s₀, fun _ => s₀⟩ 0 _ := .refl
  obtain ⟨w', h2⟩ := C94_completes gullible gullible_sane (fun ins _ => ⟨[], rfl, rfl, rfl⟩) toyDraw toy_good hp h1
    44 (by norm_num)
  have hN : 44 < 2 ^ 255 := by decide +kernel
  refine ⟨_, w', hp, fun _ => rfl, h2, fun k k1 k9 => ?_, fun hr => C94_keys_are_sums gullible gullible_sane hp h2 hN hr⟩
  exact (C94_rounds gullible gullible_sane hp h2 hN k k1).2 (by omega)

/-- Nothing is proved. -/
noncomputable def stuck : Machine := { toyMachine with prover := fun _ => none }

theorem stuck_sane : Sane stuck (5 • g1) FixedPoint.aux2 := ⟨toy_sane.1, toy_sane.2, toy_sane.3, toy_sane.4⟩

/-- With a prover that fails, the DKG is started with 4 transactions, and then every pass of a node fails. -/
example (s₀ : Store) : ∃ w w', Fresh stuck 7 [1, 2, 3] 2 3 w.p ∧ (∀ a, w.node a = s₀) ∧
    Accepting stuck 7 [1, 2, 3] 2 3 (5 • g1) FixedPoint.aux2 w 4 w' ∧ w'.p.contractPhase = .Nidkg ∧
    ∀ a ∈ [1, 2, 3], ¬ Fine stuck w'.p a ((nodePass stuck w'.p a toyDraw).run (w'.node a)).2 := by
  obtain ⟨p, hp⟩ := toy_fresh
  have hp' : Fresh stuck 7 [1, 2, 3] 2 3 p := { hp with reachable := hp.reachable }
  obtain ⟨w', h1, h2, h5⟩ := C94_starts stuck stuck_sane toyDraw toy_good (w := ⟨p, s₀, fun _ => s₀⟩) hp'
  refine ⟨_, w', hp', fun _ => rfl, h1, h2, fun a ha hf => ?_⟩
  obtain ⟨ins, -, -, h3⟩ := C94_dealing stuck stuck_sane (w := ⟨p, s₀, fun _ => s₀⟩) hp' h1 (by decide +kernel)
    a ha toyDraw toy_good h2 (h5 a)
  obtain ⟨pr, h4, -⟩ := h3.1 hf
  cases h4

end Verif.Props
