import Verif.Lemmas.OverlapOthers
import Verif.Props.OverlapKill

/-! C99: honest node services among an owner, members and outsiders that do anything. -/

namespace Verif.Props
open Verif.Services Verif.Overlap
open ZkdvrfPre (State Completed Submitted Registered Added indexOf Reachable sim getIndexPlus)
open ServicesFiles (Deals)

section
variable {M : Machine} {H : Set Address} {t n : ℕ} {aux1 : G1} {aux2 : G2}

/-- Whatever the others do, the secret of the registered key of a node is in its key file, and a node that has
evaluated has its share and the verification keys that the dealings determine. -/
theorem C99_files (hM : Faithful M t n aux1 aux2) {w0 : World} (h0 : Before M H t n w0.p) {s : Survivors}
    (h : Mixed M H t n aux1 aux2 (.begin w0) s) {a : Address} (ha : a ∈ H) :
    (Registered s.w.p a → ∃ sk : Fq, sk ≠ 0 ∧ (s.w.node a).member = some (Client.keygen sk) ∧
      s.w.p.pkList[indexOf s.w.p a]? = some (Zkdvrf.keyWords (sk • gk))) ∧
    (s.w.p.lastSubmittedRound a ≠ 0 → ∃ member out sh, (s.w.node a).member = some member ∧
      Client.derive ⟨t, n⟩ (Client.instancesFile s.w.p.ppList) (some (indexOf s.w.p a + 1, member)) = .ok out ∧
      out.share = some sh ∧ (s.w.node a).share = some sh ∧ (s.w.node a).vks = some out.vks) := by
  have hi := ((mixed_inv hM h0 h).each a ha).one
  refine ⟨hi.keys, fun hl => ?_⟩
  obtain ⟨sk, i, gf, vf, sh, h1, _, h3, h4, h5, h6⟩ := hi.shr hl
  have hidx : i = indexOf s.w.p a + 1 := by
    unfold getIndexPlus u32 at h3
    split at h3
    · exact (Option.some.inj h3).symm
    · cases h3
  subst hidx
  exact ⟨_, _, sh, h1, h4, rfl, h5, h6⟩

/-- Whatever the others do, when the contract says that a node has dealt, an honest dealing for the registered keys
is among those stored. -/
theorem C99_dealing (hM : Faithful M t n aux1 aux2) {w0 : World} (h0 : Before M H t n w0.p) {s : Survivors}
    (h : Mixed M H t n aux1 aux2 (.begin w0) s) {a : Address} (ha : a ∈ H)
    (hs : (s.w.p.addrToNode a).statusPP = true) :
    ∃ d ins, GoodDraw t n aux1 aux2 d ∧ Deals M s.w.p d ins ∧ wordsOf ins ∈ s.w.p.ppList := by
  obtain ⟨pp, h1, d, ins, h2, h3, rfl⟩ := ((mixed_inv hM h0 h).each a ha).one.dealt hs
  exact ⟨d, ins, h2, h3, h1⟩

/-- Whatever the others do, every evaluation stored for a node is the right one for its verification key. -/
theorem C99_evaluations (hM : Faithful M t n aux1 aux2) {w0 : World} (h0 : Before M H t n w0.p) {s : Survivors}
    (h : Mixed M H t n aux1 aux2 (.begin w0) s) {a : Address} (ha : a ∈ H) (hr : Registered s.w.p a) {k : ℕ}
    (hk : Submitted s.w.p k (indexOf s.w.p a)) :
    (s.w.p.roundToEval k (indexOf s.w.p a)).z.toNat < r ∧
    ∃ v V, decodeG1 (s.w.p.roundToEval k (indexOf s.w.p a)).value = some v ∧
      s.w.p.vkList[indexOf s.w.p a]? = some (encodeG1 V) ∧
      Spec.SameLog (evalHash M.env.keccak (s.w.p.roundInput k)) V v := by
  have hi := ((mixed_inv hM h0 h).each a ha).one
  obtain ⟨h1, h2⟩ := hi.evs k hr hk
  refine ⟨h1, ?_⟩
  obtain ⟨_, _, _, vk, h3, v, V, h4, h5, _⟩ :=
    (C35_pre_evaluations M.env hi.reach hi.ht ⟨s.w.p.threshold, s.w.p.memberCount⟩ rfl k _).1 hk
  refine ⟨v, V, h4, by rw [h3, decodeG1_eq_some.1 h5], h2 v V h4 (by rw [h3, decodeG1_eq_some.1 h5])⟩

/-- Whatever the others do, the commands that a node has decided to run succeed, except for those of a dealing when
an earlier dealing of this node has been accepted, or when somebody has registered a key that is not written
in the usual form. -/
theorem C99_commands_succeed (hM : Faithful M t n aux1 aux2) {w0 : World} (h0 : Before M H t n w0.p)
    {s : Survivors} (h : Mixed M H t n aux1 aux2 (.begin w0) s) {a : Address} (ha : a ∈ H) {j : Job}
    (hj : s.w.nodeAt a = .decided j) (d : Draw) (hd : GoodDraw t n aux1 aux2 d) :
    (∃ f c, nodeRun M s.w.p a (s.w.node a) d j = .send f c) ∨
      j = .deal ∧ ((s.w.p.addrToNode a).statusPP = true ∨ ¬ Canonical s.w.p) := by
  have hi := (mixed_inv hM h0 h).each a ha
  have hn := hi.node
  rw [hj] at hn
  obtain ⟨f, h1, _⟩ := one_run hM hi.one hn d hd
  rcases h1 with ⟨_, h1⟩ | ⟨c, h1, _⟩
  · exact Or.inr h1
  · exact Or.inl ⟨f, c, h1⟩

private theorem sent_one (hM : Faithful M t n aux1 aux2) {w0 : World} (h0 : Before M H t n w0.p) {s : Survivors}
    (h : Mixed M H t n aux1 aux2 (.begin w0) s) {a : Address} (ha : a ∈ H) {c : Zkdvrf.Call} {k : ℕ}
    (hs : s.w.nodeAt a = .sent c k ∨ (a, c, k) ∈ s.left) :
    Added s.w.p a ∧ SentOne M t n aux1 aux2 s.w.p (s.w.node a) a k c := by
  have hi := (mixed_inv hM h0 h).each a ha
  rcases hs with hs | hs
  · have hn := hi.node
    rw [hs] at hn
    exact hn
  · obtain ⟨q1, _, q3⟩ := hi.left c k hs
    exact ⟨q1, q3⟩

/-- Whatever the others do, a transaction of a running or killed node is accepted, unless it is not needed any more
(a dealing when an earlier one of this node has been accepted; an evaluation for a round that is complete or in
which, or after which, this node has already evaluated), or it is a registration and a deposit is asked. -/
theorem C99_transactions (hM : Faithful M t n aux1 aux2) {w0 : World} (h0 : Before M H t n w0.p)
    {s : Survivors} (h : Mixed M H t n aux1 aux2 (.begin w0) s) {a : Address} (ha : a ∈ H)
    {c : Zkdvrf.Call} {k : ℕ} (hs : s.w.nodeAt a = .sent c k ∨ (a, c, k) ∈ s.left) :
    (∃ p', ZkdvrfPre.exec M.env s.w.p ⟨a, 0⟩ c = some p') ∨
    (∃ pk, c = .registerNode pk) ∧ 0 < s.w.p.minNodeDeposit ∨
    (∃ pp pr, c = .submitPublicParams pp pr) ∧ (s.w.p.addrToNode a).statusPP = true ∨
    (∃ e, c = .submitPartialEval e) ∧ (Completed s.w.p k ∨ k ≤ s.w.p.lastSubmittedRound a) := by
  obtain ⟨hadd, hw⟩ := sent_one hM h0 h ha hs
  have hi := ((mixed_inv hM h0 h).each a ha).one
  exact one_accepted hi hadd hw

theorem registers_inv (hM : Faithful M t n aux1 aux2) {s : Survivors}
    (hi : MInv M H t n aux1 aux2 s) {a : Address} (ha : a ∈ H) (hf : s.w.nodeAt a = .free)
    (hp : s.w.p.contractPhase = .Unregistered) (hadd : Added s.w.p a) (hst : ¬ Registered s.w.p a)
    (hdep : s.w.p.minNodeDeposit = 0) (d : Draw) (hd : GoodDraw t n aux1 aux2 d) :
    ∃ w, w = ((s.w.look a).fetch M a d).land M a ∧ Mixed M H t n aux1 aux2 s ⟨w, s.left⟩ ∧
      w.nodeAt a = .free ∧ Registered w.p a ∧ (w.node a).member = some (Client.keygen d.sk) ∧
      w.p.pkList[indexOf w.p a]? = some (Zkdvrf.keyWords (d.sk • gk)) ∧
      w.p.registeredCount = s.w.p.registeredCount + 1 := by
  have ho := (hi.each a ha).one
  have hst' : (s.w.p.addrToNode a).status = false := by
    cases e : (s.w.p.addrToNode a).status with
    | true => exact absurd e hst
    | false => rfl
  have hj : nodeLook s.w.p a = some .register := by
    unfold nodeLook
    dsimp only
    rw [if_pos (ho.self hadd), hp, hst']
    rfl
  obtain ⟨h1, g, c, p', h2, h3, h4, h5, h6⟩ := hi.go hM ha hf hj hd (fun _ => hdep)
    (fun e => by cases e) (fun b e => by cases e)
  refine ⟨_, rfl, h1, ?_⟩
  change (pass M s.w a d).nodeAt a = _ ∧ Registered (pass M s.w a d).p a ∧ ((pass M s.w a d).node a).member = _ ∧
    (pass M s.w a d).p.pkList[indexOf (pass M s.w a d).p a]? = _ ∧ (pass M s.w a d).p.registeredCount = _
  rw [h4, h5, h6, Function.update_self]
  have r1 : Client.registration (Client.keygen d.sk) = some (Zkdvrf.keyWords (d.sk • gk)) := by
    unfold Client.registration Client.keygen MemberKeySerde.of PointSerde.ofGk
    simp only [Client.wordOfHex_Fr]
    rfl
  have h2' : Services.registerNode (s.w.node a) d = .send g c := h2
  unfold Services.registerNode at h2'
  dsimp only at h2'
  rw [r1] at h2'
  dsimp only at h2'
  obtain ⟨rfl, rfl⟩ := Out.send.inj h2'
  obtain ⟨_, _, _, _, _, _, _, rfl⟩ := ZkdvrfPre.registerNode_some.1 h3
  obtain ⟨_, o1, o2, hz⟩ := sim ho.reach ho.ht
  have hl : s.w.p.pkListIndex = s.w.p.pkList.length := by
    have q1 := (Zkdvrf.regInv hz).pkIdx
    have q2 := (Zkdvrf.regInv hz).pkLen
    exact q1.trans q2.symm
  refine ⟨hf, ?_, rfl, ?_, rfl⟩
  · unfold Registered
    dsimp only
    rw [Function.update_self]
  · unfold indexOf
    dsimp only
    rw [Function.update_self]
    dsimp only
    rw [hl, List.getElem?_append_right (le_refl _), Nat.sub_self]
    rfl

/-- Whatever the others have done, an uninterrupted pass of a node registers it with the key in its key file, if
registration is open, the owner has added it, and no deposit is asked. -/
theorem C99_registers (hM : Faithful M t n aux1 aux2) {w0 : World} (h0 : Before M H t n w0.p) {s : Survivors}
    (h : Mixed M H t n aux1 aux2 (.begin w0) s) {a : Address} (ha : a ∈ H) (hf : s.w.nodeAt a = .free)
    (hp : s.w.p.contractPhase = .Unregistered) (hadd : Added s.w.p a) (hst : ¬ Registered s.w.p a)
    (hdep : s.w.p.minNodeDeposit = 0) (d : Draw) (hd : GoodDraw t n aux1 aux2 d) :
    ∃ w, w = ((s.w.look a).fetch M a d).land M a ∧ Mixed M H t n aux1 aux2 s ⟨w, s.left⟩ ∧
      w.nodeAt a = .free ∧ Registered w.p a ∧ (w.node a).member = some (Client.keygen d.sk) ∧
      w.p.pkList[indexOf w.p a]? = some (Zkdvrf.keyWords (d.sk • gk)) ∧
      w.p.registeredCount = s.w.p.registeredCount + 1 :=
  registers_inv hM (mixed_inv hM h0 h) ha hf hp hadd hst hdep d hd

/-- Whatever the others have done, an uninterrupted pass of a node deals, if the dealing phase is open and all
registered keys are written in the usual form. -/
theorem C99_deals (hM : Faithful M t n aux1 aux2) {w0 : World} (h0 : Before M H t n w0.p) {s : Survivors}
    (h : Mixed M H t n aux1 aux2 (.begin w0) s) {a : Address} (ha : a ∈ H) (hf : s.w.nodeAt a = .free)
    (hp : s.w.p.contractPhase = .Nidkg) (hadd : Added s.w.p a) (hst : (s.w.p.addrToNode a).statusPP = false)
    (hcan : Canonical s.w.p) (d : Draw) (hd : GoodDraw t n aux1 aux2 d) :
    ∃ w, w = ((s.w.look a).fetch M a d).land M a ∧ Mixed M H t n aux1 aux2 s ⟨w, s.left⟩ ∧
      w.nodeAt a = .free ∧ (w.p.addrToNode a).statusPP = true ∧
      w.p.ppSubmissionCount = s.w.p.ppSubmissionCount + 1 := by
  have hi := mixed_inv hM h0 h
  have ho := (hi.each a ha).one
  have hj : nodeLook s.w.p a = some .deal := by
    unfold nodeLook
    dsimp only
    rw [if_pos (ho.self hadd), hp, hst]
    rfl
  obtain ⟨h1, g, c, p', h2, h3, h4, h5, h6⟩ := hi.go hM ha hf hj hd (fun e => by cases e)
    (fun _ => hcan) (fun b e => by cases e)
  refine ⟨_, rfl, h1, ?_⟩
  change (pass M s.w a d).nodeAt a = _ ∧ ((pass M s.w a d).p.addrToNode a).statusPP = _ ∧
    (pass M s.w a d).p.ppSubmissionCount = _
  rw [h4, h5]
  obtain ⟨_, _, pp, pr, rfl, _⟩ := deals_of_send hd h2
  obtain ⟨_, _, _, _, _, _, _, rfl⟩ := ZkdvrfPre.submitPublicParams_some.1 h3
  refine ⟨hf, ?_, rfl⟩
  dsimp only
  rw [Function.update_self]

theorem evaluates_inv (hM : Faithful M t n aux1 aux2) {s : Survivors}
    (hi : MInv M H t n aux1 aux2 s) {a : Address} (ha : a ∈ H) (hf : s.w.nodeAt a = .free)
    (hp : s.w.p.contractPhase = .Ready) (hadd : Added s.w.p a)
    (hcur : s.w.p.currentRoundNum ≤ 9) (hl : s.w.p.lastSubmittedRound a < s.w.p.currentRoundNum)
    (hcount : s.w.p.roundSubmissionCount s.w.p.currentRoundNum < t)
    (d : Draw) (hd : GoodDraw t n aux1 aux2 d) :
    ∃ w, w = ((s.w.look a).fetch M a d).land M a ∧ Mixed M H t n aux1 aux2 s ⟨w, s.left⟩ ∧
      w.nodeAt = s.w.nodeAt ∧ (∀ b, b ≠ a → w.p.lastSubmittedRound b = s.w.p.lastSubmittedRound b) ∧
      w.p.contractPhase = .Ready ∧ w.p.currentRoundNum = s.w.p.currentRoundNum ∧
      w.p.addrToNode = s.w.p.addrToNode ∧
      w.p.lastSubmittedRound a = s.w.p.currentRoundNum ∧ Submitted w.p s.w.p.currentRoundNum (indexOf w.p a) ∧
      w.p.roundSubmissionCount s.w.p.currentRoundNum = s.w.p.roundSubmissionCount s.w.p.currentRoundNum + 1 := by
  have ho := (hi.each a ha).one
  have hj : nodeLook s.w.p a = some (.eval (decide (s.w.p.lastSubmittedRound a = 0))) := by
    unfold nodeLook
    dsimp only
    rw [if_pos (ho.self hadd), hp]
    dsimp only
    rw [(C56_comparison_below_ten _ _ hcur (by omega)).2 hl,
      if_pos (by rw [Bool.true_and, ho.thr]; exact decide_eq_true hcount)]
  have hnc : ¬ Completed s.w.p s.w.p.currentRoundNum := by
    intro hc
    have := (C37_pre_quorum M.env ho.reach ho.ht _ hc).2.2.2.1
    have := ho.thr
    omega
  obtain ⟨h1, g, c, p', h2, h3, h4, h5, h6⟩ := hi.go hM ha hf hj hd (fun e => by cases e)
    (fun e => by cases e) (fun b _ => ⟨hnc, hl⟩)
  refine ⟨_, rfl, h1, ?_⟩
  change (pass M s.w a d).nodeAt = _ ∧ (∀ b, b ≠ a → (pass M s.w a d).p.lastSubmittedRound b = _) ∧
    (pass M s.w a d).p.contractPhase = _ ∧ (pass M s.w a d).p.currentRoundNum = _ ∧
    (pass M s.w a d).p.addrToNode = _ ∧
    (pass M s.w a d).p.lastSubmittedRound a = _ ∧ Submitted (pass M s.w a d).p _ (indexOf (pass M s.w a d).p a) ∧
    (pass M s.w a d).p.roundSubmissionCount _ = _
  rw [h4, h5]
  obtain ⟨g', e, q, _⟩ := one_eval hM.sound ho hadd hp
    (b := decide (s.w.p.lastSubmittedRound a = 0)) (fun e => of_decide_eq_false e) d
  rw [q] at h2
  obtain ⟨rfl, rfl⟩ := Out.send.inj h2
  obtain ⟨_, _, _, _, _, hidx, _, _, rfl⟩ := ZkdvrfPre.submitPartialEval_some.1 h3
  refine ⟨rfl, fun b hb => ?_, hp, rfl, rfl, ?_, ?_, ?_⟩
  · dsimp only
    rw [Function.update_of_ne hb]
  · dsimp only
    rw [Function.update_self]
  · unfold Submitted indexOf
    dsimp only
    rw [Function.update_self, Function.update_self, hidx]
    exact Nat.succ_ne_zero _
  · dsimp only
    rw [Function.update_self]

/-- Whatever the others have done, an uninterrupted pass of a node evaluates the open round, if fewer than the
threshold have done so, this node has not, and it is one of the first nine. -/
theorem C99_evaluates (hM : Faithful M t n aux1 aux2) {w0 : World} (h0 : Before M H t n w0.p) {s : Survivors}
    (h : Mixed M H t n aux1 aux2 (.begin w0) s) {a : Address} (ha : a ∈ H) (hf : s.w.nodeAt a = .free)
    (hp : s.w.p.contractPhase = .Ready) (hadd : Added s.w.p a)
    (hcur : s.w.p.currentRoundNum ≤ 9) (hl : s.w.p.lastSubmittedRound a < s.w.p.currentRoundNum)
    (hcount : s.w.p.roundSubmissionCount s.w.p.currentRoundNum < t)
    (d : Draw) (hd : GoodDraw t n aux1 aux2 d) :
    ∃ w, w = ((s.w.look a).fetch M a d).land M a ∧ Mixed M H t n aux1 aux2 s ⟨w, s.left⟩ ∧
      w.nodeAt = s.w.nodeAt ∧ (∀ b, b ≠ a → w.p.lastSubmittedRound b = s.w.p.lastSubmittedRound b) ∧
      w.p.contractPhase = .Ready ∧ w.p.currentRoundNum = s.w.p.currentRoundNum ∧
      w.p.addrToNode = s.w.p.addrToNode ∧
      w.p.lastSubmittedRound a = s.w.p.currentRoundNum ∧ Submitted w.p s.w.p.currentRoundNum (indexOf w.p a) ∧
      w.p.roundSubmissionCount s.w.p.currentRoundNum = s.w.p.roundSubmissionCount s.w.p.currentRoundNum + 1 :=
  evaluates_inv hM (mixed_inv hM h0 h) ha hf hp hadd hcur hl hcount d hd

/-- Start the nodes in this list again; what they have sent is lost. -/
private theorem restart_list {s : Survivors} (l : List Address) (hl : ∀ a ∈ l, a ∈ H) :
    ∃ s', Mixed M H t n aux1 aux2 s s' ∧ s'.w.p = s.w.p ∧ ∀ a ∈ l, s'.w.nodeAt a = .free := by
  induction l with
  | nil => exact ⟨s, .refl, rfl, fun a ha => by cases ha⟩
  | cons a l ih =>
    obtain ⟨s', h1, h2, h3⟩ := ih (fun b hb => hl b (List.mem_cons_of_mem _ hb))
    refine ⟨s'.restart a true, h1.tail (.restart a true (hl a (List.mem_cons_self ..)) (fun _ _ _ => rfl)), h2,
      fun b hb => ?_⟩
    unfold Survivors.restart
    dsimp only
    by_cases hba : b = a
    · subst hba; rw [Function.update_self]
    · rw [Function.update_of_ne hba]
      exact h3 b ((List.mem_cons.1 hb).resolve_left hba)

private theorem run_list (hM : Faithful M t n aux1 aux2) {w0 : World} (h0 : Before M H t n w0.p)
    (d : Draw) (hd : GoodDraw t n aux1 aux2 d) (k : ℕ) (hk : k ≤ 9) (l : List Address) :
    ∀ s : Survivors, Mixed M H t n aux1 aux2 (.begin w0) s → (∀ a ∈ l, a ∈ H) → (∀ a ∈ l, s.w.nodeAt a = .free) →
      (∀ a ∈ l, Added s.w.p a) → s.w.p.contractPhase = .Ready → s.w.p.currentRoundNum = k →
      ∃ s', Mixed M H t n aux1 aux2 s s' ∧ s'.w.p.contractPhase = .Ready ∧ s'.w.p.currentRoundNum = k ∧
        s'.w.p.addrToNode = s.w.p.addrToNode ∧
        (∀ b, s.w.p.lastSubmittedRound b = k → s'.w.p.lastSubmittedRound b = k) ∧
        (t ≤ s'.w.p.roundSubmissionCount k ∨ ∀ a ∈ l, s'.w.p.lastSubmittedRound a = k) := by
  induction l with
  | nil =>
    intro s _ _ _ _ hp hc
    exact ⟨s, .refl, hp, hc, rfl, fun _ h => h, Or.inr fun a ha => by cases ha⟩
  | cons a l ih =>
    intro s hs hH hf hadd hp hc
    have haH := hH a (List.mem_cons_self ..)
    have ho := ((mixed_inv hM h0 hs).each a haH).one
    obtain ⟨_, o1, o2, hz⟩ := sim ho.reach ho.ht
    have hle : s.w.p.lastSubmittedRound a ≤ s.w.p.currentRoundNum := (Zkdvrf.evalInv hz).last_le a
    have hH' : ∀ b ∈ l, b ∈ H := fun b hb => hH b (List.mem_cons_of_mem _ hb)
    have hf' : ∀ b ∈ l, s.w.nodeAt b = .free := fun b hb => hf b (List.mem_cons_of_mem _ hb)
    have hadd' : ∀ b ∈ l, Added s.w.p b := fun b hb => hadd b (List.mem_cons_of_mem _ hb)
    by_cases hq : t ≤ s.w.p.roundSubmissionCount k
    · exact ⟨s, .refl, hp, hc, rfl, fun _ h => h, Or.inl hq⟩
    by_cases hla : s.w.p.lastSubmittedRound a = k
    · obtain ⟨s', r1, r2, r3, r4, r5, r6⟩ := ih s hs hH' hf' hadd' hp hc
      exact ⟨s', r1, r2, r3, r4, r5, r6.imp_right fun r6 b hb => (List.mem_cons.1 hb).elim
        (fun e => e ▸ r5 a hla) (r6 b)⟩
    · obtain ⟨w, _, e1, e2, e3, e4, e5, e6, e7, _⟩ := C99_evaluates hM h0 hs haH (hf a (List.mem_cons_self ..)) hp
        (hadd a (List.mem_cons_self ..)) (by omega) (by omega) (by rw [hc]; omega) d hd
      obtain ⟨s', r1, r2, r3, r4, r5, r6⟩ := ih ⟨w, s.left⟩ (Relation.ReflTransGen.trans hs e1) hH'
        (fun b hb => by dsimp only; rw [e2]; exact hf' b hb)
        (fun b hb => by unfold Added; dsimp only; rw [e6]; exact hadd' b hb) e4 (e5.trans hc)
      have hkeep : ∀ b, s.w.p.lastSubmittedRound b = k → w.p.lastSubmittedRound b = k := fun b hb => by
        by_cases hba : b = a
        · exact absurd (hba ▸ hb) hla
        · rw [e3 b hba, hb]
      refine ⟨s', Relation.ReflTransGen.trans e1 r1, r2, r3, r4.trans e6, fun b hb => r5 b (hkeep b hb),
        r6.imp_right fun r6 b hb => (List.mem_cons.1 hb).elim (fun e => ?_) (r6 b)⟩
      rw [e]
      exact r5 a (e7.trans hc)

/-- Whatever the others have done, and whatever the nodes are doing: if threshold many of them have been added, and
the open round is one of the first nine, then they can, by themselves, bring it to a quorum: start them again,
and let each do one pass at most.  This is so even if nothing that is on its way is ever mined. -/
theorem C99_quorum (hM : Faithful M t n aux1 aux2) {w0 : World} (h0 : Before M H t n w0.p) {s : Survivors}
    (h : Mixed M H t n aux1 aux2 (.begin w0) s) (l : List Address) (hl : l.Nodup) (hH : ∀ a ∈ l, a ∈ H)
    (hadd : ∀ a ∈ l, Added s.w.p a) (ht : t ≤ l.length) (hp : s.w.p.contractPhase = .Ready)
    (hc1 : 1 ≤ s.w.p.currentRoundNum) (hc9 : s.w.p.currentRoundNum ≤ 9)
    (d : Draw) (hd : GoodDraw t n aux1 aux2 d) :
    ∃ s', Mixed M H t n aux1 aux2 s s' ∧ s'.w.p.contractPhase = .Ready ∧
      s'.w.p.currentRoundNum = s.w.p.currentRoundNum ∧
      t ≤ s'.w.p.roundSubmissionCount s.w.p.currentRoundNum ∧
      t ≤ Nat.card {i : ℕ // i < n ∧ Submitted s'.w.p s.w.p.currentRoundNum i} := by
  obtain ⟨s1, h1, h2, h3⟩ := restart_list (M := M) (t := t) (n := n) (aux1 := aux1) (aux2 := aux2) (s := s) l hH
  obtain ⟨s', r1, r2, r3, r4, _, r6⟩ := run_list hM h0 d hd s.w.p.currentRoundNum hc9 l s1
    (Relation.ReflTransGen.trans h h1) hH h3 (by rw [h2]; exact hadd) (by rw [h2]; exact hp) (by rw [h2])
  have hs' := Relation.ReflTransGen.trans (Relation.ReflTransGen.trans h h1) r1
  have hi := mixed_inv hM h0 hs'
  have hlen : 1 ≤ t := h0.t_pos
  obtain ⟨a0, ha0⟩ := List.exists_mem_of_length_pos (show 0 < l.length by omega)
  have ho := (hi.each a0 (hH a0 ha0)).one
  obtain ⟨_, o1, o2, hz⟩ := sim ho.reach ho.ht
  have hev := Zkdvrf.evalInv hz
  have hreg := C31_pre_registration M.env ho.reach ho.ht
  have key : t ≤ s'.w.p.roundSubmissionCount s.w.p.currentRoundNum := by
    rcases r6 with r6 | r6
    · exact r6
    have hr : ∀ a ∈ l, Registered s'.w.p a := fun a ha => by
      refine (hreg.2.2.2.2.2.2 (by rw [r2]; exact ZkdvrfPre.Phase.noConfusion)).2 a ?_
      unfold Added
      rw [r4, h2]
      exact hadd a ha
    have q1 : (l.map (indexOf s'.w.p)).Nodup :=
      List.Nodup.map_on (fun a ha b hb hab => hreg.2.2.1 a b (hr a ha) (hr b hb) hab) hl
    have q2 : (l.map (indexOf s'.w.p)).toFinset ⊆ (Finset.range s'.w.p.memberCount).filter
        (fun i => (s'.w.p.roundToEval s.w.p.currentRoundNum i).indexPlus ≠ 0) := by
      intro i hi
      obtain ⟨a, ha, rfl⟩ := List.mem_map.1 (List.mem_toFinset.1 hi)
      have q3 := r6 a ha
      have q4 := (hev.last_stored a (by change 0 < s'.w.p.lastSubmittedRound a; omega)).2
      change (s'.w.p.roundToEval (s'.w.p.lastSubmittedRound a) (indexOf s'.w.p a)).indexPlus ≠ 0 at q4
      rw [q3] at q4
      refine Finset.mem_filter.2 ⟨Finset.mem_range.2 ?_, q4⟩
      exact lt_of_lt_of_le (hreg.2.1 a (hr a ha)) hreg.2.2.2.2.1
    have q3 := Finset.card_le_card q2
    rw [List.toFinset_card_of_nodup q1, List.length_map] at q3
    have q4 : s'.w.p.roundSubmissionCount s.w.p.currentRoundNum = _ := hev.count s.w.p.currentRoundNum
    have q5 : l.length ≤ s'.w.p.roundSubmissionCount s.w.p.currentRoundNum := by rw [q4]; exact q3
    omega
  refine ⟨s', Relation.ReflTransGen.trans h1 r1, r2, r3, key, ?_⟩
  have := (C35_pre_evaluations M.env ho.reach ho.ht ⟨s'.w.p.threshold, s'.w.p.memberCount⟩ rfl
    s.w.p.currentRoundNum 0).2.1
  rw [ho.cnt] at this
  omega

theorem random_inv (hM : Faithful M t n aux1 aux2) {s : Survivors}
    (hi : MInv M H t n aux1 aux2 s) {a : Address} (ha : a ∈ H)
    (hp : s.w.p.contractPhase = .Ready) (hopen : ¬ Completed s.w.p s.w.p.currentRoundNum)
    (hq : t ≤ s.w.p.roundSubmissionCount s.w.p.currentRoundNum) (hown : s.w.p.owner ≠ 0) (hoH : s.w.p.owner ∉ H)
    (hothers : ∀ b, b ∉ H → Registered s.w.p b → Submitted s.w.p s.w.p.currentRoundNum (indexOf s.w.p b) →
      (s.w.p.roundToEval s.w.p.currentRoundNum (indexOf s.w.p b)).z.toNat < r ∧
      ∀ v V, decodeG1 (s.w.p.roundToEval s.w.p.currentRoundNum (indexOf s.w.p b)).value = some v →
        s.w.p.vkList[indexOf s.w.p b]? = some (encodeG1 V) →
        Spec.SameLog (evalHash M.env.keccak (s.w.p.roundInput s.w.p.currentRoundNum)) V v) (f : Files) :
    ∃ out, Client.derive ⟨t, n⟩ (Client.instancesFile s.w.p.ppList) none = .ok out ∧
    ∃ c p', createRandom M s.w.p { f with gpk := some out.gpk, vks := some out.vks } =
        .send { f with gpk := some out.gpk, vks := some out.vks } c ∧
      ZkdvrfPre.exec M.env s.w.p ⟨s.w.p.owner, 0⟩ c = some p' ∧
      Mixed M H t n aux1 aux2 s ⟨{ s.w with p := p' }, s.left⟩ ∧ Completed p' s.w.p.currentRoundNum := by
  have ho := (hi.each a ha).one
  have hthr := ho.thr
  have hcnt := ho.cnt
  obtain ⟨hx, o1, o2, hz⟩ := sim ho.reach ho.ht
  have hcur : 1 ≤ s.w.p.currentRoundNum := by
    have h1 : s.w.p.roundSubmissionCount s.w.p.currentRoundNum = _ := (Zkdvrf.evalInv hz).count _
    have h2 := ho.t_pos
    rw [h1] at hq
    obtain ⟨i, hi⟩ := Finset.card_pos.1 (lt_of_lt_of_le h2 hq)
    exact ((C35_pre_evaluations M.env ho.reach ho.ht ⟨s.w.p.threshold, s.w.p.memberCount⟩ rfl _ i).1
      (Finset.mem_filter.1 hi).2).1.1
  have hall : ∀ i, Submitted s.w.p s.w.p.currentRoundNum i →
      (s.w.p.roundToEval s.w.p.currentRoundNum i).z.toNat < r ∧
      ∀ v V, decodeG1 (s.w.p.roundToEval s.w.p.currentRoundNum i).value = some v →
        s.w.p.vkList[i]? = some (encodeG1 V) →
        Spec.SameLog (evalHash M.env.keccak (s.w.p.roundInput s.w.p.currentRoundNum)) V v := by
    intro i hs
    obtain ⟨_, _, ⟨b, hb, rfl⟩, _⟩ :=
      (C35_pre_evaluations M.env ho.reach ho.ht ⟨s.w.p.threshold, s.w.p.memberCount⟩ rfl _ i).1 hs
    by_cases hbH : b ∈ H
    · exact (hi.each b hbH).one.evs _ hb hs
    · exact hothers b hbH hb hs
  obtain ⟨gf, vf, q1, out, q2, rnd, q3, s', q4, q5⟩ := C52_combine_with_derived_files M.env hz
    (ZkdvrfPre.toZk_ready.2 hp) hopen ho.ht
    (by change Spec.SnarkSound M.env s.w.p.threshold s.w.p.memberCount; rw [hthr, hcnt]; exact hM.sound)
    (by change s.w.p.threshold ≤ _; rw [hthr]; exact hq) (fun i hi => (hall i hi).1) (fun i hi => (hall i hi).2)
  have q1 : Client.derive ⟨s.w.p.threshold, s.w.p.memberCount⟩ (Client.instancesFile s.w.p.ppList) none =
      .ok ⟨gf, vf, none⟩ := q1
  rw [hthr, hcnt] at q1
  have q2 : Client.combine M.env.E M.env.keccak (evalHash M.env.keccak) (config s.w.p)
    (Client.evalsFile s.w.p.memberCount (s.w.p.roundToEval s.w.p.currentRoundNum)) gf vf
    (s.w.p.roundInput s.w.p.currentRoundNum) false = .ok out := q2
  have qv := (C46_output_verifies _ _ _ _ _ _ _ _ _ _ q2).2
  have q4' : Zkdvrf.exec M.env (s.w.p.toZk o1 o2) ⟨s.w.p.owner, 0⟩ (.submitRandom rnd) = some s' := q4
  obtain ⟨p', o1', o2', he, -⟩ := ZkdvrfPre.sim_back hz hx hown (by have := ho.n_pos; omega)
    (Or.inr ⟨hcur, by rw [hthr]; exact hq⟩) q4'
  refine ⟨_, q1, .submitRandom rnd, p', ?_, he, ?_, ?_⟩
  · unfold createRandom
    dsimp only
    rw [q2]
    dsimp only
    rw [qv]
    dsimp only
    rw [q3]
  · have hst : ZkdvrfPre.step M.env s.w.p (.call ⟨s.w.p.owner, 0⟩ (.submitRandom rnd)) = p' := by
      unfold ZkdvrfPre.step
      dsimp only
      rw [he]
      rfl
    have := MixedStep.other (M := M) (H := H) (t := t) (n := n) (aux1 := aux1) (aux2 := aux2) (s := s)
      (.call ⟨s.w.p.owner, 0⟩ (.submitRandom rnd)) hown (fun m c e => by
        injection e with e1 e2
        subst e1
        exact hoH)
    rw [hst] at this
    exact .single this
  · obtain ⟨_, _, _, _, _, z6, rfl⟩ := ZkdvrfPre.submitRandom_some.1 he
    unfold Completed
    dsimp only
    rw [Function.update_self, z6]
    exact hM.hash _

/-- Whatever the others have done: when the open round has a quorum, and what the others have stored for it is
right, the commands of the admin service, with the files derived from what the contract has, make a random that
the contract accepts from its owner. -/
theorem C99_random (hM : Faithful M t n aux1 aux2) {w0 : World} (h0 : Before M H t n w0.p) {s : Survivors}
    (h : Mixed M H t n aux1 aux2 (.begin w0) s) {a : Address} (ha : a ∈ H)
    (hp : s.w.p.contractPhase = .Ready) (hopen : ¬ Completed s.w.p s.w.p.currentRoundNum)
    (hq : t ≤ s.w.p.roundSubmissionCount s.w.p.currentRoundNum) (hown : s.w.p.owner ≠ 0) (hoH : s.w.p.owner ∉ H)
    (hothers : ∀ b, b ∉ H → Registered s.w.p b → Submitted s.w.p s.w.p.currentRoundNum (indexOf s.w.p b) →
      (s.w.p.roundToEval s.w.p.currentRoundNum (indexOf s.w.p b)).z.toNat < r ∧
      ∀ v V, decodeG1 (s.w.p.roundToEval s.w.p.currentRoundNum (indexOf s.w.p b)).value = some v →
        s.w.p.vkList[indexOf s.w.p b]? = some (encodeG1 V) →
        Spec.SameLog (evalHash M.env.keccak (s.w.p.roundInput s.w.p.currentRoundNum)) V v) (f : Files) :
    ∃ out, Client.derive ⟨t, n⟩ (Client.instancesFile s.w.p.ppList) none = .ok out ∧
    ∃ c p', createRandom M s.w.p { f with gpk := some out.gpk, vks := some out.vks } =
        .send { f with gpk := some out.gpk, vks := some out.vks } c ∧
      ZkdvrfPre.exec M.env s.w.p ⟨s.w.p.owner, 0⟩ c = some p' ∧
      Mixed M H t n aux1 aux2 s ⟨{ s.w with p := p' }, s.left⟩ ∧ Completed p' s.w.p.currentRoundNum :=
  random_inv hM (mixed_inv hM h0 h) ha hp hopen hq hown hoH hothers f

/-- A deployment with which nobody has registered yet is one with which these nodes have not. -/
theorem C99_fresh {o : Address} {ws : List Address} {w0 : World} (h0 : Fresh M o ws t n w0.p)
    (hH : ∀ a ∈ H, a ∈ ws) : Before M H t n w0.p := by
  have ht : 1 ≤ w0.p.threshold := by rw [h0.threshold]; exact h0.t_pos
  refine ⟨h0.reachable, h0.threshold, h0.members, h0.t_pos, h0.t_pos.trans h0.t_le, fun a ha e => ?_,
    fun a _ hr => ?_⟩
  · have hadd := (h0.added a).2 (hH a ha)
    obtain ⟨_, o1, o2, hz⟩ := sim h0.reachable ht
    have := (Zkdvrf.regInv hz).addr_self a hadd
    exact hadd (this.trans e)
  · have := (C31_pre_registration M.env h0.reachable ht).2.1 a hr
    rw [h0.keys] at this
    exact Nat.not_lt_zero _ this

private theorem aside {s : Survivors} {p : State} {ad : Files} {nd : Address → Files} {aa : Stage AdminJob}
    {na : Address → Stage Job} (h : Mixed M H t n aux1 aux2 s ⟨⟨p, ad, nd, aa, na⟩, []⟩) {a : Address}
    (h0 : a ≠ 0) (ha : a ∉ H) {c : Zkdvrf.Call} {p' : State} (he : ZkdvrfPre.exec M.env p ⟨a, 0⟩ c = some p') :
    Mixed M H t n aux1 aux2 s ⟨⟨p', ad, nd, aa, na⟩, []⟩ := by
  have := h.tail (.other (.call ⟨a, 0⟩ c) h0 (fun m c' e => by
    injection e with e1 e2
    subst e1
    exact ha))
  have hs : ZkdvrfPre.step M.env p (.call ⟨a, 0⟩ c) = p' := by
    unfold ZkdvrfPre.step
    dsimp only
    rw [he]
    rfl
  dsimp only at this
  rw [hs] at this
  exact this

/-- The histories of overlapping passes of all services are such histories, for any of the nodes. -/
theorem C99_overlapping {o : Address} {ws : List Address} {w0 : World} (h0 : Fresh M o ws t n w0.p)
    (ho : o ∉ H) {w : Overlap}
    (h : Overlapping M o ws t n aux1 aux2 (.begin w0) w) :
    ∃ w', Mixed M H t n aux1 aux2 (.begin w0) ⟨w', []⟩ ∧ w'.p = w.p ∧
      ∀ a ∈ H, w'.node a = w.node a ∧ w'.nodeAt a = w.nodeAt a := by
  have hne : ∀ a ∈ ws, a ≠ 0 := (C99_fresh (H := {a | a ∈ ws}) h0 (fun a ha => ha)).nonzero
  induction h with
  | refl => exact ⟨_, .refl, rfl, fun _ _ => ⟨rfl, rfl⟩⟩
  | @look w a ha _ ih =>
    obtain ⟨w', h1, h2, h3⟩ := ih
    by_cases haH : a ∈ H
    · have e : w'.nodeAt a = w.nodeAt a := (h3 a haH).2
      refine ⟨w'.look a, h1.tail (.look a haH), ?_, fun b hb => ?_⟩
      · unfold Overlap.look
        rw [e, h2]
        split
        · split <;> first | rfl | exact h2
        · exact h2
      · unfold Overlap.look
        rw [e, h2]
        split
        · split
          · exact h3 b hb
          · refine ⟨(h3 b hb).1, ?_⟩
            dsimp only
            by_cases hba : b = a
            · subst hba; rw [Function.update_self, Function.update_self]
            · rw [Function.update_of_ne hba, Function.update_of_ne hba]
              exact (h3 b hb).2
        · exact h3 b hb
    · refine ⟨w', h1, ?_, fun b hb => ?_⟩
      · unfold Overlap.look
        split
        · split <;> first | rfl | exact h2
        · exact h2
      · have hba : b ≠ a := fun e => haH (e ▸ hb)
        unfold Overlap.look
        split
        · split
          · exact h3 b hb
          · dsimp only
            rw [Function.update_of_ne hba]
            exact h3 b hb
        · exact h3 b hb
  | @fetch w a d ha hd _ ih =>
    obtain ⟨w', h1, h2, h3⟩ := ih
    by_cases haH : a ∈ H
    · obtain ⟨e1, e2⟩ := h3 a haH
      refine ⟨w'.fetch M a d, h1.tail (.fetch a d haH hd), ?_, fun b hb => ?_⟩
      · unfold Overlap.fetch
        rw [e2, e1, h2]
        split
        · split <;> rfl
        · exact h2
      · unfold Overlap.fetch
        rw [e2, e1, h2]
        obtain ⟨q1, q2⟩ := h3 b hb
        split
        · split <;> dsimp only <;> by_cases hba : b = a <;>
            first
            | (subst hba; simp only [Function.update_self, q1, and_self])
            | (simp only [Function.update_of_ne hba]; exact ⟨q1, q2⟩)
        · exact ⟨q1, q2⟩
    · refine ⟨w', h1, ?_, fun b hb => ?_⟩
      · unfold Overlap.fetch
        split
        · split <;> first | rfl | exact h2
        · exact h2
      · have hba : b ≠ a := fun e => haH (e ▸ hb)
        unfold Overlap.fetch
        split
        · split <;> dsimp only <;> simp only [Function.update_of_ne hba] <;> exact h3 b hb
        · exact h3 b hb
  | @land w a ha hl _ ih =>
    obtain ⟨w', h1, h2, h3⟩ := ih
    by_cases haH : a ∈ H
    · have e : w'.nodeAt a = w.nodeAt a := (h3 a haH).2
      refine ⟨w'.land M a, h1.tail (.land a haH (by dsimp only; rw [e, h2]; exact hl)), ?_, fun b hb => ?_⟩
      · unfold Overlap.land
        rw [e, h2]
        split
        · split <;> rfl
        · exact h2
      · unfold Overlap.land
        rw [e, h2]
        obtain ⟨q1, q2⟩ := h3 b hb
        split
        · split <;> dsimp only <;> by_cases hba : b = a <;>
            first
            | (subst hba; simp only [Function.update_self, q1, and_self])
            | (simp only [Function.update_of_ne hba]; exact ⟨q1, q2⟩)
        · exact ⟨q1, q2⟩
    · obtain ⟨p1, ad, nd, aa, na⟩ := w'
      dsimp only at h2 h3
      subst h2
      have hba : ∀ b ∈ H, b ≠ a := fun b hb e => haH (e ▸ hb)
      unfold Overlap.land
      split
      · split
        · refine ⟨_, h1, rfl, fun b hb => ?_⟩
          dsimp only
          rw [Function.update_of_ne (hba b hb)]
          exact h3 b hb
        · rename_i he
          refine ⟨_, aside h1 (hne a ha) haH he, rfl, fun b hb => ?_⟩
          dsimp only
          rw [Function.update_of_ne (hba b hb)]
          exact h3 b hb
      · exact ⟨_, h1, rfl, h3⟩
  | @adminLook w b _ ih =>
    obtain ⟨w', h1, h2, h3⟩ := ih
    refine ⟨w', h1, ?_⟩
    unfold Overlap.adminDecide
    split <;> exact ⟨h2, h3⟩
  | @adminTick w b e _ _ ih =>
    obtain ⟨w', h1, h2, h3⟩ := ih
    refine ⟨w', h1, ?_⟩
    unfold Overlap.adminDecide
    split <;> exact ⟨h2, h3⟩
  | @adminFetch w _ ih =>
    obtain ⟨w', h1, h2, h3⟩ := ih
    refine ⟨w', h1, ?_⟩
    unfold Overlap.adminFetch
    split
    · split <;> exact ⟨h2, h3⟩
    · exact ⟨h2, h3⟩
  | @adminLand w _ ih =>
    obtain ⟨w', h1, h2, h3⟩ := ih
    obtain ⟨p1, ad, nd, aa, na⟩ := w'
    dsimp only at h2 h3
    subst h2
    unfold Overlap.adminLand
    split
    · split
      · exact ⟨_, h1, rfl, h3⟩
      · rename_i he
        exact ⟨_, aside h1 h0.owner_ne ho he, rfl, h3⟩
    · exact ⟨_, h1, rfl, h3⟩

end

/-- A concrete case: somebody sends ether to the contract by force; then node 1 registers, and its key is in its
file. -/
example : ∃ w0 s w, Before toyMachine {1} 2 3 w0.p ∧
    Mixed toyMachine {1} 2 3 (5 • g1) FixedPoint.aux2 (.begin w0) s ∧ s.w.p.balance = w0.p.balance + 5 ∧
    Mixed toyMachine {1} 2 3 (5 • g1) FixedPoint.aux2 s ⟨w, []⟩ ∧
    Registered w.p 1 ∧ (w.node 1).member = some (Client.keygen toyDraw.sk) := by
  obtain ⟨w0, h0, _, _⟩ := toy_world
  have hb := C99_fresh (H := {1}) h0 (by intro a ha; rw [ha]; decide)
  have h1 : Mixed toyMachine {1} 2 3 (5 • g1) FixedPoint.aux2 (.begin w0)
      ⟨{ Overlap.begin w0 with p := { w0.p with balance := w0.p.balance + 5 } }, []⟩ :=
    .single (.other (s := .begin w0) (.forceEther 5) trivial (fun m c e => by cases e))
  obtain ⟨w, _, h2, _, h4, h5, _⟩ := C99_registers toy_faithful hb h1 (a := 1) rfl rfl h0.phase
    ((h0.added 1).2 (by decide)) (hb.unregistered 1 rfl) h0.deposit toyDraw toy_good
  exact ⟨w0, _, w, hb, h1, rfl, h2, h4, h5⟩

/-- A concrete case of a dealing: in a state of an honest run, where everything that is not done by node 1 counts as
done by others, node 1 deals, and an honest dealing is among those stored. -/
example : ∃ w0 s w, Before toyMachine {1} 2 3 w0.p ∧
    Mixed toyMachine {1} 2 3 (5 • g1) FixedPoint.aux2 (.begin w0) s ∧
    Mixed toyMachine {1} 2 3 (5 • g1) FixedPoint.aux2 s w ∧ Canonical s.w.p ∧
    (s.w.p.addrToNode 1).statusPP = false ∧ (w.w.p.addrToNode 1).statusPP = true ∧
    ∃ d ins, Deals toyMachine w.w.p d ins ∧ wordsOf ins ∈ w.w.p.ppList := by
  obtain ⟨w0, h0, _, hw⟩ := toy_world
  obtain ⟨w1, h1⟩ := hw 4 (by omega)
  have hb4 : 4 < 2 ^ 255 := by norm_num
  obtain ⟨s1, s2⟩ := (C55_stage toyMachine toy_faithful h0 h1 hb4).2.2.1 0 (by omega) (by omega)
  have r1 := C96_atomic_history toy_faithful h0 h1 hb4
  have hc := (overlap_inv toy_faithful h0 r1).core
  have hb := C99_fresh (H := {1}) h0 (by intro a ha; rw [ha]; decide)
  obtain ⟨w', h3, h4, h5⟩ := C99_overlapping (H := {1}) h0 (by decide) r1
  have h4' : w'.p = w1.p := h4
  have hst : (w1.p.addrToNode 1).statusPP = false := by
    obtain ⟨_, o1, o2, hz⟩ := sim hc.reach hc.ht
    cases hst : (w1.p.addrToNode 1).statusPP with
    | false => rfl
    | true =>
      exfalso
      have hd := Zkdvrf.dkgInv hz
      have hm := (hd.ppMem 1).2 hst
      have hl := hd.ordLen
      rw [← hd.ppLen, show ((Overlap.begin w1).p.toZk o1 o2).ppList.length = 0 from s2] at hl
      rw [List.length_eq_zero_iff.1 hl] at hm
      cases hm
  have hcan : Canonical w1.p := by
    have hall : ∀ k ∈ w1.p.pkList, ∃ pk : Gk, Zkdvrf.keyWords pk = k := by
      intro k hk
      obtain ⟨i, hi, rfl⟩ := List.mem_iff_getElem.1 hk
      obtain ⟨a, ha, rfl⟩ := (C31_pre_registration toyMachine.env hc.reach hc.ht).2.2.2.1 i hi
      obtain ⟨sk, _, _, q⟩ := hc.keys a ha
      exact ⟨sk • gk, (Option.some.inj ((List.getElem?_eq_getElem hi).symm.trans q)).symm⟩
    have hr : w1.p.pkList ∈ Set.range (List.map Zkdvrf.keyWords) := by
      rw [Set.range_list_map]
      exact hall
    obtain ⟨l, hl⟩ := hr
    exact ⟨l, hl.symm⟩
  have hadd : Added w'.p 1 := by rw [h4']; exact (hc.added 1).2 (by decide)
  obtain ⟨w, _, h6, _, h7, _⟩ := C99_deals toy_faithful hb h3 (a := 1) rfl ((h5 1 rfl).2) (by dsimp only; rw [h4', s1])
    hadd (by dsimp only; rw [h4', hst]) (by dsimp only; rw [h4']; exact hcan) toyDraw toy_good
  obtain ⟨d, ins, _, h8, h9⟩ := C99_dealing toy_faithful hb (Relation.ReflTransGen.trans h3 h6) (a := 1) rfl h7
  exact ⟨w0, _, _, hb, h3, h6, by dsimp only; rw [h4']; exact hcan, by dsimp only; rw [h4', hst], h7, d, ins, h8, h9⟩

/-- A concrete case of a dealing on its way: it is accepted or not needed. -/
example : ∃ w0 s pp pr k, Before toyMachine {1} 2 3 w0.p ∧
    Mixed toyMachine {1} 2 3 (5 • g1) FixedPoint.aux2 (.begin w0) s ∧
    s.w.nodeAt 1 = .sent (.submitPublicParams pp pr) k ∧
    ((∃ p', ZkdvrfPre.exec toyMachine.env s.w.p ⟨1, 0⟩ (.submitPublicParams pp pr) = some p') ∨
      (s.w.p.addrToNode 1).statusPP = true) := by
  obtain ⟨w0, v, pp, pr, k, h0, h1, h2⟩ := toy_dealing
  have hb := C99_fresh (H := {1}) h0 (by intro a ha; rw [ha]; decide)
  obtain ⟨w', h3, h4, h5⟩ := C99_overlapping (H := {1}) h0 (by decide) h1
  have h6 : w'.nodeAt 1 = .sent (.submitPublicParams pp pr) k := by rw [(h5 1 rfl).2, h2]
  refine ⟨w0, ⟨w', []⟩, pp, pr, k, hb, h3, h6, ?_⟩
  rcases C99_transactions toy_faithful hb h3 (a := 1) rfl (Or.inl h6) with h | ⟨⟨_, h⟩, _⟩ | ⟨_, h⟩ | ⟨⟨e, h⟩, _⟩
  · exact Or.inl h
  · cases h
  · exact Or.inr h
  · cases h

/-- A concrete case of a round: two of three nodes bring the open round to a quorum of two by themselves, whatever
the third and the owner have done. -/
example : ∃ w0 s s', Before toyMachine {1, 2} 2 3 w0.p ∧
    Mixed toyMachine {1, 2} 2 3 (5 • g1) FixedPoint.aux2 (.begin w0) s ∧
    Mixed toyMachine {1, 2} 2 3 (5 • g1) FixedPoint.aux2 s s' ∧ s.w.p.currentRoundNum = 1 ∧
    s.w.p.roundSubmissionCount 1 = 0 ∧ 2 ≤ s'.w.p.roundSubmissionCount 1 := by
  obtain ⟨w0, h0, _, hw⟩ := toy_world
  obtain ⟨w1, h1⟩ := hw 9 (by omega)
  have hb9 : 9 < 2 ^ 255 := by norm_num
  obtain ⟨q1, q2, _, q4⟩ := (C55_stage toyMachine toy_faithful h0 h1 hb9).2.2.2.2.2 0 0 (by omega) (by omega)
  have r1 := C96_atomic_history toy_faithful h0 h1 hb9
  have hin : ∀ a ∈ ({1, 2} : Set Address), a ∈ [(1 : Address), 2, 3] := by
    rintro a (rfl | rfl) <;> decide
  have hb := C99_fresh h0 hin
  obtain ⟨w', h3, h4, _⟩ := C99_overlapping (H := {1, 2}) h0 (by
    intro h; rcases (h : (7 : Address) = 1 ∨ (7 : Address) = 2) with h | h <;> exact absurd h (by decide)) r1
  have h4' : w'.p = w1.p := h4
  have hadd : ∀ a ∈ [(1 : Address), 2], Added w'.p a := by
    intro a ha
    rw [h4']
    refine ((overlap_inv toy_faithful h0 r1).core.added a).2 ?_
    rcases List.mem_cons.1 ha with rfl | ha
    · decide
    · rw [List.mem_singleton.1 ha]; decide
  obtain ⟨s', h5, _, _, h8, _⟩ := C99_quorum toy_faithful hb h3 [1, 2] (by decide) (by
      intro a ha
      rcases List.mem_cons.1 ha with rfl | ha
      · exact Or.inl rfl
      · exact Or.inr (List.mem_singleton.1 ha)) hadd (le_refl _) (by dsimp only; rw [h4', q1])
    (by dsimp only; rw [h4', q2]) (by dsimp only; rw [h4', q2]; norm_num) toyDraw toy_good
  dsimp only at h8
  rw [h4', q2] at h8
  exact ⟨w0, _, s', hb, h3, h5, by dsimp only; rw [h4', q2], by dsimp only; rw [h4', q4], h8⟩

/-- A concrete case of an evaluation: node 1 evaluates the first round; its evaluation is the right one, and it has its
share and the verification keys. -/
example : ∃ w0 s w, Before toyMachine {1} 2 3 w0.p ∧
    Mixed toyMachine {1} 2 3 (5 • g1) FixedPoint.aux2 (.begin w0) s ∧
    Mixed toyMachine {1} 2 3 (5 • g1) FixedPoint.aux2 s w ∧
    s.w.p.lastSubmittedRound 1 = 0 ∧ w.w.p.lastSubmittedRound 1 = 1 ∧
    (∃ v V, decodeG1 (w.w.p.roundToEval 1 (indexOf w.w.p 1)).value = some v ∧
      w.w.p.vkList[indexOf w.w.p 1]? = some (encodeG1 V) ∧
      Spec.SameLog (evalHash toyMachine.env.keccak (w.w.p.roundInput 1)) V v) ∧
    ∃ sh, (w.w.node 1).share = some sh := by
  obtain ⟨w0, h0, _, hw⟩ := toy_world
  obtain ⟨w1, h1⟩ := hw 9 (by omega)
  have hb9 : 9 < 2 ^ 255 := by norm_num
  obtain ⟨q1, q2, _, q4⟩ := (C55_stage toyMachine toy_faithful h0 h1 hb9).2.2.2.2.2 0 0 (by omega) (by omega)
  have r1 := C96_atomic_history toy_faithful h0 h1 hb9
  have hc := (overlap_inv toy_faithful h0 r1).core
  have hb := C99_fresh (H := {1}) h0 (by intro a ha; rw [ha]; decide)
  obtain ⟨w', h3, h4, h5⟩ := C99_overlapping (H := {1}) h0 (by decide) r1
  have h4' : w'.p = w1.p := h4
  have hadd : Added w'.p 1 := by rw [h4']; exact (hc.added 1).2 (by decide)
  have hl : w1.p.lastSubmittedRound 1 = 0 := by
    by_contra hne
    obtain ⟨_, o1, o2, hz⟩ := sim hc.reach hc.ht
    have hev := Zkdvrf.evalInv hz
    have hle : w1.p.lastSubmittedRound 1 ≤ w1.p.currentRoundNum := hev.last_le 1
    obtain ⟨e1, e2⟩ := hev.last_stored 1 (Nat.pos_of_ne_zero hne)
    change (w1.p.roundToEval (w1.p.lastSubmittedRound 1) (indexOf w1.p 1)).indexPlus ≠ 0 at e2
    rw [q2] at hle
    rw [show w1.p.lastSubmittedRound 1 = 0 + 1 by omega] at e2
    have e3 : w1.p.roundSubmissionCount (0 + 1) = _ := hev.count (0 + 1)
    rw [q4] at e3
    have e4 := Finset.card_eq_zero.1 e3.symm
    have e5 := C31_pre_registration toyMachine.env hc.reach hc.ht
    have e6 := e5.2.1 1 e1
    change indexOf w1.p 1 < w1.p.pkList.length at e6
    have e7 : w1.p.pkList.length ≤ w1.p.memberCount := e5.2.2.2.2.1
    refine Finset.eq_empty_iff_forall_notMem.1 e4 (indexOf w1.p 1) (Finset.mem_filter.2 ⟨Finset.mem_range.2 ?_, e2⟩)
    exact lt_of_lt_of_le e6 e7
  obtain ⟨w, _, h6, _, _, h7, h8, h9, h10, h11, _⟩ := C99_evaluates toy_faithful hb h3 (a := 1) rfl ((h5 1 rfl).2)
    (by dsimp only; rw [h4', q1]) hadd (by dsimp only; rw [h4', q2]; norm_num)
    (by dsimp only; rw [h4', q2, hl]; norm_num) (by dsimp only; rw [h4', q2, q4]; norm_num) toyDraw toy_good
  dsimp only at h8 h9 h10 h11
  rw [h4', q2] at h10 h11
  have h12 := Relation.ReflTransGen.trans h3 h6
  have ho := ((mixed_inv toy_faithful hb h12).each 1 rfl).one
  have hr : Registered w.p 1 := by
    refine ((C31_pre_registration toyMachine.env ho.reach ho.ht).2.2.2.2.2.2
      (by dsimp only; rw [h7]; exact ZkdvrfPre.Phase.noConfusion)).2 1 ?_
    unfold Added
    dsimp only
    rw [h9]
    exact hadd
  obtain ⟨_, hev⟩ := C99_evaluations toy_faithful hb h12 (a := 1) rfl hr h11
  obtain ⟨_, _, sh, _, _, _, hs, _⟩ := (C99_files toy_faithful hb h12 (a := 1) rfl).2 (by dsimp only; rw [h10]; norm_num)
  exact ⟨w0, _, _, hb, h3, h6, by dsimp only; rw [h4', hl], h10, hev, sh, hs⟩

/-- A concrete case of a random: two evaluations are stored, and the contract accepts the random. -/
example : ∃ w0 s p', Before toyMachine {1, 2} 2 3 w0.p ∧
    Mixed toyMachine {1, 2} 2 3 (5 • g1) FixedPoint.aux2 (.begin w0) s ∧ ¬ Completed s.w.p 1 ∧
    Mixed toyMachine {1, 2} 2 3 (5 • g1) FixedPoint.aux2 s ⟨{ s.w with p := p' }, s.left⟩ ∧ Completed p' 1 := by
  obtain ⟨w0, h0, _, hw⟩ := toy_world
  obtain ⟨w1, h1⟩ := hw 11 (by omega)
  have hb11 : 11 < 2 ^ 255 := by norm_num
  obtain ⟨q1, q2, q3, q4⟩ := (C55_stage toyMachine toy_faithful h0 h1 hb11).2.2.2.2.2 0 2 (by omega) (by omega)
  have r1 := C96_atomic_history toy_faithful h0 h1 hb11
  have hc := (overlap_inv toy_faithful h0 r1).core
  have hb := C99_fresh (H := {1, 2}) h0 (by rintro a (rfl | rfl) <;> decide)
  have h7 : (7 : Address) ∉ ({1, 2} : Set Address) := by
    intro h; rcases (h : (7 : Address) = 1 ∨ (7 : Address) = 2) with h | h <;> exact absurd h (by decide)
  obtain ⟨w', h3, h4, _⟩ := C99_overlapping (H := {1, 2}) h0 h7 r1
  have h4' : w'.p = w1.p := h4
  have hown : w1.p.owner = 7 := hc.owner
  obtain ⟨_, _, _, p', _, _, h5, h6⟩ := C99_random toy_faithful hb h3 (a := 1) (Or.inl rfl) (by dsimp only; rw [h4', q1])
    (by dsimp only; rw [h4', q2]; exact q3) (by dsimp only; rw [h4', q2, q4])
    (by dsimp only; rw [h4', hown]; decide) (by dsimp only; rw [h4', hown]; exact h7)
    (fun b _ _ hs => by dsimp only at hs ⊢; rw [h4'] at hs ⊢; exact hc.evs _ _ hs) .none
  dsimp only at h6
  rw [h4', q2] at h6
  exact ⟨w0, _, p', hb, h3, by dsimp only; rw [h4']; exact q3, h5, h6⟩

end Verif.Props
