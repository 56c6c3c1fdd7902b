import Verif.Lemmas.OverlapOthersAny
import Verif.Props.OverlapOthers
import Verif.Props.OverlapProofs
import Verif.Props.LayoutWitness
import Verif.Props.ServicesHonest

/-! C99: honest node services among others that do anything, with any proof system. -/

namespace Verif.Props
open Verif.Services Verif.Overlap
open ZkdvrfPre (State Completed Submitted Registered Added indexOf Reachable sim getIndexPlus GuardedHistory)
open ServicesFiles (Deals Sane ProofAccepted ideal ideal_faithful exec_ideal)
open Spec (KeysFrom)

section
variable {M : Machine} {H : Set Address} {t n : ℕ} {aux1 : G1} {aux2 : G2}

/-- `MixedGuarded` without a condition is `Mixed`. -/
theorem C99_guarded {s s' : Survivors} :
    MixedGuarded M (fun _ _ => True) H t n aux1 aux2 s s' ↔ Mixed M H t n aux1 aux2 s s' := by
  constructor
  · intro h
    induction h with
    | refl => exact .refl
    | tail _ hs ih =>
      refine ih.tail ?_
      cases hs with
      | look a ha => exact .look a ha
      | fetch a d ha hd => exact .fetch a d ha hd
      | land a ha hl => exact .land a ha hl
      | mine i hl => exact .mine i hl
      | restart a lost ha hr => exact .restart a lost ha hr
      | other tx hv hn hg => exact .other tx hv hn
  · intro h
    induction h with
    | refl => exact .refl
    | tail _ hs ih =>
      refine ih.tail ?_
      cases hs with
      | look a ha => exact .look a ha
      | fetch a d ha hd => exact .fetch a d ha hd
      | land a ha hl => exact .land a ha hl
      | mine i hl => exact .mine i hl
      | restart a lost ha hr => exact .restart a lost ha hr
      | other tx hv hn => exact .other tx hv hn (fun _ _ _ _ _ _ => trivial)

theorem mixed_mono {good good' : List Byte → List Word → Prop} (hg : ∀ pr pp, M.env.verifyProof pr pp = some true →
    good pr pp → good' pr pp) {s s' : Survivors} (h : MixedGuarded M good H t n aux1 aux2 s s') :
    MixedGuarded M good' H t n aux1 aux2 s s' := by
  induction h with
  | refl => exact .refl
  | tail _ hs ih =>
    refine ih.tail ?_
    cases hs with
    | look a ha => exact .look a ha
    | fetch a d ha hd => exact .fetch a d ha hd
    | land a ha hl => exact .land a ha hl
    | mine i hl => exact .mine i hl
    | restart a lost ha hr => exact .restart a lost ha hr
    | other tx hv hn hh =>
      exact .other tx hv hn (fun m pp pr p' e h' => hg pr pp (ZkdvrfPre.submitPublicParams_some.1 h').2.2.2.2.2.1
        (hh m pp pr p' e h'))

theorem before_mono {good good' : List Byte → List Word → Prop} (hg : ∀ pr pp, M.env.verifyProof pr pp = some true →
    good pr pp → good' pr pp) {p : State} (h : BeforeGuarded M good H t n p) : BeforeGuarded M good' H t n p :=
  { h with reachable := history_mono_pre hg h.reachable }

/-- With any proof system: if all the submissions of others that the contract has accepted can satisfy the circuit,
the secret of the registered key of a node is in its key file, and a node that has evaluated has its share and the
verification keys that the dealings determine. -/
theorem C99_any_files (hM : Sane M aux1 aux2) {w0 : World}
    (h0 : BeforeGuarded M (Satisfiable t n aux1 aux2) H t n w0.p) {s : Survivors}
    (h : MixedGuarded M (Satisfiable t n aux1 aux2) H t n aux1 aux2 (.begin w0) s) {a : Address} (ha : a ∈ H) :
    (Registered s.w.p a → ∃ sk : Fq, sk ≠ 0 ∧ (s.w.node a).member = some (Client.keygen sk) ∧
      s.w.p.pkList[indexOf s.w.p a]? = some (Zkdvrf.keyWords (sk • gk))) ∧
    (s.w.p.lastSubmittedRound a ≠ 0 → ∃ member out sh, (s.w.node a).member = some member ∧
      Client.derive ⟨t, n⟩ (Client.instancesFile s.w.p.ppList) (some (indexOf s.w.p a + 1, member)) = .ok out ∧
      out.share = some sh ∧ (s.w.node a).share = some sh ∧ (s.w.node a).vks = some out.vks) := by
  obtain ⟨s', h1, h2⟩ := mixed_ideal hM h0 h
  have := C99_files (ideal_faithful hM) (before_ideal h0) h1 ha
  rw [h2.state, h2.files] at this
  exact this

/-- Then, when the contract says that a node has dealt, an honest dealing for the registered keys is among those
stored. -/
theorem C99_any_dealing (hM : Sane M aux1 aux2) {w0 : World}
    (h0 : BeforeGuarded M (Satisfiable t n aux1 aux2) H t n w0.p) {s : Survivors}
    (h : MixedGuarded M (Satisfiable t n aux1 aux2) H t n aux1 aux2 (.begin w0) s) {a : Address} (ha : a ∈ H)
    (hs : (s.w.p.addrToNode a).statusPP = true) :
    ∃ d ins, GoodDraw t n aux1 aux2 d ∧ Deals M s.w.p d ins ∧ wordsOf ins ∈ s.w.p.ppList := by
  obtain ⟨s', h1, h2⟩ := mixed_ideal hM h0 h
  have := C99_dealing (ideal_faithful hM) (before_ideal h0) h1 ha (by rw [h2.state]; exact hs)
  rw [h2.state] at this
  exact this

/-- Then every evaluation stored for a node is the right one for its verification key. -/
theorem C99_any_evaluations (hM : Sane M aux1 aux2) {w0 : World}
    (h0 : BeforeGuarded M (Satisfiable t n aux1 aux2) H t n w0.p) {s : Survivors}
    (h : MixedGuarded M (Satisfiable t n aux1 aux2) H t n aux1 aux2 (.begin w0) s) {a : Address} (ha : a ∈ H)
    (hr : Registered s.w.p a) {k : ℕ} (hk : Submitted s.w.p k (indexOf s.w.p a)) :
    (s.w.p.roundToEval k (indexOf s.w.p a)).z.toNat < r ∧
    ∃ v V, decodeG1 (s.w.p.roundToEval k (indexOf s.w.p a)).value = some v ∧
      s.w.p.vkList[indexOf s.w.p a]? = some (encodeG1 V) ∧
      Spec.SameLog (evalHash M.env.keccak (s.w.p.roundInput k)) V v := by
  obtain ⟨s', h1, h2⟩ := mixed_ideal hM h0 h
  have := C99_evaluations (ideal_faithful hM) (before_ideal h0) h1 ha (k := k) (by rw [h2.state]; exact hr)
    (by rw [h2.state]; exact hk)
  rw [h2.state] at this
  exact this

/-- Then the commands that a node has decided to run succeed, except those of a dealing. -/
theorem C99_any_commands_succeed (hM : Sane M aux1 aux2) {w0 : World}
    (h0 : BeforeGuarded M (Satisfiable t n aux1 aux2) H t n w0.p) {s : Survivors}
    (h : MixedGuarded M (Satisfiable t n aux1 aux2) H t n aux1 aux2 (.begin w0) s) {a : Address} (ha : a ∈ H) {j : Job}
    (hj : s.w.nodeAt a = .decided j) (hd : j ≠ .deal) (d : Draw) (hg : GoodDraw t n aux1 aux2 d) :
    ∃ f c, nodeRun M s.w.p a (s.w.node a) d j = .send f c := by
  have hi := (mixed_any_inv hM h0 h).each a ha
  have hn := hi.node
  rw [hj] at hn
  obtain ⟨f, h1, _⟩ := one_run (ideal_faithful hM) hi.one hn d hg
  rcases h1 with ⟨_, h1, _⟩ | ⟨c, h1, _⟩
  · exact absurd h1 hd
  · refine ⟨f, c, ?_⟩
    rcases nodeRun_ideal (M := M) (t := t) (n := n) (aux1 := aux1) (aux2 := aux2) s.w.p a (s.w.node a) d j with e | ⟨e, _⟩
    · exact e.trans h1
    · exact absurd e hd

/-- Then a transaction of a node is accepted, or it is a registration and a deposit is asked, or it is a dealing (for
which it depends on the proof), or it is an evaluation, and the round is completed or the node has evaluated it. -/
theorem C99_any_transactions (hM : Sane M aux1 aux2) {w0 : World}
    (h0 : BeforeGuarded M (Satisfiable t n aux1 aux2) H t n w0.p) {s : Survivors}
    (h : MixedGuarded M (Satisfiable t n aux1 aux2) H t n aux1 aux2 (.begin w0) s) {a : Address} (ha : a ∈ H)
    {c : Zkdvrf.Call} {k : ℕ} (hs : s.w.nodeAt a = .sent c k ∨ (a, c, k) ∈ s.left) :
    (∃ p', ZkdvrfPre.exec M.env s.w.p ⟨a, 0⟩ c = some p') ∨
    (∃ pk, c = .registerNode pk) ∧ 0 < s.w.p.minNodeDeposit ∨
    (∃ pp pr, c = .submitPublicParams pp pr ∧ ((s.w.p.addrToNode a).statusPP = true ∨
      M.env.verifyProof pr pp ≠ some true)) ∨
    (∃ e, c = .submitPartialEval e) ∧ (Completed s.w.p k ∨ k ≤ s.w.p.lastSubmittedRound a) := by
  have hi := (mixed_any_inv hM h0 h).each a ha
  obtain ⟨hadd, hw⟩ : Added s.w.p a ∧ SentOne (ideal M t n aux1 aux2) t n aux1 aux2 s.w.p (s.w.node a) a k c := by
    rcases hs with hs | hs
    · have hn := hi.node
      rw [hs] at hn
      exact hn
    · obtain ⟨q1, _, q3⟩ := hi.left c k hs
      exact ⟨q1, q3⟩
  rcases one_accepted hi.one hadd hw with ⟨p', h1⟩ | h1 | ⟨⟨pp, pr, rfl⟩, h1⟩ | h1
  · by_cases hpp : ∃ pp pr, c = .submitPublicParams pp pr
    · obtain ⟨pp, pr, rfl⟩ := hpp
      by_cases hv : M.env.verifyProof pr pp = some true
      · obtain ⟨q1, q2, q3, q4, q5, _, q7, q8⟩ := ZkdvrfPre.submitPublicParams_some.1 h1
        exact Or.inl ⟨p', ZkdvrfPre.submitPublicParams_some.2 ⟨q1, q2, q3, q4, q5, hv, q7, q8⟩⟩
      · exact Or.inr (Or.inr (Or.inl ⟨pp, pr, rfl, Or.inr hv⟩))
    · push Not at hpp
      exact Or.inl ⟨p', (exec_ideal hpp).symm.trans h1⟩
  · exact Or.inr (Or.inl h1)
  · exact Or.inr (Or.inr (Or.inl ⟨pp, pr, rfl, Or.inl h1⟩))
  · exact Or.inr (Or.inr (Or.inr h1))

/-- Then the keys of a finished setup are sums of dealings to the registered keys. -/
theorem C99_any_keys_are_sums (hM : Sane M aux1 aux2) {w0 : World}
    (h0 : BeforeGuarded M (Satisfiable t n aux1 aux2) H t n w0.p) {s : Survivors}
    (h : MixedGuarded M (Satisfiable t n aux1 aux2) H t n aux1 aux2 (.begin w0) s) (hr : s.w.p.contractPhase = .Ready) :
    KeysFrom t n s.w.p.pkList s.w.p.ppList s.w.p.vkList s.w.p.gpkVal := by
  have hh := mixed_history hM h0 h
  obtain ⟨e1, e2⟩ : s.w.p.threshold = t ∧ s.w.p.memberCount = n := by
    have : ∀ {q q' : Survivors}, MixedGuarded M (Satisfiable t n aux1 aux2) H t n aux1 aux2 q q' →
        q.w.p.threshold = t ∧ q.w.p.memberCount = n → q'.w.p.threshold = t ∧ q'.w.p.memberCount = n := by
      intro q q' hq h1
      induction hq with
      | refl => exact h1
      | @tail b c _ hs ih =>
        have hstep : ∀ {a : Address} {c : Zkdvrf.Call} {p1 : State}, ZkdvrfPre.exec M.env b.w.p ⟨a, 0⟩ c = some p1 →
            p1.threshold = t ∧ p1.memberCount = n := by
          intro a c p1 he
          have := ZkdvrfPre.step_threshold M.env b.w.p (.call ⟨a, 0⟩ c)
          rw [ZkdvrfPre.step_some he] at this
          exact ⟨this.1.trans ih.1, this.2.trans ih.2⟩
        cases hs with
        | look a ha => unfold Overlap.look; split <;> [split; skip] <;> exact ih
        | fetch a d ha hd => unfold Overlap.fetch; split <;> [split; skip] <;> exact ih
        | land a ha hl =>
          unfold Overlap.land
          split
          · split
            · exact ih
            · rename_i he
              exact hstep he
          · exact ih
        | mine i hl =>
          unfold Survivors.mine
          split
          · exact ih
          · rename_i a c k hk
            cases he : ZkdvrfPre.exec M.env b.w.p ⟨a, 0⟩ c with
            | none => exact ih
            | some p1 => exact hstep he
        | restart a lost ha hr => exact ih
        | other tx hv hn hg =>
          have := ZkdvrfPre.step_threshold M.env b.w.p tx
          exact ⟨this.1.trans ih.1, this.2.trans ih.2⟩
    exact this h ⟨h0.threshold, h0.members⟩
  obtain ⟨-, env', -, -, h1, h2⟩ := C81_pre_sound_history M.env t n aux1 aux2 hh
  subst e1 e2
  exact C33_pre_keys_are_sums env' h2 h0.t_pos hr h1

theorem mixed_good_inv (hM : Sane M aux1 aux2) {good : List Byte → List Word → Prop}
    (hg : ∀ pr pp, M.env.verifyProof pr pp = some true → good pr pp → Satisfiable t n aux1 aux2 pr pp)
    {w0 : World} (h0 : BeforeGuarded M good H t n w0.p) {s : Survivors}
    (h : MixedGuarded M good H t n aux1 aux2 (.begin w0) s) : MInv (ideal M t n aux1 aux2) H t n aux1 aux2 s :=
  mixed_any_inv hM (before_mono hg h0) (mixed_mono hg h)

private theorem send_not_pp {p : State} {a : Address} {f g : Files} {d : Draw} {j : Job} {c : Zkdvrf.Call}
    (hj : j ≠ .deal) (h : nodeRun M p a f d j = .send g c) : ∀ pp pr, c ≠ .submitPublicParams pp pr := by
  rintro pp pr rfl
  have he : ∀ f', Services.submitPartialEval M p a f' d ≠ .send g (.submitPublicParams pp pr) := by
    intro f' h
    unfold Services.submitPartialEval at h
    repeat' first | cases h | split at h | dsimp only at h
  cases j with
  | deal => exact hj rfl
  | register =>
    have h' : Services.registerNode f d = .send g (.submitPublicParams pp pr) := h
    unfold Services.registerNode at h'
    dsimp only at h'
    split at h' <;> cases h'
  | eval b =>
    unfold nodeRun at h
    dsimp only at h
    split at h
    · split at h
      · cases h
      · exact he _ h
    · exact he _ h

/-- A pass that does not deal is the same with any proof system. -/
theorem pass_any (hM : Sane M aux1 aux2) {good : List Byte → List Word → Prop} {s : Survivors}
    (hi : MInv (ideal M t n aux1 aux2) H t n aux1 aux2 s) {a : Address} (ha : a ∈ H)
    (hf : s.w.nodeAt a = .free) {j : Job} (hj : nodeLook s.w.p a = some j) (hjd : j ≠ .deal) {d : Draw}
    (hd : GoodDraw t n aux1 aux2 d) (hr : j = .register → s.w.p.minNodeDeposit = 0)
    (hq : ∀ b, j = .eval b → ¬ Completed s.w.p s.w.p.currentRoundNum ∧
      s.w.p.lastSubmittedRound a < s.w.p.currentRoundNum) :
    pass (ideal M t n aux1 aux2) s.w a d = pass M s.w a d ∧
    MixedGuarded M good H t n aux1 aux2 s ⟨pass M s.w a d, s.left⟩ := by
  obtain ⟨_, g, c, p', h1, _⟩ := hi.go (ideal_faithful hM) ha hf hj hd hr (fun e => absurd e hjd) hq
  have h2 : nodeRun M s.w.p a (s.w.node a) d j = .send g c := by
    rcases nodeRun_ideal (M := M) (t := t) (n := n) (aux1 := aux1) (aux2 := aux2) s.w.p a (s.w.node a) d j with e | ⟨e, _⟩
    · exact e.trans h1
    · exact absurd e hjd
  have hnp := send_not_pp hjd h2
  have e1 : s.w.look a = { s.w with nodeAt := Function.update s.w.nodeAt a (.decided j) } := by
    unfold Overlap.look
    rw [hf, hj]
  have e2 : ∀ M' : Machine, nodeRun M' s.w.p a (s.w.node a) d j = .send g c → (s.w.look a).fetch M' a d = { s.w with
      node := Function.update s.w.node a g
      nodeAt := Function.update s.w.nodeAt a (.sent c s.w.p.currentRoundNum) } := by
    intro M' h
    rw [e1]
    unfold Overlap.fetch
    dsimp only
    rw [Function.update_self]
    dsimp only
    rw [h]
    dsimp only
    rw [Function.update_idem]
  refine ⟨?_, ?_⟩
  · unfold Overlap.pass
    rw [e2 _ h1, e2 _ h2]
    unfold Overlap.land
    dsimp only
    rw [Function.update_self]
    dsimp only
    rw [exec_ideal hnp]
  · have r1 : MixedGuarded M good H t n aux1 aux2 s ⟨s.w.look a, s.left⟩ := .single (.look a ha)
    have r2 := r1.tail (.fetch a d ha hd)
    refine r2.tail (.land a ha (fun c' k' hs' => ?_))
    dsimp only at hs' ⊢
    rw [e2 _ h2] at hs' ⊢
    dsimp only at hs' ⊢
    rw [Function.update_self] at hs'
    injection hs' with hc' hk'
    subst hc' hk'
    intro e _ hne
    exact absurd rfl hne

private theorem evaluates_any (hM : Sane M aux1 aux2) {good : List Byte → List Word → Prop} {s : Survivors}
    (hi : MInv (ideal M t n aux1 aux2) H t n aux1 aux2 s) {a : Address} (ha : a ∈ H) (hf : s.w.nodeAt a = .free)
    (hp : s.w.p.contractPhase = .Ready) (hadd : Added s.w.p a)
    (hcur : s.w.p.currentRoundNum ≤ 9) (hl : s.w.p.lastSubmittedRound a < s.w.p.currentRoundNum)
    (hcount : s.w.p.roundSubmissionCount s.w.p.currentRoundNum < t)
    (d : Draw) (hd : GoodDraw t n aux1 aux2 d) :
    ∃ w, w = ((s.w.look a).fetch M a d).land M a ∧ MixedGuarded M good H t n aux1 aux2 s ⟨w, s.left⟩ ∧
      w.nodeAt = s.w.nodeAt ∧ (∀ b, b ≠ a → w.p.lastSubmittedRound b = s.w.p.lastSubmittedRound b) ∧
      w.p.contractPhase = .Ready ∧ w.p.currentRoundNum = s.w.p.currentRoundNum ∧
      w.p.addrToNode = s.w.p.addrToNode ∧
      w.p.lastSubmittedRound a = s.w.p.currentRoundNum ∧ Submitted w.p s.w.p.currentRoundNum (indexOf w.p a) ∧
      w.p.roundSubmissionCount s.w.p.currentRoundNum = s.w.p.roundSubmissionCount s.w.p.currentRoundNum + 1 := by
  obtain ⟨w, h1, _, h2⟩ := evaluates_inv (ideal_faithful hM) hi ha hf hp hadd hcur hl hcount d hd
  have ho := (hi.each a ha).one
  have hj : nodeLook s.w.p a = some (.eval (decide (s.w.p.lastSubmittedRound a = 0))) := by
    unfold nodeLook
    dsimp only
    rw [if_pos (ho.self hadd), hp]
    dsimp only
    rw [(C56_comparison_below_ten _ _ hcur (by omega)).2 hl,
      if_pos (by rw [Bool.true_and, ho.thr]; exact decide_eq_true hcount)]
  have hnc : ¬ Completed s.w.p s.w.p.currentRoundNum := by
    intro hc
    have := (C37_pre_quorum (ideal M t n aux1 aux2).env ho.reach ho.ht _ hc).2.2.2.1
    have := ho.thr
    omega
  obtain ⟨e1, e2⟩ := pass_any hM (good := good) hi ha hf hj (fun e => by cases e) hd (fun e => by cases e)
    (fun b _ => ⟨hnc, hl⟩)
  have e3 : w = pass M s.w a d := h1.trans e1
  subst e3
  exact ⟨_, rfl, e2, h2⟩

/-- With any proof system, whatever the others have done (if the submissions that the contract has accepted are `good`,
and `good` ones can satisfy the circuit), an uninterrupted pass of a node registers it with the key in its key file,
if registration is open, the owner has added it, and no deposit is asked. -/
theorem C99_any_registers (hM : Sane M aux1 aux2) {good : List Byte → List Word → Prop}
    (hg : ∀ pr pp, M.env.verifyProof pr pp = some true → good pr pp → Satisfiable t n aux1 aux2 pr pp)
    {w0 : World} (h0 : BeforeGuarded M good H t n w0.p) {s : Survivors}
    (h : MixedGuarded M good H t n aux1 aux2 (.begin w0) s) {a : Address} (ha : a ∈ H) (hf : s.w.nodeAt a = .free)
    (hp : s.w.p.contractPhase = .Unregistered) (hadd : Added s.w.p a) (hst : ¬ Registered s.w.p a)
    (hdep : s.w.p.minNodeDeposit = 0) (d : Draw) (hd : GoodDraw t n aux1 aux2 d) :
    ∃ w, w = ((s.w.look a).fetch M a d).land M a ∧ MixedGuarded M good H t n aux1 aux2 s ⟨w, s.left⟩ ∧
      w.nodeAt a = .free ∧ Registered w.p a ∧ (w.node a).member = some (Client.keygen d.sk) ∧
      w.p.pkList[indexOf w.p a]? = some (Zkdvrf.keyWords (d.sk • gk)) ∧
      w.p.registeredCount = s.w.p.registeredCount + 1 := by
  have hi := mixed_good_inv hM hg h0 h
  obtain ⟨w, h1, _, h2⟩ := registers_inv (ideal_faithful hM) hi ha hf hp hadd hst hdep d hd
  have ho := (hi.each a ha).one
  have hst' : (s.w.p.addrToNode a).status = false := by
    cases e : (s.w.p.addrToNode a).status with
    | true => exact absurd e hst
    | false => rfl
  have hj : nodeLook s.w.p a = some .register := by
    unfold nodeLook
    dsimp only
    rw [if_pos (ho.self hadd), hp, hst']
    rfl
  obtain ⟨e1, e2⟩ := pass_any hM (good := good) hi ha hf hj (fun e => by cases e) hd (fun _ => hdep)
    (fun b e => by cases e)
  have e3 : w = pass M s.w a d := h1.trans e1
  subst e3
  exact ⟨_, rfl, e2, h2⟩

open Classical in
/-- With any proof system, whatever the others have done: when the dealing phase is open, the registered keys are written
in the usual form and a node has not dealt, an instance belongs to its draw, which satisfies the circuit; and an
uninterrupted pass deals it if and only if there is a proof of this instance that the client and the contract accept. -/
theorem C99_any_deals (hM : Sane M aux1 aux2) {good : List Byte → List Word → Prop}
    (hg : ∀ pr pp, M.env.verifyProof pr pp = some true → good pr pp → Satisfiable t n aux1 aux2 pr pp)
    {w0 : World} (h0 : BeforeGuarded M good H t n w0.p) {s : Survivors}
    (h : MixedGuarded M good H t n aux1 aux2 (.begin w0) s) {a : Address} (ha : a ∈ H) (hf : s.w.nodeAt a = .free)
    (hp : s.w.p.contractPhase = .Nidkg) (hadd : Added s.w.p a) (hst : (s.w.p.addrToNode a).statusPP = false)
    (hcan : Canonical s.w.p) (d : Draw) (hd : GoodDraw t n aux1 aux2 d) :
    ∃ ins w, Deals M s.w.p d ins ∧ DkgCircuit.synthesize ⟨t, n⟩ aux1 aux2 ins ∧
      w = ((s.w.look a).fetch M a d).land M a ∧
      ((w.p.addrToNode a).statusPP = true ↔ ProofAccepted M ins) ∧
      (ProofAccepted M ins → MixedGuarded M good H t n aux1 aux2 s ⟨w, s.left⟩ ∧ w.nodeAt a = .free ∧
        wordsOf ins ∈ w.p.ppList ∧ w.p.ppSubmissionCount = s.w.p.ppSubmissionCount + 1) := by
  have hi := mixed_good_inv hM hg h0 h
  have ho := (hi.each a ha).one
  have hj : nodeLook s.w.p a = some .deal := by
    unfold nodeLook
    dsimp only
    rw [if_pos (ho.self hadd), hp, hst]
    rfl
  obtain ⟨pp, pr0, h1, h2, hv⟩ := one_deal_send (ideal_faithful hM) ho hadd (by rw [hp]; decide) hst hcan d hd
  obtain ⟨i, proof, file, pp', g1, g2, g3, g4, _, e⟩ := ServicesFiles.deal_values h1
  injection e with e1 e2
  subst e1 e2
  obtain ⟨ins, g5, g6, rfl⟩ := ServicesFiles.prove_ins.1 g2
  have g5 : Client.proveInstance M.infPanics (config s.w.p) i (Client.mpksFile s.w.p.pkList) d.stream = .ok ins := g5
  rw [ServicesFiles.pp_of_instance] at g4
  obtain rfl := Option.some.inj g4
  have hsyn : DkgCircuit.synthesize ⟨t, n⟩ aux1 aux2 ins := by
    obtain ⟨ins', e, hs⟩ := of_decide_eq_true (Option.some.inj hv)
    rw [Props.wordsOf_inj e]
    exact hs
  have hiff : ∀ f c, nodeRun M s.w.p a (s.w.node a) d .deal = .send f c ↔
        ∃ pr, M.prover ins = some pr ∧ M.verifier pr ins = true ∧ f = s.w.node a ∧
          c = .submitPublicParams (wordsOf ins) pr := by
    refine fun f c => ⟨fun hs => ?_, ?_⟩
    · obtain ⟨i', proof', file', pp', j1, j2, j3, j4, rfl, rfl⟩ := ServicesFiles.deal_values
        (show submitPP M s.w.p a (s.w.node a) d = _ from hs)
      rw [g1] at j1
      obtain rfl := Option.some.inj j1
      obtain ⟨ins', j5, j6, rfl⟩ := ServicesFiles.prove_ins.1 j2
      obtain rfl : ins = ins' := Except.ok.inj (g5.symm.trans j5)
      rw [ServicesFiles.pp_of_instance] at j4
      obtain rfl := Option.some.inj j4
      exact ⟨proof', j6, (ServicesFiles.dkgVerify_last g3).1 j3, rfl, rfl⟩
    · rintro ⟨pr, j1, j2, rfl, rfl⟩
      show submitPP M s.w.p a (s.w.node a) d = _
      unfold submitPP
      dsimp only
      rw [g1]
      dsimp only
      rw [ServicesFiles.prove_ins.2 ⟨ins, g5, j1, rfl⟩]
      dsimp only
      rw [(ServicesFiles.dkgVerify_last g3).2 j2]
      dsimp only
      rw [ServicesFiles.pp_of_instance]
  have e1 : s.w.look a = { s.w with nodeAt := Function.update s.w.nodeAt a (.decided .deal) } := by
    unfold Overlap.look
    rw [hf, hj]
  refine ⟨ins, _, deals_of_instance (M := M) g5, hsyn, rfl, ?_⟩
  cases hr : nodeRun M s.w.p a (s.w.node a) d .deal with
  | send f c =>
    obtain ⟨pr, j1, j2, rfl, rfl⟩ := (hiff f c).1 hr
    have e2 : (s.w.look a).fetch M a d = { s.w with
        nodeAt := Function.update s.w.nodeAt a (.sent (.submitPublicParams (wordsOf ins) pr) s.w.p.currentRoundNum) } := by
      rw [e1]
      unfold Overlap.fetch
      dsimp only
      rw [Function.update_self]
      dsimp only
      rw [hr]
      dsimp only
      rw [Function.update_idem, Function.update_eq_self]
    have e3 : MixedGuarded M good H t n aux1 aux2 s ⟨((s.w.look a).fetch M a d).land M a, s.left⟩ := by
      have r1 : MixedGuarded M good H t n aux1 aux2 s ⟨s.w.look a, s.left⟩ := .single (.look a ha)
      refine (r1.tail (.fetch a d ha hd)).tail (.land a ha (fun c' k' hs' => ?_))
      dsimp only at hs' ⊢
      rw [e2] at hs' ⊢
      dsimp only at hs' ⊢
      rw [Function.update_self] at hs'
      injection hs' with hc' hk'
      subst hc' hk'
      intro e he _
      cases he
    rw [e2] at e3 ⊢
    unfold Overlap.land at e3 ⊢
    dsimp only at e3 ⊢
    rw [Function.update_self] at e3 ⊢
    dsimp only at e3 ⊢
    obtain ⟨_, g', c', p', k1, k2, _⟩ := hi.go (ideal_faithful hM) ha hf hj hd (fun e => by cases e) (fun _ => hcan)
      (fun b e => by cases e)
    have k1 : submitPP (ideal M t n aux1 aux2) s.w.p a (s.w.node a) d = .send g' c' := k1
    rw [h1] at k1
    injection k1 with _ k1
    subst k1
    obtain ⟨q1, q2, q3, q4, q5, _, q7, _⟩ := ZkdvrfPre.submitPublicParams_some.1 k2
    cases hx : ZkdvrfPre.exec M.env s.w.p ⟨a, 0⟩ (.submitPublicParams (wordsOf ins) pr) with
    | none =>
      have hno : ¬ ProofAccepted M ins := by
        rintro ⟨pr', l1, l2, l3⟩
        rw [j1] at l1
        obtain rfl := Option.some.inj l1
        have : ZkdvrfPre.exec M.env s.w.p ⟨a, 0⟩ (.submitPublicParams (wordsOf ins) pr) = some _ :=
          ZkdvrfPre.submitPublicParams_some.2 ⟨q1, q2, q3, q4, q5, l3, q7, rfl⟩
        rw [hx] at this
        cases this
      dsimp only
      refine ⟨⟨fun e => ?_, fun e => absurd e hno⟩, fun e => absurd e hno⟩
      rw [hst] at e
      cases e
    | some p1 =>
      rw [hx] at e3
      dsimp only at e3 ⊢
      obtain ⟨_, _, _, _, _, l6, _, rfl⟩ := ZkdvrfPre.submitPublicParams_some.1 hx
      refine ⟨⟨fun _ => ⟨pr, j1, j2, l6⟩, fun _ => ?_⟩, fun _ => ⟨e3, ?_, ?_, rfl⟩⟩
      · dsimp only
        rw [Function.update_self]
      · rw [Function.update_self]
      · exact List.mem_append_right _ (List.mem_singleton.2 rfl)
  | idle =>
    have hno : ¬ ProofAccepted M ins := by
      rintro ⟨pr', l1, l2, _⟩
      have := (hiff (s.w.node a) _).2 ⟨pr', l1, l2, rfl, rfl⟩
      rw [hr] at this
      cases this
    refine ⟨⟨fun e => ?_, fun e => absurd e hno⟩, fun e => absurd e hno⟩
    rw [e1] at e
    unfold Overlap.fetch at e
    dsimp only at e
    rw [Function.update_self] at e
    dsimp only at e
    rw [hr] at e
    unfold Overlap.land at e
    dsimp only at e
    rw [Function.update_self] at e
    dsimp only at e
    rw [hst] at e
    cases e
  | failed f =>
    have hno : ¬ ProofAccepted M ins := by
      rintro ⟨pr', l1, l2, _⟩
      have := (hiff (s.w.node a) _).2 ⟨pr', l1, l2, rfl, rfl⟩
      rw [hr] at this
      cases this
    refine ⟨⟨fun e => ?_, fun e => absurd e hno⟩, fun e => absurd e hno⟩
    rw [e1] at e
    unfold Overlap.fetch at e
    dsimp only at e
    rw [Function.update_self] at e
    dsimp only at e
    rw [hr] at e
    unfold Overlap.land at e
    dsimp only at e
    rw [Function.update_self] at e
    dsimp only at e
    rw [hst] at e
    cases e

/-- Start the nodes in this list again; what they have sent is lost. -/
private theorem restart_any {good : List Byte → List Word → Prop} {s : Survivors} (l : List Address) (hl : ∀ a ∈ l, a ∈ H) :
    ∃ s', MixedGuarded M good H t n aux1 aux2 s s' ∧ s'.w.p = s.w.p ∧ ∀ a ∈ l, s'.w.nodeAt a = .free := by
  induction l with
  | nil => exact ⟨s, .refl, rfl, fun a ha => by cases ha⟩
  | cons a l ih =>
    obtain ⟨s', h1, h2, h3⟩ := ih (fun b hb => hl b (List.mem_cons_of_mem _ hb))
    refine ⟨s'.restart a true, h1.tail (.restart a true (hl a (List.mem_cons_self ..)) (fun _ _ _ => rfl)), h2,
      fun b hb => ?_⟩
    unfold Survivors.restart
    dsimp only
    by_cases hba : b = a
    · subst hba; rw [Function.update_self]
    · rw [Function.update_of_ne hba]
      exact h3 b ((List.mem_cons.1 hb).resolve_left hba)

private theorem run_any (hM : Sane M aux1 aux2) {good : List Byte → List Word → Prop}
    (hg : ∀ pr pp, M.env.verifyProof pr pp = some true → good pr pp → Satisfiable t n aux1 aux2 pr pp)
    {w0 : World} (h0 : BeforeGuarded M good H t n w0.p)
    (d : Draw) (hd : GoodDraw t n aux1 aux2 d) (k : ℕ) (hk : k ≤ 9) (l : List Address) :
    ∀ s : Survivors, MixedGuarded M good H t n aux1 aux2 (.begin w0) s → (∀ a ∈ l, a ∈ H) → (∀ a ∈ l, s.w.nodeAt a = .free) →
      (∀ a ∈ l, Added s.w.p a) → s.w.p.contractPhase = .Ready → s.w.p.currentRoundNum = k →
      ∃ s', MixedGuarded M good H t n aux1 aux2 s s' ∧ s'.w.p.contractPhase = .Ready ∧ s'.w.p.currentRoundNum = k ∧
        s'.w.p.addrToNode = s.w.p.addrToNode ∧
        (∀ b, s.w.p.lastSubmittedRound b = k → s'.w.p.lastSubmittedRound b = k) ∧
        (t ≤ s'.w.p.roundSubmissionCount k ∨ ∀ a ∈ l, s'.w.p.lastSubmittedRound a = k) := by
  induction l with
  | nil =>
    intro s _ _ _ _ hp hc
    exact ⟨s, .refl, hp, hc, rfl, fun _ h => h, Or.inr fun a ha => by cases ha⟩
  | cons a l ih =>
    intro s hs hH hf hadd hp hc
    have haH := hH a (List.mem_cons_self ..)
    have ho := ((mixed_good_inv hM hg h0 hs).each a haH).one
    obtain ⟨_, o1, o2, hz⟩ := sim ho.reach ho.ht
    have hle : s.w.p.lastSubmittedRound a ≤ s.w.p.currentRoundNum := (Zkdvrf.evalInv hz).last_le a
    have hH' : ∀ b ∈ l, b ∈ H := fun b hb => hH b (List.mem_cons_of_mem _ hb)
    have hf' : ∀ b ∈ l, s.w.nodeAt b = .free := fun b hb => hf b (List.mem_cons_of_mem _ hb)
    have hadd' : ∀ b ∈ l, Added s.w.p b := fun b hb => hadd b (List.mem_cons_of_mem _ hb)
    by_cases hq : t ≤ s.w.p.roundSubmissionCount k
    · exact ⟨s, .refl, hp, hc, rfl, fun _ h => h, Or.inl hq⟩
    by_cases hla : s.w.p.lastSubmittedRound a = k
    · obtain ⟨s', r1, r2, r3, r4, r5, r6⟩ := ih s hs hH' hf' hadd' hp hc
      exact ⟨s', r1, r2, r3, r4, r5, r6.imp_right fun r6 b hb => (List.mem_cons.1 hb).elim
        (fun e => e ▸ r5 a hla) (r6 b)⟩
    · obtain ⟨w, _, e1, e2, e3, e4, e5, e6, e7, _⟩ := evaluates_any hM (good := good) (mixed_good_inv hM hg h0 hs) haH (hf a (List.mem_cons_self ..)) hp
        (hadd a (List.mem_cons_self ..)) (by omega) (by omega) (by rw [hc]; omega) d hd
      obtain ⟨s', r1, r2, r3, r4, r5, r6⟩ := ih ⟨w, s.left⟩ (Relation.ReflTransGen.trans hs e1) hH'
        (fun b hb => by dsimp only; rw [e2]; exact hf' b hb)
        (fun b hb => by unfold Added; dsimp only; rw [e6]; exact hadd' b hb) e4 (e5.trans hc)
      have hkeep : ∀ b, s.w.p.lastSubmittedRound b = k → w.p.lastSubmittedRound b = k := fun b hb => by
        by_cases hba : b = a
        · exact absurd (hba ▸ hb) hla
        · rw [e3 b hba, hb]
      refine ⟨s', Relation.ReflTransGen.trans e1 r1, r2, r3, r4.trans e6, fun b hb => r5 b (hkeep b hb),
        r6.imp_right fun r6 b hb => (List.mem_cons.1 hb).elim (fun e => ?_) (r6 b)⟩
      rw [e]
      exact r5 a (e7.trans hc)

/-- With any proof system, whatever the others have done (if the submissions that the contract has accepted are `good`,
and `good` ones can satisfy the circuit), and whatever the nodes are doing: if threshold many of them have been added, and
the open round is one of the first nine, then they can, by themselves, bring it to a quorum: start them again,
and let each do one pass at most.  This is so even if nothing that is on its way is ever mined. -/
theorem C99_any_quorum (hM : Sane M aux1 aux2) {good : List Byte → List Word → Prop}
    (hg : ∀ pr pp, M.env.verifyProof pr pp = some true → good pr pp → Satisfiable t n aux1 aux2 pr pp)
    {w0 : World} (h0 : BeforeGuarded M good H t n w0.p) {s : Survivors}
    (h : MixedGuarded M good H t n aux1 aux2 (.begin w0) s) (l : List Address) (hl : l.Nodup) (hH : ∀ a ∈ l, a ∈ H)
    (hadd : ∀ a ∈ l, Added s.w.p a) (ht : t ≤ l.length) (hp : s.w.p.contractPhase = .Ready)
    (hc1 : 1 ≤ s.w.p.currentRoundNum) (hc9 : s.w.p.currentRoundNum ≤ 9)
    (d : Draw) (hd : GoodDraw t n aux1 aux2 d) :
    ∃ s', MixedGuarded M good H t n aux1 aux2 s s' ∧ s'.w.p.contractPhase = .Ready ∧
      s'.w.p.currentRoundNum = s.w.p.currentRoundNum ∧
      t ≤ s'.w.p.roundSubmissionCount s.w.p.currentRoundNum ∧
      t ≤ Nat.card {i : ℕ // i < n ∧ Submitted s'.w.p s.w.p.currentRoundNum i} := by
  obtain ⟨s1, h1, h2, h3⟩ := restart_any (M := M) (good := good) (t := t) (n := n) (aux1 := aux1) (aux2 := aux2) (s := s) l hH
  obtain ⟨s', r1, r2, r3, r4, _, r6⟩ := run_any hM hg h0 d hd s.w.p.currentRoundNum hc9 l s1
    (Relation.ReflTransGen.trans h h1) hH h3 (by rw [h2]; exact hadd) (by rw [h2]; exact hp) (by rw [h2])
  have hs' := Relation.ReflTransGen.trans (Relation.ReflTransGen.trans h h1) r1
  have hi := mixed_good_inv hM hg h0 hs'
  have hlen : 1 ≤ t := h0.t_pos
  obtain ⟨a0, ha0⟩ := List.exists_mem_of_length_pos (show 0 < l.length by omega)
  have ho := (hi.each a0 (hH a0 ha0)).one
  obtain ⟨_, o1, o2, hz⟩ := sim ho.reach ho.ht
  have hev := Zkdvrf.evalInv hz
  have hreg := C31_pre_registration (ideal M t n aux1 aux2).env ho.reach ho.ht
  have key : t ≤ s'.w.p.roundSubmissionCount s.w.p.currentRoundNum := by
    rcases r6 with r6 | r6
    · exact r6
    have hr : ∀ a ∈ l, Registered s'.w.p a := fun a ha => by
      refine (hreg.2.2.2.2.2.2 (by rw [r2]; exact ZkdvrfPre.Phase.noConfusion)).2 a ?_
      unfold Added
      rw [r4, h2]
      exact hadd a ha
    have q1 : (l.map (indexOf s'.w.p)).Nodup :=
      List.Nodup.map_on (fun a ha b hb hab => hreg.2.2.1 a b (hr a ha) (hr b hb) hab) hl
    have q2 : (l.map (indexOf s'.w.p)).toFinset ⊆ (Finset.range s'.w.p.memberCount).filter
        (fun i => (s'.w.p.roundToEval s.w.p.currentRoundNum i).indexPlus ≠ 0) := by
      intro i hi
      obtain ⟨a, ha, rfl⟩ := List.mem_map.1 (List.mem_toFinset.1 hi)
      have q3 := r6 a ha
      have q4 := (hev.last_stored a (by change 0 < s'.w.p.lastSubmittedRound a; omega)).2
      change (s'.w.p.roundToEval (s'.w.p.lastSubmittedRound a) (indexOf s'.w.p a)).indexPlus ≠ 0 at q4
      rw [q3] at q4
      refine Finset.mem_filter.2 ⟨Finset.mem_range.2 ?_, q4⟩
      exact lt_of_lt_of_le (hreg.2.1 a (hr a ha)) hreg.2.2.2.2.1
    have q3 := Finset.card_le_card q2
    rw [List.toFinset_card_of_nodup q1, List.length_map] at q3
    have q4 : s'.w.p.roundSubmissionCount s.w.p.currentRoundNum = _ := hev.count s.w.p.currentRoundNum
    have q5 : l.length ≤ s'.w.p.roundSubmissionCount s.w.p.currentRoundNum := by rw [q4]; exact q3
    omega
  refine ⟨s', Relation.ReflTransGen.trans h1 r1, r2, r3, key, ?_⟩
  have := (C35_pre_evaluations (ideal M t n aux1 aux2).env ho.reach ho.ht ⟨s'.w.p.threshold, s'.w.p.memberCount⟩ rfl
    s.w.p.currentRoundNum 0).2.1
  rw [ho.cnt] at this
  omega

/-- With any proof system, whatever the others have done: when the open round has a quorum, and what the others have
stored for it is right, the commands of the admin service, with the files derived from what the contract has, make a
random that the contract accepts from its owner. -/
theorem C99_any_random (hM : Sane M aux1 aux2) {good : List Byte → List Word → Prop}
    (hg : ∀ pr pp, M.env.verifyProof pr pp = some true → good pr pp → Satisfiable t n aux1 aux2 pr pp)
    {w0 : World} (h0 : BeforeGuarded M good H t n w0.p) {s : Survivors}
    (h : MixedGuarded M good H t n aux1 aux2 (.begin w0) s) {a : Address} (ha : a ∈ H)
    (hp : s.w.p.contractPhase = .Ready) (hopen : ¬ Completed s.w.p s.w.p.currentRoundNum)
    (hq : t ≤ s.w.p.roundSubmissionCount s.w.p.currentRoundNum) (hown : s.w.p.owner ≠ 0) (hoH : s.w.p.owner ∉ H)
    (hothers : ∀ b, b ∉ H → Registered s.w.p b → Submitted s.w.p s.w.p.currentRoundNum (indexOf s.w.p b) →
      (s.w.p.roundToEval s.w.p.currentRoundNum (indexOf s.w.p b)).z.toNat < r ∧
      ∀ v V, decodeG1 (s.w.p.roundToEval s.w.p.currentRoundNum (indexOf s.w.p b)).value = some v →
        s.w.p.vkList[indexOf s.w.p b]? = some (encodeG1 V) →
        Spec.SameLog (evalHash M.env.keccak (s.w.p.roundInput s.w.p.currentRoundNum)) V v) (f : Files) :
    ∃ out, Client.derive ⟨t, n⟩ (Client.instancesFile s.w.p.ppList) none = .ok out ∧
    ∃ c p', createRandom M s.w.p { f with gpk := some out.gpk, vks := some out.vks } =
        .send { f with gpk := some out.gpk, vks := some out.vks } c ∧
      ZkdvrfPre.exec M.env s.w.p ⟨s.w.p.owner, 0⟩ c = some p' ∧
      MixedGuarded M good H t n aux1 aux2 s ⟨{ s.w with p := p' }, s.left⟩ ∧ Completed p' s.w.p.currentRoundNum := by
  obtain ⟨out, h1, c, p', h2, h3, _, h4⟩ := random_inv (ideal_faithful hM) (mixed_good_inv hM hg h0 h) ha hp hopen hq
    hown hoH hothers f
  have h2 : createRandom M s.w.p { f with gpk := some out.gpk, vks := some out.vks } = _ := h2
  have hc : ∀ pp pr, c ≠ .submitPublicParams pp pr := by
    rintro pp pr rfl
    unfold createRandom at h2
    repeat' first | cases h2 | split at h2 | dsimp only at h2
  rw [exec_ideal hc] at h3
  refine ⟨out, h1, c, p', h2, h3, ?_, h4⟩
  have hst : ZkdvrfPre.step M.env s.w.p (.call ⟨s.w.p.owner, 0⟩ c) = p' := by
    unfold ZkdvrfPre.step
    dsimp only
    rw [h3]
    rfl
  have := MixedGuardedStep.other (M := M) (good := good) (H := H) (t := t) (n := n) (aux1 := aux1) (aux2 := aux2) (s := s)
    (.call ⟨s.w.p.owner, 0⟩ c) hown (fun m c e => by
      injection e with e1 e2
      subst e1
      exact hoH) (fun m pp pr p' e _ => by
      injection e with e1 e2
      exact absurd e2 (hc pp pr))
  rw [hst] at this
  exact .single this

/-- A deployment before the DKG has no submissions behind it: the condition on its history is met. -/
theorem C99_any_fresh {good : List Byte → List Word → Prop} {p : State} (h : Before M H t n p)
    (hp : p.contractPhase = .Unregistered) : BeforeGuarded M good H t n p := by
  have ht : 1 ≤ p.threshold := by rw [h.threshold]; exact h.t_pos
  refine ⟨?_, h.threshold, h.members, h.t_pos, h.n_pos, h.nonzero, h.unregistered⟩
  have hr := h.reachable
  clear h
  induction hr with
  | deploy h => exact .deploy h
  | @step s tx hv hr ih =>
    have ht' : 1 ≤ s.threshold := by rw [← (ZkdvrfPre.step_threshold M.env s tx).1]; exact ht
    have hs : s.contractPhase = .Unregistered := by
      rcases C30_pre_phase_step M.env hr ht' tx hv with h | ⟨_, h2, _⟩ | ⟨_, h2, _⟩ | ⟨_, h2, _⟩ | ⟨_, h2, _⟩
      · exact h.symm.trans hp
      all_goals rw [h2] at hp; cases hp
    refine .step tx hv (ih hs ht') (fun m pp pr s' _ he => ?_)
    have := (ZkdvrfPre.submitPublicParams_some.1 he).2.2.1
    rw [hs] at this
    cases this

private theorem aside_any {good : List Byte → List Word → Prop} {s : Survivors} {p : State} {ad : Files} {nd : Address → Files} {aa : Stage AdminJob}
    {na : Address → Stage Job} (h : MixedGuarded M good H t n aux1 aux2 s ⟨⟨p, ad, nd, aa, na⟩, []⟩) {a : Address}
    (h0 : a ≠ 0) (ha : a ∉ H) {c : Zkdvrf.Call} {p' : State} (he : ZkdvrfPre.exec M.env p ⟨a, 0⟩ c = some p')
    (hg : ∀ pp pr, c = .submitPublicParams pp pr → good pr pp) :
    MixedGuarded M good H t n aux1 aux2 s ⟨⟨p', ad, nd, aa, na⟩, []⟩ := by
  have := h.tail (.other (.call ⟨a, 0⟩ c) h0 (fun m c' e => by
    injection e with e1 e2
    subst e1
    exact ha) (fun m pp pr p1 e _ => by
    injection e with e1 e2
    exact hg pp pr e2))
  have hs : ZkdvrfPre.step M.env p (.call ⟨a, 0⟩ c) = p' := by
    unfold ZkdvrfPre.step
    dsimp only
    rw [he]
    rfl
  dsimp only at this
  rw [hs] at this
  exact this

private theorem overlapping_any {good : List Byte → List Word → Prop} {o : Address} {ws : List Address} {w0 : World}
    (h0 : Fresh M o ws t n w0.p) (ho : o ∉ H)
    (hgn : ∀ w, Overlapping M o ws t n aux1 aux2 (.begin w0) w → ∀ b ∈ ws, ∀ pp pr k p',
      w.nodeAt b = .sent (.submitPublicParams pp pr) k →
      ZkdvrfPre.exec M.env w.p ⟨b, 0⟩ (.submitPublicParams pp pr) = some p' → good pr pp)
    (hga : ∀ w, Overlapping M o ws t n aux1 aux2 (.begin w0) w → ∀ pp pr k,
      w.adminAt ≠ .sent (.submitPublicParams pp pr) k) {w : Overlap}
    (h : Overlapping M o ws t n aux1 aux2 (.begin w0) w) :
    ∃ w', MixedGuarded M good H t n aux1 aux2 (.begin w0) ⟨w', []⟩ ∧ w'.p = w.p ∧
      ∀ a ∈ H, w'.node a = w.node a ∧ w'.nodeAt a = w.nodeAt a := by
  have hne : ∀ a ∈ ws, a ≠ 0 := (C99_fresh (H := {a | a ∈ ws}) h0 (fun a ha => ha)).nonzero
  induction h with
  | refl => exact ⟨_, .refl, rfl, fun _ _ => ⟨rfl, rfl⟩⟩
  | @look w a ha _ ih =>
    obtain ⟨w', h1, h2, h3⟩ := ih
    by_cases haH : a ∈ H
    · have e : w'.nodeAt a = w.nodeAt a := (h3 a haH).2
      refine ⟨w'.look a, h1.tail (.look a haH), ?_, fun b hb => ?_⟩
      · unfold Overlap.look
        rw [e, h2]
        split
        · split <;> first | rfl | exact h2
        · exact h2
      · unfold Overlap.look
        rw [e, h2]
        split
        · split
          · exact h3 b hb
          · refine ⟨(h3 b hb).1, ?_⟩
            dsimp only
            by_cases hba : b = a
            · subst hba; rw [Function.update_self, Function.update_self]
            · rw [Function.update_of_ne hba, Function.update_of_ne hba]
              exact (h3 b hb).2
        · exact h3 b hb
    · refine ⟨w', h1, ?_, fun b hb => ?_⟩
      · unfold Overlap.look
        split
        · split <;> first | rfl | exact h2
        · exact h2
      · have hba : b ≠ a := fun e => haH (e ▸ hb)
        unfold Overlap.look
        split
        · split
          · exact h3 b hb
          · dsimp only
            rw [Function.update_of_ne hba]
            exact h3 b hb
        · exact h3 b hb
  | @fetch w a d ha hd _ ih =>
    obtain ⟨w', h1, h2, h3⟩ := ih
    by_cases haH : a ∈ H
    · obtain ⟨e1, e2⟩ := h3 a haH
      refine ⟨w'.fetch M a d, h1.tail (.fetch a d haH hd), ?_, fun b hb => ?_⟩
      · unfold Overlap.fetch
        rw [e2, e1, h2]
        split
        · split <;> rfl
        · exact h2
      · unfold Overlap.fetch
        rw [e2, e1, h2]
        obtain ⟨q1, q2⟩ := h3 b hb
        split
        · split <;> dsimp only <;> by_cases hba : b = a <;>
            first
            | (subst hba; simp only [Function.update_self, q1, and_self])
            | (simp only [Function.update_of_ne hba]; exact ⟨q1, q2⟩)
        · exact ⟨q1, q2⟩
    · refine ⟨w', h1, ?_, fun b hb => ?_⟩
      · unfold Overlap.fetch
        split
        · split <;> first | rfl | exact h2
        · exact h2
      · have hba : b ≠ a := fun e => haH (e ▸ hb)
        unfold Overlap.fetch
        split
        · split <;> dsimp only <;> simp only [Function.update_of_ne hba] <;> exact h3 b hb
        · exact h3 b hb
  | @land w a ha hl hw ih =>
    obtain ⟨w', h1, h2, h3⟩ := ih
    by_cases haH : a ∈ H
    · have e : w'.nodeAt a = w.nodeAt a := (h3 a haH).2
      refine ⟨w'.land M a, h1.tail (.land a haH (by dsimp only; rw [e, h2]; exact hl)), ?_, fun b hb => ?_⟩
      · unfold Overlap.land
        rw [e, h2]
        split
        · split <;> rfl
        · exact h2
      · unfold Overlap.land
        rw [e, h2]
        obtain ⟨q1, q2⟩ := h3 b hb
        split
        · split <;> dsimp only <;> by_cases hba : b = a <;>
            first
            | (subst hba; simp only [Function.update_self, q1, and_self])
            | (simp only [Function.update_of_ne hba]; exact ⟨q1, q2⟩)
        · exact ⟨q1, q2⟩
    · obtain ⟨p1, ad, nd, aa, na⟩ := w'
      dsimp only at h2 h3
      subst h2
      have hba : ∀ b ∈ H, b ≠ a := fun b hb e => haH (e ▸ hb)
      unfold Overlap.land
      split
      · rename_i hsent
        split
        · refine ⟨_, h1, rfl, fun b hb => ?_⟩
          dsimp only
          rw [Function.update_of_ne (hba b hb)]
          exact h3 b hb
        · rename_i he
          refine ⟨_, aside_any h1 (hne a ha) haH he
            (fun pp pr e => by subst e; exact hgn w hw a ha pp pr _ _ hsent he), rfl, fun b hb => ?_⟩
          dsimp only
          rw [Function.update_of_ne (hba b hb)]
          exact h3 b hb
      · exact ⟨_, h1, rfl, h3⟩
  | @adminLook w b _ ih =>
    obtain ⟨w', h1, h2, h3⟩ := ih
    refine ⟨w', h1, ?_⟩
    unfold Overlap.adminDecide
    split <;> exact ⟨h2, h3⟩
  | @adminTick w b e _ _ ih =>
    obtain ⟨w', h1, h2, h3⟩ := ih
    refine ⟨w', h1, ?_⟩
    unfold Overlap.adminDecide
    split <;> exact ⟨h2, h3⟩
  | @adminFetch w _ ih =>
    obtain ⟨w', h1, h2, h3⟩ := ih
    refine ⟨w', h1, ?_⟩
    unfold Overlap.adminFetch
    split
    · split <;> exact ⟨h2, h3⟩
    · exact ⟨h2, h3⟩
  | @adminLand w hw ih =>
    obtain ⟨w', h1, h2, h3⟩ := ih
    obtain ⟨p1, ad, nd, aa, na⟩ := w'
    dsimp only at h2 h3
    subst h2
    unfold Overlap.adminLand
    split
    · rename_i hsent
      split
      · exact ⟨_, h1, rfl, h3⟩
      · rename_i he
        exact ⟨_, aside_any h1 h0.owner_ne ho he
          (fun pp pr e => by subst e; exact absurd hsent (hga w hw pp pr _)), rfl, h3⟩
    · exact ⟨_, h1, rfl, h3⟩

private theorem overlapping_surviving {o : Address} {ws : List Address} {w0 : World} {w : Overlap}
    (h : Overlapping M o ws t n aux1 aux2 (.begin w0) w) : Surviving M o ws t n aux1 aux2 (.begin w0) ⟨w, []⟩ := by
  have h2 := C96_steps.1 h
  clear h
  induction h2 with
  | refl => exact .refl
  | tail _ h4 ih => exact ih.tail (Or.inl (.run _ h4))

theorem overlapping_unguard (hM : Sane M aux1 aux2)
    (hc : ∀ ins, DkgCircuit.synthesize ⟨t, n⟩ aux1 aux2 ins → ServicesFiles.ProofAccepted M ins) {o : Address}
    {ws : List Address} {w0 : World} (h0 : Fresh M o ws t n w0.p) {w : Overlap}
    (h : Overlapping (guarded M t n aux1 aux2) o ws t n aux1 aux2 (.begin w0) w) :
    Overlapping M o ws t n aux1 aux2 (.begin w0) w := by
  have h2 := C96_steps.1 h
  clear h
  refine C96_steps.2 ?_
  induction h2 with
  | refl => exact .refl
  | @tail b c h3 h4 ih =>
    have hK := surviving_inv (guarded_faithful hM hc) (guarded_fresh h0) (overlapping_surviving (C96_steps.2 h3))
    exact ih.tail ((guarded_overlap_step (s := ⟨b, []⟩) hK).1 h4)

open Classical in
/-- The histories of overlapping passes of all services are such histories with any proof system, for any of the
nodes: the submissions of the other nodes that the contract has accepted can satisfy the circuit. -/
theorem C99_any_overlapping (hM : Sane M aux1 aux2) {o : Address} {ws : List Address} {w0 : World}
    (h0 : Fresh M o ws t n w0.p) (hH : ∀ a ∈ H, a ∈ ws) (ho : o ∉ H) {w : Overlap}
    (h : Overlapping M o ws t n aux1 aux2 (.begin w0) w) :
    BeforeGuarded M (Satisfiable t n aux1 aux2) H t n w0.p ∧
    ∃ w', MixedGuarded M (Satisfiable t n aux1 aux2) H t n aux1 aux2 (.begin w0) ⟨w', []⟩ ∧ w'.p = w.p ∧
      ∀ a ∈ H, w'.node a = w.node a ∧ w'.nodeAt a = w.nodeAt a := by
  have hK : ∀ w, Overlapping M o ws t n aux1 aux2 (.begin w0) w →
      ∃ s', KInv (ideal M t n aux1 aux2) o ws t n s' ∧ Like ws ⟨w, []⟩ s' := by
    intro w hw
    have h1 := overlapping_surviving hw
    obtain ⟨s', q1, q2⟩ := surviving_ideal hM h0 h1
    exact ⟨s', surviving_inv (ideal_faithful hM) (ServicesFiles.ideal_fresh h0) q1, q2⟩
  refine ⟨C99_any_fresh (C99_fresh h0 hH) h0.phase, overlapping_any h0 ho ?_ ?_ h⟩
  · intro w hw b hb pp pr k p' hs he
    obtain ⟨s', q1, q2⟩ := hK w hw
    have hn := q1.nodes b hb
    rcases q2.nodes b with e | ⟨_, e, _⟩
    · rw [e] at hn
      dsimp only at hn
      rw [hs] at hn
      obtain ⟨p'', r1, _⟩ := land_deal (k := k) q1.core hb (hn.2 (by
        rw [q2.state]; exact (ZkdvrfPre.submitPublicParams_some.1 he).2.2.2.1))
      exact of_decide_eq_true (Option.some.inj (ZkdvrfPre.submitPublicParams_some.1 r1).2.2.2.2.2.1)
    · dsimp only at e
      rw [hs] at e; cases e
  · intro w hw pp pr k hs
    obtain ⟨s', q1, q2⟩ := hK w hw
    have hn := q1.admin
    rw [q2.adminAt] at hn
    dsimp only at hn
    rw [hs] at hn
    exact hn.elim

end

section
open Verif.Layout DkgCircuit

/-- Honest nodes among algebraic adversaries. Let the contract check proofs with the deployed verifier, with a key that
belongs to the layout of the circuit.  Then for every instance there are few exceptional challenges, such that
the following holds, whatever the provers and the client's verifiers do, and whatever the owner, the other members and
outsiders do, if the submissions of theirs that the contract accepts come from provers that know polynomials, hit
no exception and know no nonzero polynomial vanishing at the secret of the setup.  The files of every honest node are right,
its dealing is stored, its evaluations are right, the keys of a finished setup are sums of dealings, and threshold many
honest nodes bring an open round (of the first nine) to a quorum by themselves. -/
theorem C99_adversaries (E : BnPairing) (V : Spec.Halo2.Key) (hV : V.Valid)
    (s : Fr) (K : Spec.Halo2.KeyPolys) (hK : Spec.Halo2.KeyFor V s K) (D : ℕ) (hD : V.n ≤ D + 1) (hKD : K.Bound D)
    (hi : V.instances ≤ V.n) (J : IntegerImpl) (t n : ℕ) (aux1 : G1) (aux2 : G2)
    (S : Shape) (hL : layout J ⟨t, n⟩ aux1 aux2 = some (S, V.instances)) (start : ℕ → ℕ) (hR : Realizes V K S start)
    (hJ : ∀ advice inst, ∃ good val, J.Correct (tableOf V K start advice inst) good val) :
    ∃ B : List Fr → Spec.Halo2.Exceptions, (∀ inst, (B inst).Small V D) ∧
      ∀ (M : Machine) (sel : List Byte) (addr : Word), M.env.E = E → sel.length = 4 →
      M.env.verifyProof = Halo2.verifyProof E M.env.keccak V.words sel addr → Sane M aux1 aux2 →
      ∀ (H : Set Address) (w0 : World) (q : Survivors),
      BeforeGuarded M (Spec.Halo2.Clean M.env.keccak V s K D B) H t n w0.p →
      MixedGuarded M (Spec.Halo2.Clean M.env.keccak V s K D B) H t n aux1 aux2 (.begin w0) q →
      (∀ a ∈ H,
        (Registered q.w.p a → ∃ sk : Fq, sk ≠ 0 ∧ (q.w.node a).member = some (Client.keygen sk) ∧
          q.w.p.pkList[indexOf q.w.p a]? = some (Zkdvrf.keyWords (sk • gk))) ∧
        ((q.w.p.addrToNode a).statusPP = true →
          ∃ d ins, GoodDraw t n aux1 aux2 d ∧ Deals M q.w.p d ins ∧ wordsOf ins ∈ q.w.p.ppList) ∧
        (q.w.p.lastSubmittedRound a ≠ 0 → ∃ member out sh, (q.w.node a).member = some member ∧
          Client.derive ⟨t, n⟩ (Client.instancesFile q.w.p.ppList) (some (indexOf q.w.p a + 1, member)) = .ok out ∧
          out.share = some sh ∧ (q.w.node a).share = some sh ∧ (q.w.node a).vks = some out.vks) ∧
        ∀ k, Registered q.w.p a → Submitted q.w.p k (indexOf q.w.p a) →
          (q.w.p.roundToEval k (indexOf q.w.p a)).z.toNat < r ∧
          ∃ v V, decodeG1 (q.w.p.roundToEval k (indexOf q.w.p a)).value = some v ∧
            q.w.p.vkList[indexOf q.w.p a]? = some (encodeG1 V) ∧
            Spec.SameLog (evalHash M.env.keccak (q.w.p.roundInput k)) V v) ∧
      (q.w.p.contractPhase = .Ready →
        KeysFrom t n q.w.p.pkList q.w.p.ppList q.w.p.vkList q.w.p.gpkVal) ∧
      ∀ l : List Address, l.Nodup → (∀ a ∈ l, a ∈ H) → (∀ a ∈ l, Added q.w.p a) → t ≤ l.length →
        q.w.p.contractPhase = .Ready → 1 ≤ q.w.p.currentRoundNum → q.w.p.currentRoundNum ≤ 9 →
        ∀ d, GoodDraw t n aux1 aux2 d →
        ∃ q', MixedGuarded M (Spec.Halo2.Clean M.env.keccak V s K D B) H t n aux1 aux2 q q' ∧
          q'.w.p.currentRoundNum = q.w.p.currentRoundNum ∧ t ≤ q'.w.p.roundSubmissionCount q.w.p.currentRoundNum := by
  obtain ⟨B, hB, h⟩ := on_chain_circuit E V hV s K hK D hD hKD hi J t n aux1 aux2 S hL start hR hJ
  refine ⟨B, hB, fun M sel addr hE hs henv hM H w0 q h0 hq => ?_⟩
  have hg : ∀ pr pp, M.env.verifyProof pr pp = some true → Spec.Halo2.Clean M.env.keccak V s K D B pr pp →
      Satisfiable t n aux1 aux2 pr pp := fun pr pp hv hc => h M.env.keccak sel addr hs pr pp (henv ▸ hv) hc
  have h0' := before_mono hg h0
  have hq' := mixed_mono hg hq
  refine ⟨fun a ha => ⟨(C99_any_files hM h0' hq' ha).1, C99_any_dealing hM h0' hq' ha, (C99_any_files hM h0' hq' ha).2,
    fun k hr hk => C99_any_evaluations hM h0' hq' ha hr hk⟩, C99_any_keys_are_sums hM h0' hq',
    fun l hl hH hadd ht hp h1 h9 d hd => ?_⟩
  obtain ⟨q', r1, _, r3, r4, _⟩ := C99_any_quorum hM hg h0 hq l hl hH hadd ht hp h1 h9 d hd
  exact ⟨q', r1, r3, r4⟩

end

/-- A concrete case with the deployed verifier: for every secret of the setup there are a key, a layout and exceptions as in
`C99_adversaries` for two of three, and a history in which an outsider sends ether and node 1 registers. -/
example (s : Fr) : ∃ (V : Spec.Halo2.Key) (K : Spec.Halo2.KeyPolys) (B : List Fr → Spec.Halo2.Exceptions),
    V.Valid ∧ Spec.Halo2.KeyFor V s K ∧ (∀ inst, (B inst).Small V (V.n - 1)) ∧
    ∃ w0 q, BeforeGuarded (deployed V) (Spec.Halo2.Clean (deployed V).env.keccak V s K (V.n - 1) B) {1} 2 3 w0.p ∧
      MixedGuarded (deployed V) (Spec.Halo2.Clean (deployed V).env.keccak V s K (V.n - 1) B) {1} 2 3 (5 • g1)
        FixedPoint.aux2 (.begin w0) q ∧
      Registered q.w.p 1 ∧
      ∃ sk : Fq, sk ≠ 0 ∧ (q.w.node 1).member = some (Client.keygen sk) ∧
        q.w.p.pkList[indexOf q.w.p 1]? = some (Zkdvrf.keyWords (sk • gk)) := by
  obtain ⟨J, S, start, K, hJ, -, hL, h⟩ := C83_deployment_exists 2 3 (by norm_num) (by norm_num) (by norm_num)
  obtain ⟨V, hV, hn, hi, hF, hB, -, hR⟩ := h s
  obtain ⟨B, h1, h2⟩ := C99_adversaries toyMachine.env.E V hV s K hF (V.n - 1) (by omega) hB (by rw [hn, hi]; norm_num) J 2 3
    _ _ S (by rw [hL, hi]) start hR.toRealizes (fun _ _ => hJ _)
  obtain ⟨p, hp⟩ := deployed_fresh V
  have hb : Before (deployed V) {1} 2 3 (⟨p, .none, fun _ => .none⟩ : World).p :=
    C99_fresh hp (by intro a ha; rw [ha]; decide)
  have hq1 : MixedGuarded (deployed V) (fun _ _ => False) {1} 2 3 (5 • g1) FixedPoint.aux2 (.begin ⟨p, .none, fun _ => .none⟩)
      ⟨{ Overlap.begin ⟨p, .none, fun _ => .none⟩ with p := { p with balance := p.balance + 5 } }, []⟩ :=
    .single (.other (s := .begin ⟨p, .none, fun _ => .none⟩) (.forceEther 5) trivial (fun m c e => by cases e)
      (fun m pp pr p' e => by cases e))
  obtain ⟨w, _, h3, _, h4, _⟩ := C99_any_registers (deployed_sane V) (good := fun _ _ => False) (fun _ _ _ h => h.elim)
    (C99_any_fresh hb hp.phase) hq1 (a := 1) rfl rfl hp.phase ((hp.added 1).2 (by decide)) (hb.unregistered 1 rfl)
    hp.deposit toyDraw toy_good
  have h5 := mixed_mono (good' := Spec.Halo2.Clean (deployed V).env.keccak V s K (V.n - 1) B)
    (fun _ _ _ h => h.elim) (Relation.ReflTransGen.trans hq1 h3)
  have hbg := C99_any_fresh (good := Spec.Halo2.Clean (deployed V).env.keccak V s K (V.n - 1) B) hb hp.phase
  obtain ⟨h6, _⟩ := h2 (deployed V) [1, 2, 3, 4] 5 rfl rfl rfl (deployed_sane V) {1} _ _ hbg h5
  exact ⟨V, K, B, hV, hF, h1, _, _, hbg, h5, h4, (h6 1 rfl).1 h4⟩

/-- A concrete case without soundness: honest services come to the first round; whatever else a verifier that accepts
everything would have allowed, nodes 1 and 2 bring the round to a quorum by themselves. -/
example : ∃ w0 s s', ¬ Spec.SnarkSound gullible.env 2 3 ∧
    BeforeGuarded gullible (Satisfiable 2 3 (5 • g1) FixedPoint.aux2) {1, 2} 2 3 w0.p ∧
    MixedGuarded gullible (Satisfiable 2 3 (5 • g1) FixedPoint.aux2) {1, 2} 2 3 (5 • g1) FixedPoint.aux2 (.begin w0) s ∧
    MixedGuarded gullible (Satisfiable 2 3 (5 • g1) FixedPoint.aux2) {1, 2} 2 3 (5 • g1) FixedPoint.aux2 s s' ∧
    s.w.p.currentRoundNum = 1 ∧ s.w.p.roundSubmissionCount 1 = 0 ∧ 2 ≤ s'.w.p.roundSubmissionCount 1 ∧
    KeysFrom 2 3 s.w.p.pkList s.w.p.ppList s.w.p.vkList s.w.p.gpkVal := by
  obtain ⟨w0, h0, _, hw⟩ := toy_world
  obtain ⟨w1, h1⟩ := hw 9 (by omega)
  have hb9 : 9 < 2 ^ 255 := by norm_num
  obtain ⟨q1, q2, _, q4⟩ := (C55_stage toyMachine toy_faithful h0 h1 hb9).2.2.2.2.2 0 0 (by omega) (by omega)
  have r1 := C96_atomic_history toy_faithful h0 h1 hb9
  have hc := (overlap_inv toy_faithful h0 r1).core
  have hp : Fresh gullible 7 [1, 2, 3] 2 3 w0.p :=
    { h0 with reachable := ServicesFiles.reachable_verifier _ h0.reachable (by rw [h0.threshold]; norm_num) h0.phase }
  rw [← gullible_guarded] at r1
  have r2 := overlapping_unguard gullible_sane gullible_proved hp r1
  have hin : ∀ a ∈ ({1, 2} : Set Address), a ∈ [(1 : Address), 2, 3] := by
    rintro a (rfl | rfl) <;> decide
  obtain ⟨hb, w', h3, h4, _⟩ := C99_any_overlapping (H := {1, 2}) gullible_sane hp hin (by
    intro h; rcases (h : (7 : Address) = 1 ∨ (7 : Address) = 2) with h | h <;> exact absurd h (by decide)) r2
  have h4' : w'.p = w1.p := h4
  have hadd : ∀ a ∈ [(1 : Address), 2], Added w'.p a := by
    intro a ha
    rw [h4']
    refine (hc.added a).2 ?_
    rcases List.mem_cons.1 ha with rfl | ha
    · decide
    · rw [List.mem_singleton.1 ha]; decide
  obtain ⟨s', h5, _, _, h8, _⟩ := C99_any_quorum gullible_sane (good := Satisfiable 2 3 (5 • g1) FixedPoint.aux2)
    (fun _ _ _ h => h) hb h3 [1, 2] (by decide) (by
      intro a ha
      rcases List.mem_cons.1 ha with rfl | ha
      · exact Or.inl rfl
      · exact Or.inr (List.mem_singleton.1 ha)) hadd (le_refl _) (by dsimp only; rw [h4', q1])
    (by dsimp only; rw [h4', q2]) (by dsimp only; rw [h4', q2]; norm_num) toyDraw toy_good
  dsimp only at h8
  rw [h4', q2] at h8
  exact ⟨w0, _, s', gullible_unsound, hb, h3, h5, by dsimp only; rw [h4', q2], by dsimp only; rw [h4', q4], h8,
    C99_any_keys_are_sums gullible_sane hb h3 (by dsimp only; rw [h4', q1])⟩

/-- A concrete case of a dealing with a verifier that accepts everything: the registration is over; a pass of node 1 deals,
and what is stored satisfies the circuit. -/
example : ∃ w0 s w ins, ¬ Spec.SnarkSound gullible.env 2 3 ∧
    BeforeGuarded gullible (Satisfiable 2 3 (5 • g1) FixedPoint.aux2) {1} 2 3 w0.p ∧
    MixedGuarded gullible (Satisfiable 2 3 (5 • g1) FixedPoint.aux2) {1} 2 3 (5 • g1) FixedPoint.aux2 (.begin w0) s ∧
    MixedGuarded gullible (Satisfiable 2 3 (5 • g1) FixedPoint.aux2) {1} 2 3 (5 • g1) FixedPoint.aux2 s ⟨w, s.left⟩ ∧
    (s.w.p.addrToNode 1).statusPP = false ∧ (w.p.addrToNode 1).statusPP = true ∧ wordsOf ins ∈ w.p.ppList ∧
    DkgCircuit.synthesize ⟨2, 3⟩ (5 • g1) FixedPoint.aux2 ins := by
  obtain ⟨w0, h0, _, hw⟩ := toy_world
  obtain ⟨w1, h1⟩ := hw 4 (by omega)
  have hb4 : 4 < 2 ^ 255 := by norm_num
  obtain ⟨s1, s2⟩ := (C55_stage toyMachine toy_faithful h0 h1 hb4).2.2.1 0 (by omega) (by omega)
  have r1 := C96_atomic_history toy_faithful h0 h1 hb4
  have hc := (overlap_inv toy_faithful h0 r1).core
  have hp : Fresh gullible 7 [1, 2, 3] 2 3 w0.p :=
    { h0 with reachable := ServicesFiles.reachable_verifier _ h0.reachable (by rw [h0.threshold]; norm_num) h0.phase }
  have hst : (w1.p.addrToNode 1).statusPP = false := by
    obtain ⟨_, o1, o2, hz⟩ := sim hc.reach hc.ht
    cases hst : (w1.p.addrToNode 1).statusPP with
    | false => rfl
    | true =>
      exfalso
      have hd := Zkdvrf.dkgInv hz
      have hm := (hd.ppMem 1).2 hst
      have hl := hd.ordLen
      rw [← hd.ppLen, show ((Overlap.begin w1).p.toZk o1 o2).ppList.length = 0 from s2] at hl
      rw [List.length_eq_zero_iff.1 hl] at hm
      cases hm
  have hcan : Canonical w1.p := by
    have hall : ∀ k ∈ w1.p.pkList, ∃ pk : Gk, Zkdvrf.keyWords pk = k := by
      intro k hk
      obtain ⟨i, hi, rfl⟩ := List.mem_iff_getElem.1 hk
      obtain ⟨a, ha, rfl⟩ := (C31_pre_registration toyMachine.env hc.reach hc.ht).2.2.2.1 i hi
      obtain ⟨sk, _, _, q⟩ := hc.keys a ha
      exact ⟨sk • gk, (Option.some.inj ((List.getElem?_eq_getElem hi).symm.trans q)).symm⟩
    have hr : w1.p.pkList ∈ Set.range (List.map Zkdvrf.keyWords) := by
      rw [Set.range_list_map]
      exact hall
    obtain ⟨l, hl⟩ := hr
    exact ⟨l, hl.symm⟩
  rw [← gullible_guarded] at r1
  have r2 := overlapping_unguard gullible_sane gullible_proved hp r1
  obtain ⟨hb, w', h3, h4, h5⟩ := C99_any_overlapping (H := {1}) gullible_sane hp (by
    intro a ha; rw [ha]; decide) (by
    intro h; exact absurd (h : (7 : Address) = 1) (by decide)) r2
  have h4' : w'.p = w1.p := h4
  have hadd : Added w'.p 1 := by rw [h4']; exact (hc.added 1).2 (by decide)
  obtain ⟨ins, w, _, q2, _, q4, q5⟩ := C99_any_deals gullible_sane (good := Satisfiable 2 3 (5 • g1) FixedPoint.aux2)
    (fun _ _ _ h => h) hb h3 (a := 1) rfl ((h5 1 rfl).2) (by dsimp only; rw [h4', s1]) hadd
    (by dsimp only; rw [h4', hst]) (by dsimp only; rw [h4']; exact hcan) toyDraw toy_good
  have hpa := gullible_proved ins q2
  obtain ⟨q6, _, q7, _⟩ := q5 hpa
  exact ⟨w0, _, w, ins, gullible_unsound, hb, h3, q6, by dsimp only; rw [h4', hst], q4.2 hpa, q7, q2⟩

/-- A concrete case of a random with a verifier that accepts everything: two evaluations are stored, and the contract
accepts the random that the commands of the admin service make. -/
example : ∃ w0 s p', ¬ Spec.SnarkSound gullible.env 2 3 ∧
    BeforeGuarded gullible (Satisfiable 2 3 (5 • g1) FixedPoint.aux2) {1, 2} 2 3 w0.p ∧
    MixedGuarded gullible (Satisfiable 2 3 (5 • g1) FixedPoint.aux2) {1, 2} 2 3 (5 • g1) FixedPoint.aux2 (.begin w0) s ∧
    ¬ Completed s.w.p 1 ∧
    MixedGuarded gullible (Satisfiable 2 3 (5 • g1) FixedPoint.aux2) {1, 2} 2 3 (5 • g1) FixedPoint.aux2 s
      ⟨{ s.w with p := p' }, s.left⟩ ∧ Completed p' 1 := by
  obtain ⟨w0, h0, _, hw⟩ := toy_world
  obtain ⟨w1, h1⟩ := hw 11 (by omega)
  have hb11 : 11 < 2 ^ 255 := by norm_num
  obtain ⟨q1, q2, q3, q4⟩ := (C55_stage toyMachine toy_faithful h0 h1 hb11).2.2.2.2.2 0 2 (by omega) (by omega)
  have r1 := C96_atomic_history toy_faithful h0 h1 hb11
  have hc := (overlap_inv toy_faithful h0 r1).core
  have hp : Fresh gullible 7 [1, 2, 3] 2 3 w0.p :=
    { h0 with reachable := ServicesFiles.reachable_verifier _ h0.reachable (by rw [h0.threshold]; norm_num) h0.phase }
  have hevs := hc.evs
  have hown : w1.p.owner = 7 := hc.owner
  rw [← gullible_guarded] at r1
  have r2 := overlapping_unguard gullible_sane gullible_proved hp r1
  have hin : ∀ a ∈ ({1, 2} : Set Address), a ∈ [(1 : Address), 2, 3] := by
    rintro a (rfl | rfl) <;> decide
  have h7 : (7 : Address) ∉ ({1, 2} : Set Address) := by
    intro h; rcases (h : (7 : Address) = 1 ∨ (7 : Address) = 2) with h | h <;> exact absurd h (by decide)
  obtain ⟨hb, w', h3, h4, _⟩ := C99_any_overlapping (H := {1, 2}) gullible_sane hp hin h7 r2
  have h4' : w'.p = w1.p := h4
  obtain ⟨_, _, _, p', _, _, h5, h6⟩ := C99_any_random gullible_sane
    (good := Satisfiable 2 3 (5 • g1) FixedPoint.aux2) (fun _ _ _ h => h) hb h3 (a := 1) (Or.inl rfl)
    (by dsimp only; rw [h4', q1])
    (by dsimp only; rw [h4', q2]; exact q3) (by dsimp only; rw [h4', q2, q4])
    (by dsimp only; rw [h4', hown]; decide) (by dsimp only; rw [h4', hown]; exact h7)
    (fun b _ _ hs => by dsimp only at hs ⊢; rw [h4'] at hs ⊢; exact hevs _ _ hs) .none
  dsimp only at h6
  rw [h4', q2] at h6
  exact ⟨w0, _, p', gullible_unsound, hb, h3, by dsimp only; rw [h4']; exact q3, h5, h6⟩

end Verif.Props
