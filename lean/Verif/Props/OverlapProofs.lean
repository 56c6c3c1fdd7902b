import Verif.Lemmas.OverlapProofs
import Verif.Props.ServicesProofs

/-! C98: services killed at any time, whatever the proof system. -/

namespace Verif.Props
open Verif.Services Verif.Overlap
open Spec
open ServicesFiles (Sane Deals ProofAccepted ideal ideal_faithful ideal_fresh exec_ideal)
open ZkdvrfPre (State Completed Submitted Registered indexOf Reachable sim getIndexPlus)

section
variable {M : Machine} {o : Address} {ws : List Address} {t n : ℕ} {aux1 : G1} {aux2 : G2}

/-! ### Any proof system: provers that fail, verifiers that reject or accept anything -/

/-- Whatever the proof system does, and whenever services are killed, the secret of every registered key is in the
key file of its node, a node that has evaluated has its share and the verification keys that the dealings
determine, and so has the admin once the contract is ready. -/
theorem C98_any_files (hM : Sane M aux1 aux2) {w0 : World} (h0 : Fresh M o ws t n w0.p) {s : Survivors}
    (h : Surviving M o ws t n aux1 aux2 (.begin w0) s) (a : Address) :
    (Registered s.w.p a → ∃ sk : Fq, sk ≠ 0 ∧ (s.w.node a).member = some (Client.keygen sk) ∧
      s.w.p.pkList[indexOf s.w.p a]? = some (Zkdvrf.keyWords (sk • gk))) ∧
    (s.w.p.lastSubmittedRound a ≠ 0 → ∃ member out sh, (s.w.node a).member = some member ∧
      Client.derive ⟨t, n⟩ (Client.instancesFile s.w.p.ppList) (some (indexOf s.w.p a + 1, member)) = .ok out ∧
      out.share = some sh ∧ (s.w.node a).share = some sh ∧ (s.w.node a).vks = some out.vks) ∧
    (s.w.p.contractPhase = .Ready → ∃ out,
      Client.derive ⟨t, n⟩ (Client.instancesFile s.w.p.ppList) none = .ok out ∧
      s.w.admin.gpk = some out.gpk ∧ s.w.admin.vks = some out.vks) := by
  obtain ⟨s', h1, h2⟩ := surviving_ideal hM h0 h
  have := C98_files (ideal_faithful hM) (ideal_fresh h0) h1 a
  rwa [h2.state, h2.files, h2.adminFiles] at this

/-- Whatever the proof system does, all keys on the chain are those of polynomials of degree below the threshold. -/
theorem C98_any_keys_are_sums (hM : Sane M aux1 aux2) {w0 : World} (h0 : Fresh M o ws t n w0.p) {s : Survivors}
    (h : Surviving M o ws t n aux1 aux2 (.begin w0) s) (hp : s.w.p.contractPhase = .Ready) :
    KeysFrom t n s.w.p.pkList s.w.p.ppList s.w.p.vkList s.w.p.gpkVal := by
  obtain ⟨s', h1, h2⟩ := surviving_ideal hM h0 h
  have hi := (surviving_inv (ideal_faithful hM) (ideal_fresh h0) h1).core
  rw [h2.state] at hi
  have := C33_pre_keys_are_sums _ hi.reach hi.ht hp (by rw [hi.thr, hi.cnt]; exact (ideal_faithful hM).sound)
  rwa [hi.thr, hi.cnt] at this

/-- Whatever the proof system does, the commands that a node has decided to run succeed, except for those of a
dealing. -/
theorem C98_any_commands_succeed (hM : Sane M aux1 aux2) {w0 : World} (h0 : Fresh M o ws t n w0.p)
    {s : Survivors} (h : Surviving M o ws t n aux1 aux2 (.begin w0) s) {a : Address} (ha : a ∈ ws) {j : Job}
    (hj : s.w.nodeAt a = .decided j) (hd : j ≠ .deal) (d : Draw) (hg : GoodDraw t n aux1 aux2 d) :
    ∃ f c, nodeRun M s.w.p a (s.w.node a) d j = .send f c := by
  obtain ⟨s', h1, h2⟩ := surviving_ideal hM h0 h
  have hj' : s'.w.nodeAt a = .decided j := by
    rcases h2.nodes a with h3 | ⟨_, h3, _⟩
    · exact h3.trans hj
    · rw [hj] at h3; cases h3
  rcases C98_commands_succeed (ideal_faithful hM) (ideal_fresh h0) h1 ha hj' d hg with ⟨f, c, h3⟩ | ⟨h3, _⟩
  · refine ⟨f, c, ?_⟩
    rw [h2.state, h2.files] at h3
    rcases nodeRun_ideal (M := M) (t := t) (n := n) (aux1 := aux1) (aux2 := aux2) s.w.p a (s.w.node a) d j with
      h4 | ⟨h4, _⟩
    · exact h4.trans h3
    · exact absurd h4 hd
  · exact absurd h3 hd

/-- A node that has decided to deal, and whose dealing is still needed, deals an instance with which the circuit can
be satisfied; its commands succeed exactly if the prover proves this instance and the client accepts the proof, and
then this instance and this proof are sent. -/
theorem C98_any_dealing (hM : Sane M aux1 aux2) {w0 : World} (h0 : Fresh M o ws t n w0.p)
    {s : Survivors} (h : Surviving M o ws t n aux1 aux2 (.begin w0) s) {a : Address} (ha : a ∈ ws)
    (hj : s.w.nodeAt a = .decided .deal) (hst : (s.w.p.addrToNode a).statusPP = false) (d : Draw)
    (hd : GoodDraw t n aux1 aux2 d) :
    ∃ ins, Deals M s.w.p d ins ∧ DkgCircuit.synthesize ⟨t, n⟩ aux1 aux2 ins ∧
      ∀ f c, nodeRun M s.w.p a (s.w.node a) d .deal = .send f c ↔
        ∃ pr, M.prover ins = some pr ∧ M.verifier pr ins = true ∧ f = s.w.node a ∧
          c = .submitPublicParams (wordsOf ins) pr := by
  obtain ⟨s', h1, h2⟩ := surviving_ideal hM h0 h
  have hi := surviving_inv (ideal_faithful hM) (ideal_fresh h0) h1
  have hn := hi.nodes a ha
  have hj' : s'.w.nodeAt a = .decided .deal := by
    rcases h2.nodes a with h3 | ⟨_, h3, _⟩
    · exact h3.trans hj
    · rw [hj] at h3; cases h3
  rw [hj', h2.state] at hn
  have hc := hi.core
  rw [h2.state, h2.files] at hc
  exact run_deal_ideal hM hc ha hn hst d hd

/-- A transaction of a running or killed node is accepted, except: a second dealing; an evaluation that is not
needed any more; a dealing whose proof the contract does not accept, although it is one of an instance with which
the circuit can be satisfied. -/
theorem C98_any_transactions (hM : Sane M aux1 aux2) (ho : o ∉ ws) {w0 : World} (h0 : Fresh M o ws t n w0.p)
    {s : Survivors} (h : Surviving M o ws t n aux1 aux2 (.begin w0) s) {a : Address} (ha : a ∈ ws)
    {c : Zkdvrf.Call} {k : ℕ} (hs : s.w.nodeAt a = .sent c k ∨ (a, c, k) ∈ s.left) :
    (∃ p', ZkdvrfPre.exec M.env s.w.p ⟨a, 0⟩ c = some p') ∨
    (∃ pp pr, c = .submitPublicParams pp pr) ∧ (s.w.p.addrToNode a).statusPP = true ∨
    (∃ ins pr, c = .submitPublicParams (wordsOf ins) pr ∧ DkgCircuit.synthesize ⟨t, n⟩ aux1 aux2 ins ∧
      M.env.verifyProof pr (wordsOf ins) ≠ some true) ∨
    (∃ e, c = .submitPartialEval e) ∧ (Completed s.w.p k ∨ k ≤ s.w.p.lastSubmittedRound a) := by
  classical
  obtain ⟨s', h1, h2⟩ := surviving_ideal hM h0 h
  have hs' : s'.w.nodeAt a = .sent c k ∨ (a, c, k) ∈ s'.left := by
    rcases hs with hs | hs
    · rcases h2.nodes a with h3 | ⟨_, h3, _⟩
      · exact Or.inl (h3.trans hs)
      · rw [hs] at h3; cases h3
    · exact Or.inr (h2.left.mem hs)
  rcases C98_transactions (ideal_faithful hM) ho (ideal_fresh h0) h1 ha hs' with ⟨p', h3⟩ | h3 | h3
  · rw [h2.state] at h3
    by_cases hpp : ∃ pp pr, c = .submitPublicParams pp pr
    · obtain ⟨pp, pr, rfl⟩ := hpp
      obtain ⟨q1, q2, q3, q4, q5, q6, q7, q8⟩ := ZkdvrfPre.submitPublicParams_some.1 h3
      obtain ⟨ins, rfl, hins⟩ := of_decide_eq_true (Option.some.inj q6)
      by_cases hv : M.env.verifyProof pr (wordsOf ins) = some true
      · exact Or.inl ⟨p', ZkdvrfPre.submitPublicParams_some.2 ⟨q1, q2, q3, q4, q5, hv, q7, q8⟩⟩
      · exact Or.inr (Or.inr (Or.inl ⟨ins, pr, rfl, hins, hv⟩))
    · push Not at hpp
      rw [exec_ideal hpp] at h3
      exact Or.inl ⟨p', h3⟩
  · rw [h2.state] at h3
    exact Or.inr (Or.inl h3)
  · rw [h2.state] at h3
    exact Or.inr (Or.inr (Or.inr h3))

private theorem restart_like {s s' s1 : Survivors} (hl : Like ws s s')
    (h : Relation.ReflTransGen (Restart o ws) s s1) :
    ∃ s1', Relation.ReflTransGen (Restart o ws) s' s1' ∧ Like ws s1 s1' := by
  induction h with
  | refl => exact ⟨s', .refl, hl⟩
  | tail _ hs ih =>
    obtain ⟨s2, h1, h2⟩ := ih
    obtain ⟨s3, h3, h4⟩ := like_restart h2 hs
    exact ⟨s3, h1.tail h3, h4⟩

private theorem like_free {s s' : Survivors} (hl : Like ws s s') (hn : ∀ a ∈ ws, s.w.nodeAt a = .free) :
    s'.w = s.w := by
  obtain ⟨⟨p, ad, nd, aa, na⟩, l⟩ := s
  obtain ⟨⟨p', ad', nd', aa', na'⟩, l'⟩ := s'
  obtain ⟨e1, e2, e3, e4, hna, -⟩ := hl
  dsimp only at e1 e2 e3 e4 hna hn ⊢
  subst e1 e2 e3 e4
  have : na' = na := by
    funext a
    rcases hna a with h | ⟨h1, h2, _⟩
    · exact h
    · rw [hn a h1] at h2; cases h2
  rw [this]

private theorem late_inv (hM : Sane M aux1 aux2) {w0 : World} (h0 : Fresh M o ws t n w0.p)
    {s : Survivors} (h : Surviving M o ws t n aux1 aux2 (.begin w0) s) (hn : ∀ a ∈ ws, s.w.nodeAt a = .free)
    (ha : s.w.adminAt = .free) : OInv (ideal M t n aux1 aux2) o ws t n s.w := by
  obtain ⟨s', h1, h2⟩ := surviving_ideal hM h0 h
  have hw := like_free h2 hn
  have := all_free_inv (ideal_faithful hM) (ideal_fresh h0) h1 (by rw [hw]; exact hn) (by rw [hw]; exact ha)
  rwa [hw] at this

/-- Whatever the proof system does: once all dealings have been accepted and all services have been started again,
and nothing that killed ones left is mined any more, all commands succeed, and all transactions are accepted except
for evaluations that come too late. -/
theorem C98_any_again (hM : Sane M aux1 aux2) {w0 : World} (h0 : Fresh M o ws t n w0.p) {s : Survivors}
    (h : Surviving M o ws t n aux1 aux2 (.begin w0) s)
    (hp : s.w.p.contractPhase = .NidkgComplete ∨ s.w.p.contractPhase = .Ready)
    (hn : ∀ a ∈ ws, s.w.nodeAt a = .free) (ha : s.w.adminAt = .free) {w : Overlap}
    (hw : Overlapping M o ws t n aux1 aux2 s.w w) :
    (∀ a ∈ ws, ∀ j, w.nodeAt a = .decided j → ∀ d, GoodDraw t n aux1 aux2 d →
      ∃ f c, nodeRun M w.p a (w.node a) d j = .send f c) ∧
    (∀ j, w.adminAt = .decided j → ∃ f c, adminRun M w.p w.admin j = .send f c) ∧
    (∀ a ∈ ws, ∀ c k, w.nodeAt a = .sent c k →
      (∃ p', ZkdvrfPre.exec M.env w.p ⟨a, 0⟩ c = some p') ∨
      (∃ e, c = .submitPartialEval e) ∧ Completed w.p k) ∧
    (w.p.currentRoundNum + 1 < 2 ^ 256 → (∀ c k, w.adminAt = .sent c k →
      ∃ p', ZkdvrfPre.exec M.env w.p ⟨o, 0⟩ c = some p') ∧ w.adminAt ≠ .stopped) := by
  obtain ⟨s', h1, h2⟩ := surviving_ideal hM h0 h
  have hws := like_free h2 hn
  have hi := late_inv hM h0 h hn ha
  have hr : 3 ≤ s.w.p.contractPhase.rank := by rcases hp with hp | hp <;> rw [hp] <;> decide
  have hw' := (late_overlapping hM hi hr).2 hw
  have hr' := late_overlapping_rank hM hi hr hw'
  have hnd := not_dealing hr'
  have hi' := again_inv (ideal_faithful hM) hi hw'
  obtain ⟨q1, q2, q3, q4⟩ := C98_again (ideal_faithful hM) (ideal_fresh h0) h1 (by rw [hws]; exact hn)
    (by rw [hws]; exact ha) (by rw [hws]; exact hw')
  refine ⟨fun a ha j hj d hd => ?_, fun j hj => ?_, fun a ha c k hs => ?_, fun hb => ⟨fun c k hs => ?_, (q4 hb).2⟩⟩
  · obtain ⟨f, c, h3⟩ := q1 a ha j hj d hd
    have hno := hi'.nodes a ha
    rw [hj] at hno
    rcases nodeRun_ideal (M := M) (t := t) (n := n) (aux1 := aux1) (aux2 := aux2) w.p a (w.node a) d j with
      h4 | ⟨h4, _⟩
    · exact ⟨f, c, h4.trans h3⟩
    · subst h4
      exact absurd (hi'.core.dealing ha hno.1 hno.2) hnd
  · obtain ⟨f, c, h3⟩ := q2 j hj
    refine ⟨f, c, ?_⟩
    cases j <;> exact h3
  · rw [← ServicesFiles.exec_outside (t := t) (n := n) (aux1 := aux1) (aux2 := aux2) c hnd]
    exact q3 a ha c k hs
  · rw [← ServicesFiles.exec_outside (t := t) (n := n) (aux1 := aux1) (aux2 := aux2) c hnd]
    exact (q4 hb).1 c k hs

/-- Whatever the proof system does: once all dealings have been accepted, the first nine rounds can be completed by
starting all services again. -/
theorem C98_any_completes (hM : Sane M aux1 aux2) (d : Draw) (hd : GoodDraw t n aux1 aux2 d)
    {w0 : World} (h0 : Fresh M o ws t n w0.p) {s : Survivors}
    (h : Surviving M o ws t n aux1 aux2 (.begin w0) s)
    (hp : s.w.p.contractPhase = .NidkgComplete ∨ s.w.p.contractPhase = .Ready) :
    ∃ s1 w', Relation.ReflTransGen (Restart o ws) s s1 ∧ s1.w.p = s.w.p ∧ s1.left = s.left ∧
      Overlapping M o ws t n aux1 aux2 s1.w w' ∧ Surviving M o ws t n aux1 aux2 s ⟨w', s1.left⟩ ∧
      ∀ k, 1 ≤ k → k ≤ 9 → Completed w'.p k := by
  obtain ⟨s1, h1, h2, h3, h4, h5⟩ := restart_all (o := o) ws (List.Subset.refl ws) s
  have hs1 : Surviving M o ws t n aux1 aux2 s s1 := Relation.ReflTransGen.mono (fun _ _ hr => Or.inr hr) _ _ h1
  have hi := late_inv hM h0 (Relation.ReflTransGen.trans h hs1) h5 h4
  have hr : 3 ≤ s1.w.p.contractPhase.rank := by rw [h2]; rcases hp with hp | hp <;> rw [hp] <;> decide
  obtain ⟨w', h6, h7⟩ := onward_all (ideal_faithful hM) d hd (K := 9) (by omega) (by omega) _ hi (le_refl _)
  have hi' := again_inv (ideal_faithful hM) hi h6
  have h6' := (late_overlapping hM hi hr).1 h6
  refine ⟨s1, w', h1, h2, h3, h6', Relation.ReflTransGen.trans hs1 (C98_overlapping h6' s1.left), fun k hk1 hk9 => ?_⟩
  rcases Nat.lt_or_ge k 9 with hlt | hge
  · have hcur := (C37_pre_quorum _ hi'.core.reach hi'.core.ht 9 h7).2.1
    exact (C34_pre_rounds _ hi'.core.reach hi'.core.ht).1 k hk1 (by omega)
  · obtain rfl : k = 9 := by omega
    exact h7

/-- Registration and the start of the DKG never need the proof system: before the DKG, however services have been
killed, it can be started by starting all services again. -/
theorem C98_any_start (hM : Sane M aux1 aux2) (d : Draw) (hd : GoodDraw t n aux1 aux2 d)
    {w0 : World} (h0 : Fresh M o ws t n w0.p) {s : Survivors}
    (h : Surviving M o ws t n aux1 aux2 (.begin w0) s)
    (hp : s.w.p.contractPhase = .Unregistered ∨ s.w.p.contractPhase = .Registered) :
    ∃ s1 w', Relation.ReflTransGen (Restart o ws) s s1 ∧ s1.w.p = s.w.p ∧ s1.left = s.left ∧
      Overlapping M o ws t n aux1 aux2 s1.w w' ∧ Surviving M o ws t n aux1 aux2 s ⟨w', s1.left⟩ ∧
      w'.p.contractPhase = .Nidkg ∧ ∀ a, (w'.p.addrToNode a).statusPP = false := by
  obtain ⟨s1, h1, h2, h3, h4, h5⟩ := restart_all (o := o) ws (List.Subset.refl ws) s
  have hs1 : Surviving M o ws t n aux1 aux2 s s1 := Relation.ReflTransGen.mono (fun _ _ hr => Or.inr hr) _ _ h1
  have hi := late_inv hM h0 (Relation.ReflTransGen.trans h hs1) h5 h4
  have hr : s1.w.p.contractPhase.rank ≤ 1 := by rw [h2]; rcases hp with hp | hp <;> rw [hp] <;> decide
  obtain ⟨w', h6, h7⟩ := onward_all (ideal_faithful hM) d hd (K := 1) (by omega) (by omega) _ hi (le_refl _)
  have hi' := again_inv (ideal_faithful hM) hi h6
  rcases early_overlapping hM hi hr h6 with ⟨h8, _⟩ | ⟨w1, h8, h9, h10⟩
  · have := (C37_pre_quorum _ hi'.core.reach hi'.core.ht 1 h7).2.2.1
    rw [this] at h8
    exact absurd h8 (by decide)
  · have hsv : Surviving M o ws t n aux1 aux2 s ⟨w1, s1.left⟩ :=
      Relation.ReflTransGen.trans hs1 (C98_overlapping h8 s1.left)
    refine ⟨s1, w1, h1, h2, h3, h8, hsv, h9, fun a => ?_⟩
    obtain ⟨s', q1, q2⟩ := surviving_ideal hM h0 (Relation.ReflTransGen.trans h hsv)
    have hc := (surviving_inv (ideal_faithful hM) (ideal_fresh h0) q1).core
    rw [q2.state] at hc
    obtain ⟨_, o1, o2, hz⟩ := sim hc.reach hc.ht
    have hd := Zkdvrf.dkgInv hz
    cases hst : (w1.p.addrToNode a).statusPP with
    | false => rfl
    | true =>
      have hm := (hd.ppMem a).2 hst
      have hl := hd.ordLen
      rw [← hd.ppLen, show (w1.p.toZk o1 o2).ppList.length = 0 from by
        show w1.p.ppList.length = 0
        rw [h10]; rfl] at hl
      rw [List.length_eq_zero_iff.1 hl] at hm
      cases hm

/-! ### Every satisfiable instance is proved and accepted, but the proofs need not be sound -/

/-- Without soundness, all commands that a node has decided to run succeed, except possibly for those of a second
dealing. -/
theorem C98_unsound_commands_succeed (hM : Sane M aux1 aux2)
    (hc : ∀ ins, DkgCircuit.synthesize ⟨t, n⟩ aux1 aux2 ins → ProofAccepted M ins)
    {w0 : World} (h0 : Fresh M o ws t n w0.p)
    {s : Survivors} (h : Surviving M o ws t n aux1 aux2 (.begin w0) s) {a : Address} (ha : a ∈ ws) {j : Job}
    (hj : s.w.nodeAt a = .decided j) (d : Draw) (hd : GoodDraw t n aux1 aux2 d) :
    (∃ f c, nodeRun M s.w.p a (s.w.node a) d j = .send f c) ∨
      j = .deal ∧ (s.w.p.addrToNode a).statusPP = true := by
  have hh := C98_commands_succeed (guarded_faithful hM hc) (guarded_fresh h0) ((surviving_guarded hM hc h0).2 h) ha hj d hd
  cases j <;> exact hh

/-- Without soundness, a transaction of a running or killed node is accepted, unless it is a second dealing or an
evaluation that is not needed any more. -/
theorem C98_unsound_transactions (hM : Sane M aux1 aux2)
    (hc : ∀ ins, DkgCircuit.synthesize ⟨t, n⟩ aux1 aux2 ins → ProofAccepted M ins)
    (ho : o ∉ ws) {w0 : World} (h0 : Fresh M o ws t n w0.p)
    {s : Survivors} (h : Surviving M o ws t n aux1 aux2 (.begin w0) s) {a : Address} (ha : a ∈ ws)
    {c : Zkdvrf.Call} {k : ℕ} (hs : s.w.nodeAt a = .sent c k ∨ (a, c, k) ∈ s.left) :
    (∃ p', ZkdvrfPre.exec M.env s.w.p ⟨a, 0⟩ c = some p') ∨
    (∃ pp pr, c = .submitPublicParams pp pr) ∧ (s.w.p.addrToNode a).statusPP = true ∨
    (∃ e, c = .submitPartialEval e) ∧ (Completed s.w.p k ∨ k ≤ s.w.p.lastSubmittedRound a) := by
  have hF := guarded_faithful hM hc
  have hg := (surviving_guarded hM hc h0).2 h
  have hi := surviving_inv hF (guarded_fresh h0) hg
  have hw : SentWas (guarded M t n aux1 aux2) t n s.w.p (s.w.node a) a k c := by
    rcases hs with hs | hs
    · have hn := hi.nodes a ha
      rw [hs] at hn
      exact hn
    · rcases hi.left _ hs with ⟨_, _, h3⟩ | ⟨h1, _⟩
      · exact h3
      · exact absurd (show a = o from h1) (fun hh => ho (hh ▸ ha))
  have hh := C98_transactions hF ho (guarded_fresh h0) hg ha hs
  rwa [exec_guarded hi.core ha hw] at hh

/-- Without soundness, the first nine rounds can be completed from everywhere by starting all services again. -/
theorem C98_unsound_completes (hM : Sane M aux1 aux2)
    (hc : ∀ ins, DkgCircuit.synthesize ⟨t, n⟩ aux1 aux2 ins → ProofAccepted M ins)
    (d : Draw) (hd : GoodDraw t n aux1 aux2 d)
    {w0 : World} (h0 : Fresh M o ws t n w0.p) {s : Survivors}
    (h : Surviving M o ws t n aux1 aux2 (.begin w0) s) :
    ∃ s1 w', Relation.ReflTransGen (Restart o ws) s s1 ∧ s1.w.p = s.w.p ∧ s1.left = s.left ∧
      Surviving M o ws t n aux1 aux2 s ⟨w', s1.left⟩ ∧ ∀ k, 1 ≤ k → k ≤ 9 → Completed w'.p k := by
  have hF := guarded_faithful hM hc
  have hg := (surviving_guarded hM hc h0).2 h
  obtain ⟨s1, w', h1, h2, h3, _, h5, h6⟩ := C98_completes hF d hd (guarded_fresh h0) hg
  exact ⟨s1, w', h1, h2, h3, surviving_unguard hM hc h0 hg h5, h6⟩

/-- Without soundness, in every schedule the first `K` rounds are complete after as many changes as with it. -/
theorem C98_unsound_every_schedule (hM : Sane M aux1 aux2)
    (hc : ∀ ins, DkgCircuit.synthesize ⟨t, n⟩ aux1 aux2 ins → ProofAccepted M ins)
    {w0 : World} (h0 : Fresh M o ws t n w0.p)
    (s : ℕ → Survivors) (hs0 : s 0 = .begin w0) (R : Set ℕ)
    (hs : ∀ i, i ∉ R → SurvivorStep M o ws t n aux1 aux2 (s i) (s (i + 1)))
    (hR : ∀ i ∈ R, Restart o ws (s i) (s (i + 1))) (N K : ℕ)
    (hN : 3 * (2 * n + 2 + K * (n + 2)) + 3 * n + 3 + 3 * {i | i < N ∧ i ∈ R}.ncard <
      {i | i < N ∧ (i ∉ R ∧ s (i + 1) ≠ s i)}.ncard) :
    ∀ k, 1 ≤ k → k ≤ K → Completed (s N).w.p k := by
  have hF := guarded_faithful hM hc
  have hall : ∀ i, Surviving M o ws t n aux1 aux2 (.begin w0) (s i) := by
    intro i
    induction i with
    | zero => rw [hs0]; exact .refl
    | succ i ih =>
      by_cases hi : i ∈ R
      · exact ih.tail (Or.inr (hR i hi))
      · exact ih.tail (Or.inl (hs i hi))
  refine C98_every_schedule hF (guarded_fresh h0) s hs0 R (fun i hi => ?_) hR N K hN
  exact (guarded_step (surviving_inv hF (guarded_fresh h0) ((surviving_guarded hM hc h0).2 (hall i)))).2 (hs i hi)

end

open Classical in
theorem gullible_guarded : guarded gullible 2 3 (5 • g1) FixedPoint.aux2 = toyMachine := by
  have : (fun (_ : List Byte) (pp : List Word) =>
      if ∃ ins, pp = wordsOf ins ∧ DkgCircuit.synthesize ⟨2, 3⟩ (5 • g1) FixedPoint.aux2 ins then some true
      else some false) = toyMachine.env.verifyProof := by
    funext pr pp
    show _ = some (decide (∃ ins, pp = wordsOf ins ∧ DkgCircuit.synthesize ⟨2, 3⟩ (5 • g1) FixedPoint.aux2 ins))
    split
    · rename_i h; exact congrArg some (decide_eq_true h).symm
    · rename_i h; exact congrArg some (decide_eq_false h).symm
  exact congrArg (fun v => ({ toyMachine with env := { toyMachine.env with verifyProof := v } } : Machine)) this

theorem gullible_proved (ins : List Fr) (_ : DkgCircuit.synthesize ⟨2, 3⟩ (5 • g1) FixedPoint.aux2 ins) :
    ProofAccepted gullible ins := ⟨[], rfl, rfl, rfl⟩

/-- A concrete case without soundness: node 1 is killed at the beginning; then nine rounds are completed; then all
services are started again, and everything is in order. -/
example : ∃ w0 s s1, ¬ SnarkSound gullible.env 2 3 ∧ Fresh gullible 7 [1, 2, 3] 2 3 w0.p ∧
    Surviving gullible 7 [1, 2, 3] 2 3 (5 • g1) FixedPoint.aux2 (.begin w0) s ∧
    (∀ k, 1 ≤ k → k ≤ 9 → Completed s.w.p k) ∧ s.w.p.contractPhase = .Ready ∧
    KeysFrom 2 3 s.w.p.pkList s.w.p.ppList s.w.p.vkList s.w.p.gpkVal ∧
    Surviving gullible 7 [1, 2, 3] 2 3 (5 • g1) FixedPoint.aux2 (.begin w0) s1 ∧ s1.w.p = s.w.p ∧
    (∀ a ∈ [(1 : Address), 2, 3], s1.w.nodeAt a = .free) ∧ s1.w.adminAt = .free := by
  obtain ⟨p, hp⟩ := gullible_fresh
  have h0 : Fresh gullible 7 [1, 2, 3] 2 3 (⟨p, .none, fun _ => .none⟩ : World).p := hp
  have h1 : Surviving gullible 7 [1, 2, 3] 2 3 (5 • g1) FixedPoint.aux2 (.begin ⟨p, .none, fun _ => .none⟩)
      ((Survivors.begin ⟨p, .none, fun _ => .none⟩).restart 1 true) :=
    Relation.ReflTransGen.single (Or.inr (.node 1 true (by decide) (fun _ _ _ => rfl)))
  obtain ⟨s1, w', _, _, _, h2, h3⟩ := C98_unsound_completes gullible_sane gullible_proved toyDraw toy_good h0 h1
  have h4 := Relation.ReflTransGen.trans h1 h2
  have hr : w'.p.contractPhase = .Ready := by
    obtain ⟨s', q1, q2⟩ := surviving_ideal gullible_sane h0 h4
    have hc := (surviving_inv (ideal_faithful gullible_sane) (ideal_fresh h0) q1).core
    rw [q2.state] at hc
    exact (C37_pre_quorum _ hc.reach hc.ht 9 (h3 9 (by omega) (by omega))).2.2.1
  obtain ⟨s2, g1, g2, _, g4, g5⟩ := restart_all (o := 7) [1, 2, 3] (List.Subset.refl [(1 : Address), 2, 3]) ⟨w', s1.left⟩
  have g6 : Surviving gullible 7 [1, 2, 3] 2 3 (5 • _root_.Verif.g1) FixedPoint.aux2 ⟨w', s1.left⟩ s2 :=
    Relation.ReflTransGen.mono (fun _ _ hr => Or.inr hr) _ _ g1
  exact ⟨_, ⟨w', s1.left⟩, s2, gullible_unsound, h0, h4, h3, hr, C98_any_keys_are_sums gullible_sane h0 h4 hr,
    Relation.ReflTransGen.trans h4 g6, g2, g5, g4⟩

/-- A concrete schedule without soundness: 132 changing steps complete four rounds. -/
example : ∃ (w0 : World) (s : ℕ → Survivors), Fresh gullible 7 [1, 2, 3] 2 3 w0.p ∧ s 0 = .begin w0 ∧
    (∀ i, SurvivorStep gullible 7 [1, 2, 3] 2 3 (5 • g1) FixedPoint.aux2 (s i) (s (i + 1))) ∧
    {i | i < 132 ∧ s (i + 1) ≠ s i}.ncard = 132 ∧ ∀ k, 1 ≤ k → k ≤ 4 → Completed (s 132).w.p k := by
  obtain ⟨w0, s, h0, s0, s1, s2, _⟩ := toy_schedule
  have hp : Fresh gullible 7 [1, 2, 3] 2 3 w0.p :=
    { h0 with reachable := ServicesFiles.reachable_verifier _ h0.reachable (by rw [h0.threshold]; norm_num) h0.phase }
  have hall : ∀ i, Surviving toyMachine 7 [1, 2, 3] 2 3 (5 • g1) FixedPoint.aux2 (.begin w0) ⟨s i, []⟩ := by
    intro i
    induction i with
    | zero => rw [s0]; exact .refl
    | succ i ih => exact ih.tail (Or.inl (.run _ (s1 i)))
  have hst : ∀ i, SurvivorStep gullible 7 [1, 2, 3] 2 3 (5 • g1) FixedPoint.aux2 ⟨s i, []⟩ ⟨s (i + 1), []⟩ := by
    intro i
    have hk := surviving_inv toy_faithful h0 (hall i)
    rw [← gullible_guarded] at hk
    refine (guarded_step hk).1 ?_
    rw [gullible_guarded]
    exact .run _ (s1 i)
  have hne : ∀ i, ((⟨s (i + 1), []⟩ : Survivors) ≠ ⟨s i, []⟩) = (s (i + 1) ≠ s i) := fun i =>
    propext ⟨fun h h' => h (by rw [h']), fun h h' => h (congrArg Survivors.w h')⟩
  have hc : {i | i < 132 ∧ (⟨s (i + 1), []⟩ : Survivors) ≠ ⟨s i, []⟩}.ncard = 132 := by
    rw [show {i | i < 132 ∧ (⟨s (i + 1), []⟩ : Survivors) ≠ ⟨s i, []⟩} = {i | i < 132 ∧ s (i + 1) ≠ s i} from
      Set.ext fun i => and_congr_right fun _ => iff_of_eq (hne i)]
    exact s2
  have hs0 : (⟨s 0, []⟩ : Survivors) = .begin w0 := congrArg (fun w => (⟨w, []⟩ : Survivors)) s0
  refine ⟨w0, fun i => ⟨s i, []⟩, hp, hs0, hst, hc, ?_⟩
  refine C98_unsound_every_schedule gullible_sane gullible_proved hp (fun i => ⟨s i, []⟩) hs0 ∅
    (fun i _ => hst i) (fun i hi => hi.elim) 132 4 ?_
  have e1 : {i | i < 132 ∧ i ∈ (∅ : Set ℕ)} = ∅ := Set.eq_empty_of_forall_notMem fun i hi => hi.2
  have e2 : {i | i < 132 ∧ (i ∉ (∅ : Set ℕ) ∧ (⟨s (i + 1), []⟩ : Survivors) ≠ ⟨s i, []⟩)} =
      {i | i < 132 ∧ (⟨s (i + 1), []⟩ : Survivors) ≠ ⟨s i, []⟩} :=
    Set.ext fun i => and_congr_right fun _ => ⟨fun h => h.2, fun h => ⟨fun h => h.elim, h⟩⟩
  rw [e1, e2, hc, Set.ncard_empty]
  norm_num

theorem deciding {M : Machine} (hM : Sane M (5 • g1) FixedPoint.aux2)
    (hf : ∃ p, Fresh M 7 [1, 2, 3] 2 3 p) : ∃ w0 s, Fresh M 7 [1, 2, 3] 2 3 w0.p ∧
    Surviving M 7 [1, 2, 3] 2 3 (5 • g1) FixedPoint.aux2 (.begin w0) s ∧
    s.w.nodeAt 1 = .decided .deal ∧ (s.w.p.addrToNode 1).statusPP = false := by
  obtain ⟨p, hp⟩ := hf
  have ha : (1 : Address) ∈ [(1 : Address), 2, 3] := by decide
  have h0 : Fresh M 7 [1, 2, 3] 2 3 (⟨p, .none, fun _ => .none⟩ : World).p := hp
  obtain ⟨s1, w, _, _, _, _, h1, h2, h3⟩ := C98_any_start hM toyDraw toy_good h0 .refl (Or.inl h0.phase)
  have h4 := h1.tail (Or.inr (.node 1 true ha (fun _ _ _ => rfl)))
  have h5 := h4.tail (Or.inl (.run _ (.look 1 ha)))
  obtain ⟨s', q1, q2⟩ := surviving_ideal hM h0 h4
  have hc := (surviving_inv (ideal_faithful hM) (ideal_fresh h0) q1).core
  rw [q2.state] at hc
  have hj : nodeLook w.p 1 = some .deal := by
    unfold nodeLook
    dsimp only
    rw [if_pos (show (w.p.addrToNode 1).nodeAddress = 1 from (hc.self ha).1), h2]
    dsimp only
    rw [h3 1]
    rfl
  refine ⟨_, _, h0, h5, ?_, ?_⟩
  · unfold Survivors.restart Overlap.look
    dsimp only
    rw [Function.update_self]
    dsimp only
    rw [hj]
    dsimp only
    rw [Function.update_self]
  · have : ((⟨w, s1.left⟩ : Survivors).restart 1 true).w.look 1 =
        { w with nodeAt := Function.update (Function.update w.nodeAt 1 .free) 1 (.decided .deal) } := by
      unfold Survivors.restart Overlap.look
      dsimp only
      rw [Function.update_self]
      dsimp only
      rw [hj]
    show ((((⟨w, s1.left⟩ : Survivors).restart 1 true).w.look 1).p.addrToNode 1).statusPP = false
    rw [this]
    exact h3 1

/-- A concrete case of a prover that fails: the DKG is started, node 1 is killed, started again, and decides to deal;
its commands fail. -/
example : ∃ w0 s, Fresh stuck 7 [1, 2, 3] 2 3 w0.p ∧
    Surviving stuck 7 [1, 2, 3] 2 3 (5 • g1) FixedPoint.aux2 (.begin w0) s ∧
    s.w.nodeAt 1 = .decided .deal ∧ (s.w.p.addrToNode 1).statusPP = false ∧
    ∀ f c, nodeRun stuck s.w.p 1 (s.w.node 1) toyDraw .deal ≠ .send f c := by
  obtain ⟨p, hp⟩ := toy_fresh
  obtain ⟨w0, s, h0, h1, h2, h3⟩ := deciding stuck_sane ⟨p, { hp with reachable := hp.reachable }⟩
  refine ⟨w0, s, h0, h1, h2, h3, fun f c hs => ?_⟩
  obtain ⟨ins, _, _, h4⟩ := C98_any_dealing stuck_sane h0 h1 (by decide) h2 h3 toyDraw toy_good
  obtain ⟨pr, h5, _⟩ := (h4 f c).1 hs
  cases h5

/-- A contract that accepts no proof. -/
noncomputable def refusing : Machine :=
  { toyMachine with env := { toyMachine.env with verifyProof := fun _ _ => none } }

theorem refusing_sane : Sane refusing (5 • g1) FixedPoint.aux2 := ⟨toy_sane.1, toy_sane.2, toy_sane.3, toy_sane.4⟩

/-- A concrete case of a contract that rejects: node 1 sends its dealing, of an instance with which the circuit can
be satisfied, and it reverts. -/
example : ∃ w0 s ins pr k, Fresh refusing 7 [1, 2, 3] 2 3 w0.p ∧
    Surviving refusing 7 [1, 2, 3] 2 3 (5 • g1) FixedPoint.aux2 (.begin w0) s ∧
    s.w.nodeAt 1 = .sent (.submitPublicParams (wordsOf ins) pr) k ∧ (s.w.p.addrToNode 1).statusPP = false ∧
    DkgCircuit.synthesize ⟨2, 3⟩ (5 • g1) FixedPoint.aux2 ins ∧
    ZkdvrfPre.exec refusing.env s.w.p ⟨1, 0⟩ (.submitPublicParams (wordsOf ins) pr) = none := by
  obtain ⟨p, hp⟩ := toy_fresh
  have ha : (1 : Address) ∈ [(1 : Address), 2, 3] := by decide
  obtain ⟨w0, s, h0, h1, h2, h3⟩ := deciding refusing_sane ⟨p, { hp with
    reachable := ServicesFiles.reachable_verifier _ hp.reachable (by rw [hp.threshold]; norm_num) hp.phase }⟩
  obtain ⟨ins, _, h4, h5⟩ := C98_any_dealing refusing_sane h0 h1 ha h2 h3 toyDraw toy_good
  have h6 := (h5 _ _).2 ⟨[], rfl, rfl, rfl, rfl⟩
  have e : s.w.fetch refusing 1 toyDraw = { s.w with
      node := Function.update s.w.node 1 (s.w.node 1)
      nodeAt := Function.update s.w.nodeAt 1 (.sent (.submitPublicParams (wordsOf ins) []) s.w.p.currentRoundNum) } := by
    unfold Overlap.fetch
    rw [h2]
    dsimp only
    rw [h6]
  refine ⟨w0, _, ins, [], s.w.p.currentRoundNum, h0, h1.tail (Or.inl (.run _ (.fetch 1 toyDraw ha toy_good))), ?_, ?_, h4, ?_⟩
  · dsimp only
    rw [e]
    dsimp only
    rw [Function.update_self]
  · dsimp only
    rw [e]
    exact h3
  · cases hx : ZkdvrfPre.exec refusing.env (s.w.fetch refusing 1 toyDraw).p ⟨1, 0⟩
      (.submitPublicParams (wordsOf ins) []) with
    | none => rfl
    | some p' =>
      have := (ZkdvrfPre.submitPublicParams_some.1 hx).2.2.2.2.2.1
      cases this

end Verif.Props
