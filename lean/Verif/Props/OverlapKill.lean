import Verif.Lemmas.OverlapKill
import Verif.Props.Overlap

/-! C98: services can be killed and started again at any time while their passes overlap. -/

namespace Verif.Props
open Verif.Services Verif.Overlap
open ZkdvrfPre (State Completed Submitted Registered indexOf Reachable sim getIndexPlus)

section
variable {M : Machine} {o : Address} {ws : List Address} {t n : ℕ} {aux1 : G1} {aux2 : G2}

/-- Histories without restarts are those of overlapping passes. -/
theorem C98_overlapping {w w' : Overlap} (h : Overlapping M o ws t n aux1 aux2 w w')
    (l : List (Address × Zkdvrf.Call × ℕ)) : Surviving M o ws t n aux1 aux2 ⟨w, l⟩ ⟨w', l⟩ := by
  have h' := C96_steps.1 h
  clear h
  induction h' with
  | refl => exact .refl
  | tail _ hs ih => exact ih.tail (Or.inl (.run _ hs))

/-- Whenever services are killed, the secret of every registered key is in the key file of its node, and a
node that has evaluated has its share and the verification keys that the dealings determine. -/
theorem C98_files (hM : Faithful M t n aux1 aux2) {w0 : World} (h0 : Fresh M o ws t n w0.p) {s : Survivors}
    (h : Surviving M o ws t n aux1 aux2 (.begin w0) s) (a : Address) :
    (Registered s.w.p a → ∃ sk : Fq, sk ≠ 0 ∧ (s.w.node a).member = some (Client.keygen sk) ∧
      s.w.p.pkList[indexOf s.w.p a]? = some (Zkdvrf.keyWords (sk • gk))) ∧
    (s.w.p.lastSubmittedRound a ≠ 0 → ∃ member out sh, (s.w.node a).member = some member ∧
      Client.derive ⟨t, n⟩ (Client.instancesFile s.w.p.ppList) (some (indexOf s.w.p a + 1, member)) = .ok out ∧
      out.share = some sh ∧ (s.w.node a).share = some sh ∧ (s.w.node a).vks = some out.vks) ∧
    (s.w.p.contractPhase = .Ready → ∃ out,
      Client.derive ⟨t, n⟩ (Client.instancesFile s.w.p.ppList) none = .ok out ∧
      s.w.admin.gpk = some out.gpk ∧ s.w.admin.vks = some out.vks) := by
  have hi := (surviving_inv hM h0 h).core
  refine ⟨hi.keys a, fun hl => ?_, fun hp => ?_⟩
  · obtain ⟨sk, i, gf, vf, sh, h1, _, h3, h4, h5, h6⟩ := hi.shr a hl
    have hidx : i = indexOf s.w.p a + 1 := by
      unfold getIndexPlus u32 at h3
      split at h3
      · exact (Option.some.inj h3).symm
      · cases h3
    subst hidx
    exact ⟨_, _, sh, h1, h4, rfl, h5, h6⟩
  · obtain ⟨gf, vf, h1, h2, h3⟩ := hi.adm hp
    exact ⟨_, h1, h2, h3⟩

/-- Whenever services are killed, the commands that a node has decided to run succeed, except for those of a
dealing when an earlier dealing of this node has been accepted. -/
theorem C98_commands_succeed (hM : Faithful M t n aux1 aux2) {w0 : World} (h0 : Fresh M o ws t n w0.p)
    {s : Survivors} (h : Surviving M o ws t n aux1 aux2 (.begin w0) s) {a : Address} (ha : a ∈ ws) {j : Job}
    (hj : s.w.nodeAt a = .decided j) (d : Draw) (hd : GoodDraw t n aux1 aux2 d) :
    (∃ f c, nodeRun M s.w.p a (s.w.node a) d j = .send f c) ∨
      j = .deal ∧ (s.w.p.addrToNode a).statusPP = true := by
  have hi := surviving_inv hM h0 h
  have hn := hi.nodes a ha
  rw [hj] at hn
  obtain ⟨f, h1, _⟩ := run_node hM hi.core ha hn d hd
  rcases h1 with ⟨_, h1⟩ | ⟨c, h1, _⟩
  · exact Or.inr h1
  · exact Or.inl ⟨f, c, h1⟩

/-- A transaction of a running or killed node is accepted, unless it is not needed any more: a dealing when
an earlier one of this node has been accepted; an evaluation for a round that is complete or in which, or
after which, this node has already evaluated. -/
theorem C98_transactions (hM : Faithful M t n aux1 aux2) (ho : o ∉ ws) {w0 : World} (h0 : Fresh M o ws t n w0.p)
    {s : Survivors} (h : Surviving M o ws t n aux1 aux2 (.begin w0) s) {a : Address} (ha : a ∈ ws)
    {c : Zkdvrf.Call} {k : ℕ} (hs : s.w.nodeAt a = .sent c k ∨ (a, c, k) ∈ s.left) :
    (∃ p', ZkdvrfPre.exec M.env s.w.p ⟨a, 0⟩ c = some p') ∨
    (∃ pp pr, c = .submitPublicParams pp pr) ∧ (s.w.p.addrToNode a).statusPP = true ∨
    (∃ e, c = .submitPartialEval e) ∧ (Completed s.w.p k ∨ k ≤ s.w.p.lastSubmittedRound a) := by
  have hi := surviving_inv hM h0 h
  have hc := hi.core
  have hw : SentWas M t n s.w.p (s.w.node a) a k c := by
    rcases hs with hs | hs
    · have hn := hi.nodes a ha
      rw [hs] at hn
      exact hn
    · rcases hi.left _ hs with ⟨_, _, h3⟩ | ⟨h1, _⟩
      · exact h3
      · exact absurd (show a = o from h1) (fun hh => ho (hh ▸ ha))
  cases c with
  | registerNode pk => exact Or.inl ((land_register (k := k) hc ha hw).imp fun _ hh => hh.1)
  | submitPublicParams pp pr =>
    cases hst : (s.w.p.addrToNode a).statusPP with
    | true => exact Or.inr (Or.inl ⟨⟨pp, pr, rfl⟩, rfl⟩)
    | false => exact Or.inl ((land_deal (k := k) hc ha (hw.2 hst)).imp fun _ hh => hh.1)
  | submitPartialEval e =>
    obtain ⟨hp, h1, h2, h3⟩ := hw
    by_cases hl : k ≤ s.w.p.lastSubmittedRound a
    · exact Or.inr (Or.inr ⟨⟨e, rfl⟩, Or.inr hl⟩)
    by_cases hcomp : Completed s.w.p k
    · exact Or.inr (Or.inr ⟨⟨e, rfl⟩, Or.inl hcomp⟩)
    left
    have hk : k = s.w.p.currentRoundNum := by
      by_contra hne
      exact hcomp ((C34_pre_rounds M.env hc.reach hc.ht).1 k h1 (lt_of_le_of_ne h2 hne))
    subst hk
    exact eval_accepted hc ha ⟨h1, h2, not_le.1 hl, h3⟩ hcomp
  | _ => exact hw.elim

theorem again_inv (hM : Faithful M t n aux1 aux2) {w w' : Overlap} (h : OInv M o ws t n w)
    (h' : Overlapping M o ws t n aux1 aux2 w w') : OInv M o ws t n w' := by
  induction h' with
  | refl => exact h
  | look a ha _ ih => exact ih.look ha
  | fetch a d ha hd _ ih => exact ih.fetch hM ha d hd
  | land a ha hl _ ih => exact ih.land ha hl
  | adminLook b _ ih => exact ih.decide (fun i hi => adminLook_ok hi)
  | adminTick b e he _ ih => exact ih.decide (fun i hi => tickLook_ok he hi)
  | adminFetch _ ih => exact ih.adminFetch hM
  | adminLand _ ih => exact ih.adminLand

theorem all_free_inv (hM : Faithful M t n aux1 aux2) {w0 : World} (h0 : Fresh M o ws t n w0.p)
    {s : Survivors} (h : Surviving M o ws t n aux1 aux2 (.begin w0) s) (hn : ∀ a ∈ ws, s.w.nodeAt a = .free)
    (ha : s.w.adminAt = .free) : OInv M o ws t n s.w :=
  ⟨(surviving_inv hM h0 h).core, fun a h => by rw [hn a h]; trivial, by rw [ha]; trivial⟩

/-- When all services have been started again and nothing that killed ones left is mined any more, everything
is as if no service had been killed: from then on all commands succeed, and all transactions are accepted
except for evaluations that come too late. -/
theorem C98_again (hM : Faithful M t n aux1 aux2) {w0 : World} (h0 : Fresh M o ws t n w0.p) {s : Survivors}
    (h : Surviving M o ws t n aux1 aux2 (.begin w0) s) (hn : ∀ a ∈ ws, s.w.nodeAt a = .free)
    (ha : s.w.adminAt = .free) {w : Overlap} (hw : Overlapping M o ws t n aux1 aux2 s.w w) :
    (∀ a ∈ ws, ∀ j, w.nodeAt a = .decided j → ∀ d, GoodDraw t n aux1 aux2 d →
      ∃ f c, nodeRun M w.p a (w.node a) d j = .send f c) ∧
    (∀ j, w.adminAt = .decided j → ∃ f c, adminRun M w.p w.admin j = .send f c) ∧
    (∀ a ∈ ws, ∀ c k, w.nodeAt a = .sent c k →
      (∃ p', ZkdvrfPre.exec M.env w.p ⟨a, 0⟩ c = some p') ∨
      (∃ e, c = .submitPartialEval e) ∧ Completed w.p k) ∧
    (w.p.currentRoundNum + 1 < 2 ^ 256 → (∀ c k, w.adminAt = .sent c k →
      ∃ p', ZkdvrfPre.exec M.env w.p ⟨o, 0⟩ c = some p') ∧ w.adminAt ≠ .stopped) := by
  have hi := again_inv hM (all_free_inv hM h0 h hn ha) hw
  refine ⟨fun a ha j hj d hd => ?_, fun j hj => ?_, fun a ha c k hs => ?_, fun hb => ⟨fun c k hs => ?_, fun hs => ?_⟩⟩
  · have hn := hi.nodes a ha
    rw [hj] at hn
    obtain ⟨f, c, h1, _⟩ := hi.core.run hM ha hn d hd
    exact ⟨f, c, h1⟩
  · have hn := hi.admin
    rw [hj] at hn
    obtain ⟨f, c, h1, _⟩ := hi.core.adminRun hM hn
    exact ⟨f, c, h1⟩
  · exact (hi.outcome ha hs).2.imp_right fun h1 => ⟨h1.1, h1.2.1⟩
  · have hn := hi.admin
    rw [hs] at hn
    exact (land_admin hi.core hn).2.1 (Or.inl hb)
  · have hn := hi.admin
    rw [hs] at hn
    exact absurd hb (Nat.not_lt.2 hn)

theorem onward_all (hM : Faithful M t n aux1 aux2) (d : Draw) (hd : GoodDraw t n aux1 aux2 d)
    {K : ℕ} (hK1 : 1 ≤ K) (hK9 : K ≤ 9) :
    ∀ (m : ℕ) {w : Overlap}, OInv M o ws t n w → 2 * n + 2 + K * (n + 2) + 1 - workO n w.p ≤ m →
      ∃ w', Overlapping M o ws t n aux1 aux2 w w' ∧ Completed w'.p K := by
  intro m
  induction m with
  | zero =>
    intro w hi hm
    by_cases hK : Completed w.p K
    · exact ⟨w, .refl, hK⟩
    · exfalso
      have hcur : w.p.currentRoundNum ≤ K := by
        by_contra hlt
        exact hK ((C34_pre_rounds M.env hi.core.reach hi.core.ht).1 K hK1 (by omega))
      have := hi.core.work_le hcur
      omega
  | succ m ih =>
    intro w hi hm
    by_cases hK : Completed w.p K
    · exact ⟨w, .refl, hK⟩
    · obtain ⟨w1, h1, h2⟩ := onward hM d hd hi hK1 hK9 hK
      obtain ⟨w2, h3, h4⟩ := ih (again_inv hM hi h1) (by omega)
      exact ⟨w2, h1.trans h3, h4⟩

/-- Start all services again: the admin, and the nodes in this list; what they have sent is lost. -/
theorem restart_all (l : List Address) (hl : l ⊆ ws) :
    ∀ s : Survivors, ∃ s', Relation.ReflTransGen (Restart o ws) s s' ∧ s'.w.p = s.w.p ∧ s'.left = s.left ∧
      s'.w.adminAt = .free ∧ (∀ a ∈ l, s'.w.nodeAt a = .free) := by
  induction l with
  | nil =>
    intro s
    refine ⟨s.restartAdmin o true, .single (.admin true), rfl, ?_, rfl, fun a ha => by cases ha⟩
    unfold Survivors.restartAdmin Stage.remains
    dsimp only
    split <;> rfl
  | cons a l ih =>
    intro s
    obtain ⟨s', h1, h2, h3, h4, h5⟩ := ih (fun b hb => hl (List.mem_cons_of_mem _ hb)) s
    refine ⟨s'.restart a true, h1.tail (.node a true (hl (List.mem_cons_self ..)) (fun _ _ _ => rfl)), h2,
      ?_, h4, fun b hb => ?_⟩
    · rw [← h3]
      unfold Survivors.restart Stage.remains
      dsimp only
      split <;> rfl
    · unfold Survivors.restart
      dsimp only
      by_cases hba : b = a
      · subst hba; rw [Function.update_self]
      · rw [Function.update_of_ne hba]
        exact h5 b ((List.mem_cons.1 hb).resolve_left hba)

/-- Whatever has happened, the first nine rounds can be completed: start all services again, and let them run.
This is so even if nothing that is on its way is ever mined. -/
theorem C98_completes (hM : Faithful M t n aux1 aux2) (d : Draw) (hd : GoodDraw t n aux1 aux2 d)
    {w0 : World} (h0 : Fresh M o ws t n w0.p) {s : Survivors}
    (h : Surviving M o ws t n aux1 aux2 (.begin w0) s) :
    ∃ s1 w', Relation.ReflTransGen (Restart o ws) s s1 ∧ s1.w.p = s.w.p ∧ s1.left = s.left ∧
      Overlapping M o ws t n aux1 aux2 s1.w w' ∧ Surviving M o ws t n aux1 aux2 s ⟨w', s1.left⟩ ∧
      ∀ k, 1 ≤ k → k ≤ 9 → Completed w'.p k := by
  obtain ⟨s1, h1, h2, h3, h4, h5⟩ := restart_all (o := o) ws (List.Subset.refl ws) s
  have hs1 : Surviving M o ws t n aux1 aux2 s s1 := Relation.ReflTransGen.mono (fun _ _ hr => Or.inr hr) _ _ h1
  have hi := all_free_inv hM h0 (Relation.ReflTransGen.trans h hs1) h5 h4
  obtain ⟨w', h6, h7⟩ := onward_all hM d hd (K := 9) (by omega) (by omega) _ hi (le_refl _)
  have hi' := again_inv hM hi h6
  refine ⟨s1, w', h1, h2, h3, h6, Relation.ReflTransGen.trans hs1 (C98_overlapping h6 s1.left), fun k hk1 hk9 => ?_⟩
  rcases Nat.lt_or_ge k 9 with hlt | hge
  · have hcur := (C37_pre_quorum M.env hi'.core.reach hi'.core.ht 9 h7).2.1
    exact (C34_pre_rounds M.env hi'.core.reach hi'.core.ht).1 k hk1 (by omega)
  · obtain rfl : k = 9 := by omega
    exact h7

private theorem kill_changes (hM : Faithful M t n aux1 aux2) {w0 : World} (h0 : Fresh M o ws t n w0.p)
    (s : ℕ → Survivors) (hs0 : s 0 = .begin w0) (R : Set ℕ)
    (hs : ∀ i, i ∉ R → SurvivorStep M o ws t n aux1 aux2 (s i) (s (i + 1)))
    (hR : ∀ i ∈ R, Restart o ws (s i) (s (i + 1))) :
    ∀ N, Surviving M o ws t n aux1 aux2 (.begin w0) (s N) ∧
      {i | i < N ∧ (i ∉ R ∧ s (i + 1) ≠ s i)}.ncard + (s N).left.length ≤
        measureO ws n (s N).w + 3 * {i | i < N ∧ i ∈ R}.ncard := by
  intro N
  induction N with
  | zero =>
    rw [hs0]
    refine ⟨.refl, ?_⟩
    have : {i | i < 0 ∧ (i ∉ R ∧ s (i + 1) ≠ s i)} = ∅ :=
      Set.eq_empty_of_forall_notMem fun i hi => Nat.not_lt_zero _ hi.1
    rw [this, Set.ncard_empty]
    exact Nat.zero_le _
  | succ N ih =>
    obtain ⟨ih1, ih2⟩ := ih
    have hi := surviving_inv hM h0 ih1
    obtain ⟨a1, a2⟩ := ncard_below (fun i => i ∉ R ∧ s (i + 1) ≠ s i) N
    obtain ⟨b1, b2⟩ := ncard_below (fun i => i ∈ R) N
    by_cases hN : N ∈ R
    · have hm := KInv.restart_measure (n := n) (hR N hN)
      refine ⟨ih1.tail (Or.inr (hR N hN)), ?_⟩
      rw [a2 (fun h => h.1 hN), b1 hN]
      omega
    · refine ⟨ih1.tail (Or.inl (hs N hN)), ?_⟩
      rw [b2 hN]
      by_cases hne : s (N + 1) = s N
      · rw [a2 (fun h => h.2 hne), hne]
        exact ih2
      · have hm := hi.step_measure hM (hs N hN) hne
        rw [a1 ⟨hN, hne⟩]
        omega

/-- Whatever the schedule, and whenever services are killed: when steps other than the restarts `R` have changed
something more than `3 (2n + 2 + K (n + 2)) + 3n + 3` times, and three times more for every restart, the first `K`
rounds are complete. -/
theorem C98_every_schedule (hM : Faithful M t n aux1 aux2) {w0 : World} (h0 : Fresh M o ws t n w0.p)
    (s : ℕ → Survivors) (hs0 : s 0 = .begin w0) (R : Set ℕ)
    (hs : ∀ i, i ∉ R → SurvivorStep M o ws t n aux1 aux2 (s i) (s (i + 1)))
    (hR : ∀ i ∈ R, Restart o ws (s i) (s (i + 1))) (N K : ℕ)
    (hN : 3 * (2 * n + 2 + K * (n + 2)) + 3 * n + 3 + 3 * {i | i < N ∧ i ∈ R}.ncard <
      {i | i < N ∧ (i ∉ R ∧ s (i + 1) ≠ s i)}.ncard) :
    ∀ k, 1 ≤ k → k ≤ K → Completed (s N).w.p k := by
  obtain ⟨h1, h2⟩ := kill_changes hM h0 s hs0 R hs hR N
  have hi := surviving_inv hM h0 h1
  intro k hk1 hkK
  by_contra hk
  have hcur : (s N).w.p.currentRoundNum ≤ K := by
    by_contra hlt
    exact hk ((C34_pre_rounds M.env hi.core.reach hi.core.ht).1 k hk1 (by omega))
  have := hi.measure_le hcur
  omega

end

/-- A concrete case: node 1 is killed while its dealing is on its way, and started again.  The dealing is then
mined all the same: it is accepted, node 1 is at the beginning of a pass, and nine rounds can be completed. -/
example : ∃ w0 s pp pr k, Fresh toyMachine 7 [1, 2, 3] 2 3 w0.p ∧
    Surviving toyMachine 7 [1, 2, 3] 2 3 (5 • g1) FixedPoint.aux2 (.begin w0) s ∧
    s.w.nodeAt 1 = .free ∧ s.left = [(1, .submitPublicParams pp pr, k)] ∧
    ((∃ p', ZkdvrfPre.exec toyMachine.env s.w.p ⟨1, 0⟩ (.submitPublicParams pp pr) = some p') ∨
      (s.w.p.addrToNode 1).statusPP = true) ∧
    Surviving toyMachine 7 [1, 2, 3] 2 3 (5 • g1) FixedPoint.aux2 (.begin w0) (s.mine toyMachine 0) ∧
    ∃ s1 w', Relation.ReflTransGen (Restart 7 [1, 2, 3]) (s.mine toyMachine 0) s1 ∧
      Overlapping toyMachine 7 [1, 2, 3] 2 3 (5 • g1) FixedPoint.aux2 s1.w w' ∧
      ∀ k, 1 ≤ k → k ≤ 9 → Completed w'.p k := by
  obtain ⟨w0, w, pp, pr, k, h0, h1, h2⟩ := toy_dealing
  have ha : (1 : Address) ∈ [(1 : Address), 2, 3] := by decide
  have h3 := C98_overlapping h1 []
  have h4 := h3.tail (Or.inr (.node 1 false ha (fun pk k' h => by rw [show ((⟨w, []⟩ : Survivors).w.nodeAt 1) = _ from h2] at h; cases h)))
  have hl : ((⟨w, []⟩ : Survivors).restart 1 false).left = [(1, .submitPublicParams pp pr, k)] := by
    unfold Survivors.restart
    dsimp only
    rw [h2]
    rfl
  have h5 := h4.tail (Or.inl (.mine 0 (fun a c k' h => by
    rw [hl] at h
    cases h
    exact fun e he => by cases he)))
  obtain ⟨s1, w', h6, _, _, h7, _, h8⟩ := C98_completes toy_faithful toyDraw toy_good h0 h5
  refine ⟨w0, _, pp, pr, k, h0, h4, ?_, hl, ?_, h5, s1, w', h6, h7, h8⟩
  · unfold Survivors.restart
    dsimp only
    rw [Function.update_self]
  · rcases C98_transactions toy_faithful (by decide) h0 h4 ha (c := .submitPublicParams pp pr) (k := k)
      (Or.inr (by rw [hl]; exact List.mem_singleton.2 rfl)) with h | ⟨_, h⟩ | ⟨⟨e, h⟩, _⟩
    · exact Or.inl h
    · exact Or.inr h
    · cases h

/-- A concrete case of commands, files, and services that have all been started again: an honest run, after which
node 1 is killed, started again, and all begin a pass. -/
example : ∃ w0 w, Fresh toyMachine 7 [1, 2, 3] 2 3 w0.p ∧ Completed w.p 1 ∧
    Surviving toyMachine 7 [1, 2, 3] 2 3 (5 • g1) FixedPoint.aux2 (.begin w0) ((Survivors.begin w).restart 1 true) ∧
    (∀ a ∈ [(1 : Address), 2, 3], ((Survivors.begin w).restart 1 true).w.nodeAt a = .free) ∧
    ((Survivors.begin w).restart 1 true).w.adminAt = .free := by
  obtain ⟨w0, h0, _, hw⟩ := toy_world
  obtain ⟨w1, h1⟩ := hw 44 (le_refl _)
  have hb : 44 < 2 ^ 255 := by norm_num
  have h3 := C98_overlapping (C96_atomic_history toy_faithful h0 h1 hb) []
  have h4 := h3.tail (Or.inr (.node 1 true (by decide) (fun _ _ _ => rfl)))
  refine ⟨w0, w1, h0, (C55_rounds toyMachine toy_faithful h0 h1 hb 1 le_rfl).2 (by norm_num), h4, fun a _ => ?_, rfl⟩
  unfold Survivors.restart Survivors.begin Overlap.begin
  dsimp only
  by_cases h : a = 1
  · subst h; rw [Function.update_self]
  · rw [Function.update_of_ne h]

/-- A concrete case of a schedule: first node 1 is killed and started again, then 132 changing steps of three
services complete four rounds. -/
example : ∃ (w0 : World) (s : ℕ → Survivors) (R : Set ℕ), Fresh toyMachine 7 [1, 2, 3] 2 3 w0.p ∧
    s 0 = .begin w0 ∧ 0 ∈ R ∧
    (∀ i, i ∉ R → SurvivorStep toyMachine 7 [1, 2, 3] 2 3 (5 • g1) FixedPoint.aux2 (s i) (s (i + 1))) ∧
    (∀ i ∈ R, Restart 7 [1, 2, 3] (s i) (s (i + 1))) ∧
    ∀ k, 1 ≤ k → k ≤ 4 → Completed (s 133).w.p k := by
  obtain ⟨w0, s, h0, s0, s1, s2, _⟩ := toy_schedule
  have hr : (Survivors.begin w0).restart 1 true = Survivors.begin w0 := by
    unfold Survivors.restart Survivors.begin Overlap.begin Stage.remains
    dsimp only
    rw [Function.update_eq_self_iff.2 rfl]
    rfl
  have hn : {i | i < 133 ∧ i ∈ ({0} : Set ℕ)}.ncard = 1 := by
    rw [show {i | i < 133 ∧ i ∈ ({0} : Set ℕ)} = {0} from Set.ext fun i => ⟨fun h => h.2, fun h => by
      rw [Set.mem_singleton_iff.1 h]; exact ⟨by norm_num, rfl⟩⟩]
    exact Set.ncard_singleton 0
  have hm : {i | i < 133 ∧ (i ∉ ({0} : Set ℕ) ∧
      (fun i => Nat.casesOn i (Survivors.begin w0) (fun i => ⟨s i, []⟩) : ℕ → Survivors) (i + 1) ≠
      (fun i => Nat.casesOn i (Survivors.begin w0) (fun i => ⟨s i, []⟩) : ℕ → Survivors) i)}.ncard = 132 := by
    rw [← s2, ← Set.ncard_image_of_injective {i | i < 132 ∧ s (i + 1) ≠ s i} Nat.succ_injective]
    congr 1
    ext i
    constructor
    · rintro ⟨h1, h2, h3⟩
      cases i with
      | zero => exact absurd rfl h2
      | succ i => exact ⟨i, ⟨by omega, fun h => h3 (by dsimp only; rw [h])⟩, rfl⟩
    · rintro ⟨j, ⟨h1, h2⟩, rfl⟩
      exact ⟨by omega, Nat.succ_ne_zero j, fun h => h2 (congrArg Survivors.w h)⟩
  have h1 : ∀ i, i ∉ ({0} : Set ℕ) → SurvivorStep toyMachine 7 [1, 2, 3] 2 3 (5 • g1) FixedPoint.aux2
      ((fun i => Nat.casesOn i (Survivors.begin w0) (fun i => ⟨s i, []⟩) : ℕ → Survivors) i)
      ((fun i => Nat.casesOn i (Survivors.begin w0) (fun i => ⟨s i, []⟩) : ℕ → Survivors) (i + 1)) := by
    intro i hi
    cases i with
    | zero => exact absurd rfl hi
    | succ i => exact SurvivorStep.run (s := ⟨s i, []⟩) _ (s1 i)
  have h2 : ∀ i ∈ ({0} : Set ℕ), Restart 7 [1, 2, 3]
      ((fun i => Nat.casesOn i (Survivors.begin w0) (fun i => ⟨s i, []⟩) : ℕ → Survivors) i)
      ((fun i => Nat.casesOn i (Survivors.begin w0) (fun i => ⟨s i, []⟩) : ℕ → Survivors) (i + 1)) := by
    intro i hi
    rw [Set.mem_singleton_iff.1 hi]
    dsimp only
    rw [s0]
    have := Restart.node (o := 7) (s := Survivors.begin w0) 1 true
      (show (1 : Address) ∈ [(1 : Address), 2, 3] by decide) (fun _ _ _ => rfl)
    rw [hr] at this
    exact this
  exact ⟨w0, _, {0}, h0, rfl, rfl, h1, h2,
    C98_every_schedule toy_faithful h0 _ rfl {0} h1 h2 133 4 (by rw [hn, hm]; norm_num)⟩

end Verif.Props
