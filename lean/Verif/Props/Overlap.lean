import Verif.Lemmas.OverlapLate
import Verif.Lemmas.OverlapFair

/-! C96: the services work when their passes overlap, except for late evaluations. -/

namespace Verif.Props
open Verif.Services Verif.Overlap
open ZkdvrfPre (State Completed Submitted indexOf Reachable sim)

/-- The pass of a node is what it decides and then does, when nothing happens in between. -/
theorem C96_atomic_node (M : Machine) (p : State) (a : Address) (f : Files) (d : Draw) :
    nodePass M p a f d = match nodeLook p a with
      | none => .idle
      | some j => nodeRun M p a f d j := by
  unfold nodePass nodeLook
  dsimp only
  by_cases hs : (p.addrToNode a).nodeAddress = a
  · rw [if_pos hs, if_pos hs]
    cases hp : p.contractPhase with
    | Unregistered =>
      dsimp only
      cases (p.addrToNode a).status <;> rfl
    | Registered => rfl
    | Nidkg =>
      dsimp only
      cases (p.addrToNode a).statusPP <;> rfl
    | NidkgComplete => rfl
    | Ready =>
      dsimp only
      by_cases hc : (jsGreater p.currentRoundNum (p.lastSubmittedRound a) &&
          decide (p.roundSubmissionCount p.currentRoundNum < p.threshold)) = true
      · rw [if_pos hc, if_pos hc]
        unfold nodeRun
        dsimp only
        by_cases hl : p.lastSubmittedRound a = 0
        · rw [if_pos hl, if_pos (decide_eq_true hl)]
          cases nidkgDerive p a f <;> rfl
        · rw [if_neg hl, if_neg (by rw [decide_eq_true_iff]; exact hl)]
      · rw [if_neg hc, if_neg hc]
  · rw [if_neg hs, if_neg hs]

/-- The same for the admin. -/
theorem C96_atomic_admin (M : Machine) (p : State) (f : Files) (begun elapsed : Bool) :
    (adminPass M p f begun = match adminLook p begun with
      | none => .idle
      | some j => adminRun M p f j) ∧
    adminTick p f begun elapsed = match adminTickLook p begun elapsed with
      | none => .idle
      | some j => adminRun M p f j := by
  constructor
  · unfold adminPass adminLook
    cases hp : p.contractPhase with
    | Ready =>
      dsimp only
      cases begun with
      | false => rfl
      | true =>
        simp only [Bool.not_true, Bool.false_eq_true, if_false]
        by_cases h0 : p.currentRoundNum = 0
        · rw [if_pos h0, if_pos h0]; rfl
        · rw [if_neg h0, if_neg h0]
          by_cases h1 : (p.roundToRandom p.currentRoundNum).value = 0 ∧
              p.threshold ≤ p.roundSubmissionCount p.currentRoundNum
          · rw [if_pos h1, if_pos h1]; rfl
          · rw [if_neg h1, if_neg h1]
    | _ => rfl
  · unfold adminTick adminTickLook
    cases hp : p.contractPhase with
    | Ready =>
      dsimp only
      split <;> rfl
    | _ => rfl

section
variable {M : Machine} {o : Address} {ws : List Address} {t n : ℕ} {aux1 : G1} {aux2 : G2}

private theorem mine_eq {p p' : State} {a : Address} {c : Zkdvrf.Call}
    (he : ZkdvrfPre.exec M.env p ⟨a, 0⟩ c = some p') : mine M p a c = p' := by
  unfold mine ZkdvrfPre.step
  dsimp only
  rw [he]
  rfl

/-- `k` steps that all change something. -/
inductive Changes (M : Machine) (o : Address) (ws : List Address) (t n : ℕ) (aux1 : G1) (aux2 : G2)
    (w : Overlap) : ℕ → Overlap → Prop
  | refl : Changes M o ws t n aux1 aux2 w 0 w
  | tail {k w' w''} (h : Changes M o ws t n aux1 aux2 w k w') (hs : OverlapStep M o ws t n aux1 aux2 w' w'')
      (hne : w'' ≠ w') : Changes M o ws t n aux1 aux2 w (k + 1) w''

private theorem Changes.trans {w w' w'' : Overlap} {k l : ℕ} (h : Changes M o ws t n aux1 aux2 w k w')
    (h' : Changes M o ws t n aux1 aux2 w' l w'') : Changes M o ws t n aux1 aux2 w (k + l) w'' := by
  induction h' with
  | refl => exact h
  | tail _ hs hne ih => exact ih.tail hs hne

private theorem Changes.overlapping {w w' : Overlap} {k : ℕ} (h : Changes M o ws t n aux1 aux2 w k w') :
    Overlapping M o ws t n aux1 aux2 w w' := by
  induction h with
  | refl => exact .refl
  | tail _ hs _ ih => exact ih.trans (overlapping_step hs)

private theorem stay (w : Overlap) : OverlapStep M o ws t n aux1 aux2 w w := by
  have h := OverlapStep.adminTick (M := M) (o := o) (ws := ws) (t := t) (n := n) (aux1 := aux1)
    (aux2 := aux2) (w := w) false false (fun h => by cases h)
  have e : w.adminDecide (adminTickLook w.p false false) = w := by
    have : adminTickLook w.p false false = none := by
      unfold adminTickLook
      cases w.p.contractPhase <;> rfl
    rw [this]
    unfold Overlap.adminDecide
    cases w.adminAt <;> rfl
  rw [e] at h
  exact h

private theorem Changes.realize {w w' : Overlap} {k : ℕ} (h : Changes M o ws t n aux1 aux2 w k w') :
    ∃ s : ℕ → Overlap, s 0 = w ∧ (∀ i, OverlapStep M o ws t n aux1 aux2 (s i) (s (i + 1))) ∧
      (∀ i, k ≤ i → s i = w') ∧ {i | i < k ∧ s (i + 1) ≠ s i}.ncard = k := by
  have main : ∃ s : ℕ → Overlap, s 0 = w ∧ (∀ i, OverlapStep M o ws t n aux1 aux2 (s i) (s (i + 1))) ∧
      (∀ i, k ≤ i → s i = w') ∧ ∀ i, i < k → s (i + 1) ≠ s i := by
    induction h with
    | refl => exact ⟨fun _ => w, rfl, fun _ => stay w, fun _ _ => rfl, fun i hi => absurd hi (Nat.not_lt_zero _)⟩
    | @tail k w1 w2 _ hs hne ih =>
      obtain ⟨s, s0, s1, s2, s3⟩ := ih
      refine ⟨fun i => if i ≤ k then s i else w2, ?_, ?_, ?_, ?_⟩
      · dsimp only
        rw [if_pos (Nat.zero_le _)]
        exact s0
      · intro i
        dsimp only
        rcases Nat.lt_trichotomy i k with h | h | h
        · rw [if_pos (by omega), if_pos (by omega)]; exact s1 i
        · subst h
          rw [if_pos (le_refl _), if_neg (by omega), s2 i (le_refl _)]
          exact hs
        · rw [if_neg (by omega), if_neg (by omega)]; exact stay w2
      · intro i hi
        dsimp only
        rw [if_neg (by omega)]
      · intro i hi
        dsimp only
        rcases Nat.lt_or_ge i k with h | h
        · rw [if_pos (by omega), if_pos (by omega)]; exact s3 i h
        · obtain rfl : i = k := by omega
          rw [if_pos (le_refl _), if_neg (by omega), s2 i (le_refl _)]
          exact hne
  obtain ⟨s, s0, s1, s2, s3⟩ := main
  refine ⟨s, s0, s1, s2, ?_⟩
  have : {i | i < k ∧ s (i + 1) ≠ s i} = ((Finset.range k : Finset ℕ) : Set ℕ) := by
    ext i
    rw [Finset.mem_coe, Finset.mem_range]
    exact ⟨fun h => h.1, fun h => ⟨h, s3 i h⟩⟩
  rw [this, Set.ncard_coe_finset, Finset.card_range]

private theorem begin_node (w : World) {a : Address} (ha : a ∈ ws) (d : Draw) (hd : GoodDraw t n aux1 aux2 d)
    (hf : Fine M w.p a (nodePass M w.p a (w.node a) d)) :
    Changes M o ws t n aux1 aux2 (.begin w) (3 * (nodePass M w.p a (w.node a) d).sent)
      (.begin (w.nodeStep M a d)) := by
  unfold World.nodeStep
  cases hp : nodePass M w.p a (w.node a) d with
  | idle => exact .refl
  | failed f => rw [hp] at hf; exact hf.elim
  | send f c =>
    rw [hp] at hf
    obtain ⟨p', he⟩ := hf
    rw [C96_atomic_node] at hp
    cases hj : nodeLook w.p a with
    | none => rw [hj] at hp; cases hp
    | some j =>
      rw [hj] at hp
      dsimp only at hp
      have e1 : (Overlap.begin w).look a =
          { Overlap.begin w with nodeAt := Function.update (fun _ => .free) a (.decided j) } := by
        unfold Overlap.look Overlap.begin
        dsimp only
        rw [hj]
      have e2 : ((Overlap.begin w).look a).fetch M a d = { Overlap.begin w with
          node := Function.update w.node a f
          nodeAt := Function.update (fun _ => .free) a (.sent c w.p.currentRoundNum) } := by
        rw [e1]
        unfold Overlap.fetch Overlap.begin
        dsimp only
        rw [Function.update_self]
        dsimp only
        rw [hp]
        dsimp only
        rw [Function.update_idem]
      have e3 : (((Overlap.begin w).look a).fetch M a d).land M a =
          .begin { w with p := mine M w.p a c, node := Function.update w.node a f } := by
        rw [e2]
        unfold Overlap.land Overlap.begin
        dsimp only
        rw [Function.update_self]
        dsimp only
        rw [he, mine_eq he]
        dsimp only
        rw [Function.update_idem, Function.update_eq_self]
      dsimp only
      rw [← e3]
      have n0 : (Overlap.begin w).nodeAt a = .free := rfl
      have n1 : ((Overlap.begin w).look a).nodeAt a = .decided j := by
        rw [e1]; dsimp only; rw [Function.update_self]
      have n2 : (((Overlap.begin w).look a).fetch M a d).nodeAt a = .sent c w.p.currentRoundNum := by
        rw [e2]; dsimp only; rw [Function.update_self]
      have n3 : ((((Overlap.begin w).look a).fetch M a d).land M a).nodeAt a = .free := by rw [e3]; rfl
      refine ((Changes.refl.tail (.look a ha) ?_).tail (.fetch a d ha hd) ?_).tail (.land a ha ?_) ?_
      · intro h; rw [h, n0] at n1; cases n1
      · intro h; rw [h, n1] at n2; cases n2
      · rw [n2, e2]
        intro c' k' hs e _ hne
        cases hs
        exact absurd rfl hne
      · intro h; rw [h, n2] at n3; cases n3

private theorem begin_admin (w : World) {j : Option AdminJob} {out : Out}
    (ho : out = match j with | none => .idle | some j => adminRun M w.p w.admin j)
    (hst : OverlapStep M o ws t n aux1 aux2 (.begin w) ((Overlap.begin w).adminDecide j))
    (hf : Fine M w.p o out) :
    Changes M o ws t n aux1 aux2 (.begin w) (3 * out.sent) (.begin (w.adminStep M o out)) := by
  unfold World.adminStep
  cases hp : out with
  | idle => exact .refl
  | failed f => rw [hp] at hf; exact hf.elim
  | send f c =>
    rw [hp] at hf
    obtain ⟨p', he⟩ := hf
    rw [hp] at ho
    cases hj : j with
    | none => rw [hj] at ho; cases ho
    | some i =>
      rw [hj] at ho hst
      dsimp only at ho
      have e1 : (Overlap.begin w).adminDecide (some i) = { Overlap.begin w with adminAt := .decided i } := rfl
      have e2 : ((Overlap.begin w).adminDecide (some i)).adminFetch M = { Overlap.begin w with
          admin := f
          adminAt := .sent c w.p.currentRoundNum } := by
        rw [e1]
        unfold Overlap.adminFetch Overlap.begin
        dsimp only
        rw [← ho]
      have e3 : (((Overlap.begin w).adminDecide (some i)).adminFetch M).adminLand M o =
          .begin { w with p := mine M w.p o c, admin := f } := by
        rw [e2]
        unfold Overlap.adminLand Overlap.begin
        dsimp only
        rw [he, mine_eq he]
      dsimp only
      rw [← e3]
      have n0 : (Overlap.begin w).adminAt = .free := rfl
      have n1 : ((Overlap.begin w).adminDecide (some i)).adminAt = .decided i := rfl
      have n2 : (((Overlap.begin w).adminDecide (some i)).adminFetch M).adminAt = .sent c w.p.currentRoundNum := by
        rw [e2]
      have n3 : ((((Overlap.begin w).adminDecide (some i)).adminFetch M).adminLand M o).adminAt = .free := by
        rw [e3]; rfl
      refine ((Changes.refl.tail hst ?_).tail .adminFetch ?_).tail .adminLand ?_
      · intro h; rw [h, n0] at n1; cases n1
      · intro h; rw [h, n1] at n2; cases n2
      · intro h; rw [h, n2] at n3; cases n3

private theorem atomic_changes (hM : Faithful M t n aux1 aux2) {w w' : World}
    (h0 : Fresh M o ws t n w.p) {N : ℕ} (h : Honest M o ws t n aux1 aux2 w N w') (hN : N < 2 ^ 255) :
    Changes M o ws t n aux1 aux2 (.begin w) (3 * N) (.begin w') := by
  induction h with
  | refl => exact .refl
  | node a d ha hd h ih =>
    have hN' := lt_of_le_of_lt (Nat.le_add_right _ _) hN
    rw [Nat.mul_add]
    exact (ih hN').trans (begin_node _ ha d hd ((C55_no_failure M hM h0 h hN').1 a ha d hd))
  | admin begun h ih =>
    have hN' := lt_of_le_of_lt (Nat.le_add_right _ _) hN
    rw [Nat.mul_add]
    exact (ih hN').trans (begin_admin _ (C96_atomic_admin M _ _ begun true).1 (.adminLook begun)
      ((C55_no_failure M hM h0 h hN').2.1 begun))
  | tick begun elapsed he h ih =>
    have hN' := lt_of_le_of_lt (Nat.le_add_right _ _) hN
    rw [Nat.mul_add]
    exact (ih hN').trans (begin_admin _ (C96_atomic_admin M _ _ begun elapsed).2
      (.adminTick begun elapsed he) ((C55_no_failure M hM h0 h hN').2.2 begun elapsed he))

/-- What the services do one pass after the other (`Honest`) is among what they do when passes overlap. -/
theorem C96_atomic_history (hM : Faithful M t n aux1 aux2) {w w' : World}
    (h0 : Fresh M o ws t n w.p) {N : ℕ} (h : Honest M o ws t n aux1 aux2 w N w') (hN : N < 2 ^ 255) :
    Overlapping M o ws t n aux1 aux2 (.begin w) (.begin w') :=
  (atomic_changes hM h0 h hN).overlapping

/-- However the passes overlap, the commands that a service has decided to run succeed. -/
theorem C96_commands_succeed (hM : Faithful M t n aux1 aux2) {w0 : World} (h0 : Fresh M o ws t n w0.p)
    {w : Overlap} (h : Overlapping M o ws t n aux1 aux2 (.begin w0) w) :
    (∀ a ∈ ws, ∀ j, w.nodeAt a = .decided j → ∀ d, GoodDraw t n aux1 aux2 d →
      ∃ f c, nodeRun M w.p a (w.node a) d j = .send f c) ∧
    ∀ j, w.adminAt = .decided j → ∃ f c, adminRun M w.p w.admin j = .send f c := by
  have hi := overlap_inv hM h0 h
  constructor
  · intro a ha j hj d hd
    have hn := hi.nodes a ha
    rw [hj] at hn
    obtain ⟨f, c, h1, _⟩ := hi.core.run hM ha hn d hd
    exact ⟨f, c, h1⟩
  · intro j hj
    have hn := hi.admin
    rw [hj] at hn
    obtain ⟨f, c, h1, _⟩ := hi.core.adminRun hM hn
    exact ⟨f, c, h1⟩

/-- However the passes overlap, the contract accepts every transaction on its way, except possibly an
evaluation that was made for a round that is complete by now. -/
theorem C96_transactions (hM : Faithful M t n aux1 aux2) {w0 : World} (h0 : Fresh M o ws t n w0.p)
    {w : Overlap} (h : Overlapping M o ws t n aux1 aux2 (.begin w0) w) :
    (∀ a ∈ ws, ∀ c k, w.nodeAt a = .sent c k →
      (∃ p', ZkdvrfPre.exec M.env w.p ⟨a, 0⟩ c = some p') ∨
      (∃ e, c = .submitPartialEval e) ∧ Completed w.p k) ∧
    (w.p.currentRoundNum + 1 < 2 ^ 256 → ∀ c k, w.adminAt = .sent c k →
      ∃ p', ZkdvrfPre.exec M.env w.p ⟨o, 0⟩ c = some p') := by
  have hi := overlap_inv hM h0 h
  constructor
  · intro a ha c k hs
    rcases (hi.outcome ha hs).2 with h1 | h1
    · exact Or.inl h1
    · exact Or.inr ⟨h1.1, h1.2.1⟩
  · intro hb c k hs
    have hn := hi.admin
    rw [hs] at hn
    exact (land_admin hi.core hn).2.1 (Or.inl hb)

/-- The admin never stops before the round number overflows; a node has stopped only if some round was
completed without it. -/
theorem C96_stopped (hM : Faithful M t n aux1 aux2) {w0 : World} (h0 : Fresh M o ws t n w0.p)
    {w : Overlap} (h : Overlapping M o ws t n aux1 aux2 (.begin w0) w) :
    (w.p.currentRoundNum + 1 < 2 ^ 256 → w.adminAt ≠ .stopped) ∧
    ∀ a ∈ ws, w.nodeAt a = .stopped → ∃ k, Completed w.p k ∧ ¬ Submitted w.p k (indexOf w.p a) := by
  have hi := overlap_inv hM h0 h
  constructor
  · intro hb hs
    have hn := hi.admin
    rw [hs] at hn
    exact absurd hb (Nat.not_lt.2 hn)
  · intro a ha hs
    have hn := hi.nodes a ha
    rw [hs] at hn
    obtain ⟨k, hk, hl⟩ := hn
    refine ⟨k, hk, fun hsub => ?_⟩
    have hc := hi.core
    obtain ⟨hx, o1, o2, hz⟩ := sim hc.reach hc.ht
    have hready := hc.ready (lt_of_lt_of_le hl (C37_pre_quorum M.env hc.reach hc.ht k hk).2.1)
    have hra := hc.registered ha (by rw [hready]; exact ZkdvrfPre.Phase.noConfusion)
    have h1 : k ≤ w.p.lastSubmittedRound (w.p.nodes (indexOf w.p a)) :=
      ((Zkdvrf.evalInv hz).stored k _ hsub).2.2.2.2.1
    have h2 : w.p.nodes (indexOf w.p a) = a := ((Zkdvrf.regInv hz).reg_idx a hra).2.1
    rw [h2] at h1
    omega

/-- At every time a quorum of nodes has not stopped. -/
theorem C96_quorum_left (hM : Faithful M t n aux1 aux2) {w0 : World} (h0 : Fresh M o ws t n w0.p)
    {w : Overlap} (h : Overlapping M o ws t n aux1 aux2 (.begin w0) w) :
    ∃ l : List Address, l.Nodup ∧ l ⊆ ws ∧ t ≤ l.length ∧ ∀ a ∈ l, w.nodeAt a ≠ .stopped := by
  have hi := overlap_inv hM h0 h
  obtain ⟨l, h1, h2, h3, h4⟩ := hi.core.uptodate
  refine ⟨l, h1, h2, h3, fun a ha hs => ?_⟩
  have hn := hi.nodes a (h2 ha)
  rw [hs] at hn
  obtain ⟨k, hk, hl⟩ := hn
  exact absurd (h4 a ha k hk) (by omega)

private theorem completes_aux (hM : Faithful M t n aux1 aux2) (d : Draw) (hd : GoodDraw t n aux1 aux2 d)
    {w0 : World} (h0 : Fresh M o ws t n w0.p) {K : ℕ} (hK1 : 1 ≤ K) (hK9 : K ≤ 9) :
    ∀ (m : ℕ) {w : Overlap}, Overlapping M o ws t n aux1 aux2 (.begin w0) w →
      2 * n + 2 + K * (n + 2) + 1 - workO n w.p ≤ m →
      ∃ w', Overlapping M o ws t n aux1 aux2 w w' ∧ Completed w'.p K := by
  intro m
  induction m with
  | zero =>
    intro w h hm
    by_cases hK : Completed w.p K
    · exact ⟨w, .refl, hK⟩
    · exfalso
      have hi := overlap_inv hM h0 h
      have hcur : w.p.currentRoundNum ≤ K := by
        by_contra hlt
        exact hK ((C34_pre_rounds M.env hi.core.reach hi.core.ht).1 K hK1 (by omega))
      have := hi.core.work_le hcur
      omega
  | succ m ih =>
    intro w h hm
    by_cases hK : Completed w.p K
    · exact ⟨w, .refl, hK⟩
    · have hi := overlap_inv hM h0 h
      obtain ⟨w1, h1, h2⟩ := onward hM d hd hi hK1 hK9 hK
      obtain ⟨w2, h3, h4⟩ := ih (h.trans h1) (by omega)
      exact ⟨w2, h1.trans h3, h4⟩

/-- From every state that overlapping passes lead to, the first nine rounds can still be completed: by passes
of the services, whatever transactions are on their way and whichever nodes have stopped. -/
theorem C96_completes (hM : Faithful M t n aux1 aux2) (d : Draw) (hd : GoodDraw t n aux1 aux2 d)
    {w0 : World} (h0 : Fresh M o ws t n w0.p) {w : Overlap}
    (h : Overlapping M o ws t n aux1 aux2 (.begin w0) w) :
    ∃ w', Overlapping M o ws t n aux1 aux2 w w' ∧ ∀ k, 1 ≤ k → k ≤ 9 → Completed w'.p k := by
  obtain ⟨w', h1, h2⟩ := completes_aux hM d hd h0 (K := 9) (by omega) (by omega) _ h (le_refl _)
  have hi := overlap_inv hM h0 (h.trans h1)
  refine ⟨w', h1, fun k hk1 hk9 => ?_⟩
  rcases Nat.lt_or_ge k 9 with hlt | hge
  · have hcur := (C37_pre_quorum M.env hi.core.reach hi.core.ht 9 h2).2.1
    exact (C34_pre_rounds M.env hi.core.reach hi.core.ht).1 k hk1 (by omega)
  · obtain rfl : k = 9 := by omega
    exact h2

/-- The histories are made of single steps. -/
theorem C96_steps {w w' : Overlap} : Overlapping M o ws t n aux1 aux2 w w' ↔
    Relation.ReflTransGen (OverlapStep M o ws t n aux1 aux2) w w' := overlapping_iff

private theorem changes_aux (hM : Faithful M t n aux1 aux2) {w0 : World} (h0 : Fresh M o ws t n w0.p)
    (s : ℕ → Overlap) (hs0 : s 0 = .begin w0) (hs : ∀ i, OverlapStep M o ws t n aux1 aux2 (s i) (s (i + 1))) :
    ∀ N, Overlapping M o ws t n aux1 aux2 (.begin w0) (s N) ∧
      {i | i < N ∧ s (i + 1) ≠ s i}.ncard ≤ measureO ws n (s N) := by
  intro N
  induction N with
  | zero =>
    rw [hs0]
    refine ⟨.refl, ?_⟩
    have : {i | i < 0 ∧ s (i + 1) ≠ s i} = ∅ := Set.eq_empty_of_forall_notMem fun i hi => Nat.not_lt_zero _ hi.1
    rw [this, Set.ncard_empty]
    exact Nat.zero_le _
  | succ N ih =>
    refine ⟨ih.1.trans (overlapping_step (hs N)), ?_⟩
    by_cases hne : s (N + 1) = s N
    · have : {i | i < N + 1 ∧ s (i + 1) ≠ s i} = {i | i < N ∧ s (i + 1) ≠ s i} := by
        ext i
        constructor
        · rintro ⟨h1, h2⟩
          refine ⟨?_, h2⟩
          rcases Nat.lt_or_ge i N with h3 | h3
          · exact h3
          · obtain rfl : i = N := by omega
            exact absurd hne h2
        · rintro ⟨h1, h2⟩
          exact ⟨by omega, h2⟩
      rw [this, hne]
      exact ih.2
    · have hsub : {i | i < N + 1 ∧ s (i + 1) ≠ s i} ⊆ insert N {i | i < N ∧ s (i + 1) ≠ s i} := by
        rintro i ⟨h1, h2⟩
        rcases Nat.lt_or_ge i N with h3 | h3
        · exact Or.inr ⟨h3, h2⟩
        · exact Or.inl (by omega)
      have hfin : {i | i < N ∧ s (i + 1) ≠ s i}.Finite := (Set.finite_lt_nat N).subset fun i hi => hi.1
      have h1 := (Set.ncard_le_ncard hsub (hfin.insert N)).trans (Set.ncard_insert_le _ _)
      have h2 := step_measure hM (overlap_inv hM h0 ih.1) (hs N) hne
      have h3 := ih.2
      omega

/-- Whatever the schedule: when the steps have changed something more than `3 (2n + 2 + K (n + 2)) + 3n + 3` times,
the first `K` rounds are complete. -/
theorem C96_every_schedule (hM : Faithful M t n aux1 aux2) {w0 : World} (h0 : Fresh M o ws t n w0.p)
    (s : ℕ → Overlap) (hs0 : s 0 = .begin w0) (hs : ∀ i, OverlapStep M o ws t n aux1 aux2 (s i) (s (i + 1)))
    (N K : ℕ)
    (hN : 3 * (2 * n + 2 + K * (n + 2)) + 3 * n + 3 < {i | i < N ∧ s (i + 1) ≠ s i}.ncard) :
    ∀ k, 1 ≤ k → k ≤ K → Completed (s N).p k := by
  obtain ⟨h1, h2⟩ := changes_aux hM h0 s hs0 hs N
  have hi := overlap_inv hM h0 h1
  intro k hk1 hkK
  by_contra hk
  have hcur : (s N).p.currentRoundNum ≤ K := by
    by_contra hlt
    exact hk ((C34_pre_rounds M.env hi.core.reach hi.core.ht).1 k hk1 (by omega))
  have := hi.measure_le hcur
  omega

/-- And as long as one of the first nine rounds is not complete, some step changes something. -/
theorem C96_never_stuck (hM : Faithful M t n aux1 aux2) (d : Draw) (hd : GoodDraw t n aux1 aux2 d)
    {w0 : World} (h0 : Fresh M o ws t n w0.p) {w : Overlap}
    (h : Overlapping M o ws t n aux1 aux2 (.begin w0) w) {K : ℕ} (hK1 : 1 ≤ K) (hK9 : K ≤ 9)
    (hK : ¬ Completed w.p K) : ∃ w', OverlapStep M o ws t n aux1 aux2 w w' ∧ w' ≠ w := by
  obtain ⟨w1, h1, h2⟩ := onward hM d hd (overlap_inv hM h0 h) hK1 hK9 hK
  have hne : w1 ≠ w := by rintro rfl; exact absurd h2 (Nat.lt_irrefl _)
  have h3 := overlapping_iff.1 h1
  clear h1 h2
  induction h3 using Relation.ReflTransGen.head_induction_on with
  | refl => exact absurd rfl hne
  | head hs _ ih =>
    rename_i a c _
    by_cases hc : c = a
    · subst hc
      exact ih h hK hne
    · exact ⟨c, hs, hc⟩

/-- VIOLATION.  A node whose evaluation comes too late stops for good, and this may happen to all nodes but a
quorum in the very first round: with `t` of `n` nodes, some history leaves `n - t` of them stopped when the
first round is complete. -/
theorem C96_violation_late_evaluations (hM : Faithful M t n aux1 aux2) (d : Draw)
    (hd : GoodDraw t n aux1 aux2 d) {w0 : World} (h0 : Fresh M o ws t n w0.p) :
    ∃ w, Overlapping M o ws t n aux1 aux2 (.begin w0) w ∧ Completed w.p 1 ∧ w.p.currentRoundNum = 1 ∧
      ∀ a ∈ ws.drop t, w.nodeAt a = .stopped := by
  -- the first round opens
  have hbound : 2 * n + 3 < 2 ^ 255 := by
    have h1 := (Zkdvrf.regInv (sim h0.reachable (by rw [h0.threshold]; exact h0.t_pos)).2.choose_spec.choose_spec).bound
    have h2 : 7 * w0.p.memberCount + 14 < 2 ^ 32 := h1
    rw [h0.members] at h2
    have h3 : (2 : ℕ) ^ 32 ≤ 2 ^ 255 := Nat.pow_le_pow_right (by omega) (by omega)
    omega
  obtain ⟨w1, hw1⟩ := C55_completes M hM d hd h0 .refl (2 * n + 3) (by omega)
  obtain ⟨s1, s2, s3, s4⟩ := (C55_stage M hM h0 hw1 hbound).2.2.2.2.2 0 0 (by omega) (by omega)
  have r1 := C96_atomic_history hM h0 hw1 hbound
  have i1 := overlap_inv hM h0 r1
  have hf : First M o ws t n (.begin w1) := by
    refine ⟨i1, s1, s2, ?_, rfl⟩
    by_contra hv
    exact s3 hv
  have hlast : ∀ a ∈ ws, (Overlap.begin w1).nodeAt a = .free ∧ (Overlap.begin w1).p.lastSubmittedRound a = 0 := by
    intro a ha
    refine ⟨rfl, ?_⟩
    by_contra hne
    obtain ⟨hx, o1, o2, hz⟩ := sim i1.core.reach i1.core.ht
    have hev := Zkdvrf.evalInv hz
    have hle : w1.p.lastSubmittedRound a ≤ w1.p.currentRoundNum := hev.last_le a
    have hl1 : w1.p.lastSubmittedRound a = 1 := by
      have : w1.p.lastSubmittedRound a ≠ 0 := hne
      rw [s2] at hle
      omega
    have hst : (w1.p.roundToEval (w1.p.lastSubmittedRound a) (w1.p.addrToNode a).pkIndex).indexPlus ≠ 0 :=
      (hev.last_stored a (Nat.pos_of_ne_zero hne)).2
    rw [hl1] at hst
    have hi : (w1.p.addrToNode a).pkIndex < w1.p.registeredCount := (hev.stored 1 _ hst).2.1
    have hrm : w1.p.registeredCount ≤ w1.p.memberCount := (Zkdvrf.regInv hz).reg_card.trans (Zkdvrf.regInv hz).idx_le
    have hcount : w1.p.roundSubmissionCount 1 = ((Finset.range w1.p.memberCount).filter
      (fun i => (w1.p.roundToEval 1 i).indexPlus ≠ 0)).card := hev.count 1
    rw [show w1.p.roundSubmissionCount 1 = 0 from s4] at hcount
    have hmem := (Finset.mem_filter (p := fun i => (w1.p.roundToEval 1 i).indexPlus ≠ 0)).2
      ⟨Finset.mem_range.2 (lt_of_lt_of_le hi hrm), hst⟩
    rw [Finset.card_eq_zero.1 hcount.symm] at hmem
    exact absurd hmem (Finset.notMem_empty _)
  have hnd := h0.nodup
  have hlen := h0.length
  have hdisj : ∀ a ∈ ws.take t, a ∉ ws.drop t := fun a h1 h2 =>
    List.disjoint_take_drop hnd (le_refl t) h1 h2
  obtain ⟨w2, r2, f2, p2, n2, m2⟩ := hf.send_all hM d hd (ws.drop t) (hnd.sublist (List.drop_sublist t ws))
    (List.drop_sublist t ws).subset (fun a ha => hlast a ((List.drop_sublist t ws).subset ha))
    (by rw [show (Overlap.begin w1).p.roundSubmissionCount 1 = 0 from s4]; exact h0.t_pos)
  obtain ⟨w3, r3, f3, c3, m3⟩ := f2.submit_all hM d hd (ws.take t) (hnd.sublist (List.take_sublist t ws))
    (List.take_sublist t ws).subset (fun a ha => by
      rw [m2 a (hdisj a ha), p2]
      exact hlast a ((List.take_sublist t ws).subset ha))
    (by rw [p2, show (Overlap.begin w1).p.roundSubmissionCount 1 = 0 from s4, List.length_take, hlen,
          Nat.min_eq_left h0.t_le, Nat.zero_add])
  obtain ⟨w4, r4, i4, c4, k4, m4⟩ := f3.publish hM c3
  obtain ⟨w5, r5, p5, n5, _⟩ := late_all (M := M) (o := o) (ws := ws) (t := t) (n := n) (aux1 := aux1) (aux2 := aux2)
    (ws.drop t) c4 k4 (hnd.sublist (List.drop_sublist t ws)) (List.drop_sublist t ws).subset (fun a ha => by
      rw [m4, m3 a (fun h => hdisj a h ha)]
      exact n2 a ha)
  refine ⟨w5, r1.trans (r2.trans (r3.trans (r4.trans r5))), ?_, ?_, n5⟩
  · rw [p5]; exact k4
  · rw [p5]; exact c4

/-- VIOLATION.  The node does not wait until its dealing is mined (services/node.ts:240).  While it is on its way,
the next pass decides to deal again; when the first dealing has been mined, every other one of this node
reverts. -/
theorem C96_violation_second_dealing (hM : Faithful M t n aux1 aux2) {w0 : World}
    (h0 : Fresh M o ws t n w0.p) {w : Overlap} (h : Overlapping M o ws t n aux1 aux2 (.begin w0) w)
    {a : Address} (ha : a ∈ ws) {pp : List Word} {pr : List Byte} {k : ℕ}
    (hs : w.nodeAt a = .sent (.submitPublicParams pp pr) k) :
    nodeLook w.p a = some .deal ∧
    ∃ p', ZkdvrfPre.exec M.env w.p ⟨a, 0⟩ (.submitPublicParams pp pr) = some p' ∧
      ∀ pp' pr', ZkdvrfPre.exec M.env p' ⟨a, 0⟩ (.submitPublicParams pp' pr') = none := by
  have hi := overlap_inv hM h0 h
  have hn := hi.nodes a ha
  rw [hs] at hn
  obtain ⟨p', he, _⟩ := land_deal (k := k) hi.core ha hn
  refine ⟨?_, p', he, ?_⟩
  · have hp := hi.core.dealing ha hn.1 hn.2.1
    unfold nodeLook
    dsimp only
    rw [if_pos (hi.core.self ha).1, hp]
    dsimp only
    rw [hn.2.1]
    rfl
  · intro pp' pr'
    cases hx : ZkdvrfPre.exec M.env p' ⟨a, 0⟩ (.submitPublicParams pp' pr') with
    | none => rfl
    | some q =>
      exfalso
      obtain ⟨_, _, _, _, _, _, _, rfl⟩ := ZkdvrfPre.submitPublicParams_some.1 he
      obtain ⟨_, _, _, hst, _⟩ := ZkdvrfPre.submitPublicParams_some.1 hx
      dsimp only at hst
      rw [Function.update_self] at hst
      cases hst

private theorem submitPP_call {p : State} {a : Address} {f f' : Files} {d : Draw} {c : Zkdvrf.Call}
    (h : submitPP M p a f d = .send f' c) : ∃ pp pr, c = .submitPublicParams pp pr := by
  unfold submitPP at h
  dsimp only at h
  split at h
  · cases h
  · split at h
    · cases h
    · split at h
      · cases h
      · split at h
        · cases h
        · cases h
          exact ⟨_, _, rfl⟩

end

/-- A concrete case: the dealing of the first of three nodes on its way. -/
theorem toy_dealing : ∃ w0 w pp pr k, Fresh toyMachine 7 [1, 2, 3] 2 3 w0.p ∧
    Overlapping toyMachine 7 [1, 2, 3] 2 3 (5 • g1) FixedPoint.aux2 (.begin w0) w ∧
    w.nodeAt 1 = .sent (.submitPublicParams pp pr) k := by
  obtain ⟨w0, h0, _, hw⟩ := toy_world
  obtain ⟨w1, h1⟩ := hw 4 (by omega)
  have hb : 4 < 2 ^ 255 := by norm_num
  obtain ⟨s1, s2⟩ := (C55_stage toyMachine toy_faithful h0 h1 hb).2.2.1 0 (by omega) (by omega)
  have r1 := C96_atomic_history toy_faithful h0 h1 hb
  have i1 := overlap_inv toy_faithful h0 r1
  have ha : (1 : Address) ∈ [(1 : Address), 2, 3] := by decide
  have hst : (w1.p.addrToNode 1).statusPP = false := by
    obtain ⟨_, o1, o2, hz⟩ := sim i1.core.reach i1.core.ht
    cases hst : (w1.p.addrToNode 1).statusPP with
    | false => rfl
    | true =>
      exfalso
      have hd := Zkdvrf.dkgInv hz
      have hm := (hd.ppMem 1).2 hst
      have hl := hd.ordLen
      rw [← hd.ppLen, show ((Overlap.begin w1).p.toZk o1 o2).ppList.length = 0 from s2] at hl
      rw [List.length_eq_zero_iff.1 hl] at hm
      cases hm
  have hj : nodeLook w1.p 1 = some .deal := by
    unfold nodeLook
    dsimp only
    rw [if_pos (show (w1.p.addrToNode 1).nodeAddress = 1 from (i1.core.self ha).1), s1]
    dsimp only
    rw [hst]
    rfl
  have r2 := Overlapping.look 1 ha r1
  have e2 : (Overlap.begin w1).look 1 =
      { Overlap.begin w1 with nodeAt := Function.update (fun _ => .free) 1 (.decided .deal) } := by
    unfold Overlap.look Overlap.begin
    dsimp only
    rw [hj]
  obtain ⟨f, c, hc⟩ := (C96_commands_succeed toy_faithful h0 r2).1 1 ha .deal (by
    rw [e2]; dsimp only; rw [Function.update_self]) toyDraw toy_good
  rw [e2] at hc
  obtain ⟨pp, pr, rfl⟩ := submitPP_call hc
  refine ⟨w0, _, pp, pr, w1.p.currentRoundNum, h0, .fetch 1 toyDraw ha toy_good r2, ?_⟩
  rw [e2]
  unfold Overlap.fetch
  dsimp only
  rw [Function.update_self]
  dsimp only
  dsimp only at hc
  rw [hc]
  dsimp only
  rw [Function.update_self]
  rfl

/-- A concrete case of a schedule: 132 changing steps of three services complete four rounds (and more). -/
theorem toy_schedule : ∃ (w0 : World) (s : ℕ → Overlap), Fresh toyMachine 7 [1, 2, 3] 2 3 w0.p ∧ s 0 = .begin w0 ∧
    (∀ i, OverlapStep toyMachine 7 [1, 2, 3] 2 3 (5 • g1) FixedPoint.aux2 (s i) (s (i + 1))) ∧
    {i | i < 132 ∧ s (i + 1) ≠ s i}.ncard = 132 ∧ ∀ k, 1 ≤ k → k ≤ 4 → Completed (s 132).p k := by
  obtain ⟨w0, h0, _, hw⟩ := toy_world
  obtain ⟨w1, h1⟩ := hw 44 (le_refl _)
  obtain ⟨s, s0, s1, _, s3⟩ := (atomic_changes toy_faithful h0 h1 (by norm_num)).realize
  exact ⟨w0, s, h0, s0, s1, s3, C96_every_schedule toy_faithful h0 s s0 s1 132 4 (by rw [s3]; norm_num)⟩

/-- A concrete case of the rest: three services, threshold two.  Of every two services one may be late: in the
first round the third node stops, and nine rounds can be completed nevertheless. -/
example : ∃ w0 w w', Fresh toyMachine 7 [1, 2, 3] 2 3 w0.p ∧
    Overlapping toyMachine 7 [1, 2, 3] 2 3 (5 • g1) FixedPoint.aux2 (.begin w0) w ∧ Completed w.p 1 ∧
    w.nodeAt 3 = .stopped ∧
    Overlapping toyMachine 7 [1, 2, 3] 2 3 (5 • g1) FixedPoint.aux2 w w' ∧
    ∀ k, 1 ≤ k → k ≤ 9 → Completed w'.p k := by
  obtain ⟨w0, h0, _, _⟩ := toy_world
  obtain ⟨w, h1, h2, _, h4⟩ := C96_violation_late_evaluations toy_faithful toyDraw toy_good h0
  obtain ⟨w', h5, h6⟩ := C96_completes toy_faithful toyDraw toy_good h0 h1
  exact ⟨w0, w, w', h0, h1, h2, h4 3 (by decide), h5, h6⟩

end Verif.Props
