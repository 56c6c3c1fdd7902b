import Verif.Lemmas.OverlapLive
namespace Verif.Overlap
open Verif.Services
open Verif.ZkdvrfPre
open Verif.Props

/-! A schedule in which all nodes but a quorum stop. -/

section
variable {M : Machine} {o : Address} {ws : List Address} {t n : ℕ} {aux1 : G1} {aux2 : G2} {w : Overlap}

/-- The first round is open. -/
structure First (M : Machine) (o : Address) (ws : List Address) (t n : ℕ) (w : Overlap) : Prop where
  inv : OInv M o ws t n w
  phase : w.p.contractPhase = .Ready
  cur : w.p.currentRoundNum = 1
  value : (w.p.roundToRandom 1).value = 0
  admin : w.adminAt = .free

/-- A node of which nothing is stored makes its evaluation. -/
theorem First.send (hM : Faithful M t n aux1 aux2) (d : Draw) (hd : GoodDraw t n aux1 aux2 d)
    (h : First M o ws t n w) {a : Address} (ha : a ∈ ws) (hf : w.nodeAt a = .free)
    (hl : w.p.lastSubmittedRound a = 0) (hq : w.p.roundSubmissionCount 1 < t) :
    ∃ w' e, Overlapping M o ws t n aux1 aux2 w w' ∧ First M o ws t n w' ∧ w'.p = w.p ∧
      w'.nodeAt = Function.update w.nodeAt a (.sent (.submitPartialEval e) 1) := by
  have hj : nodeLook w.p a = some (.eval true) := by
    unfold nodeLook
    dsimp only
    rw [if_pos (h.inv.core.self ha).1, h.phase]
    dsimp only
    rw [h.cur, hl, h.inv.core.thr, if_pos]
    · rfl
    · rw [Bool.and_eq_true]
      exact ⟨(C56_comparison_below_ten 1 0 (by omega) (by omega)).2 (by omega), decide_eq_true hq⟩
  have e : w.look a = { w with nodeAt := Function.update w.nodeAt a (.decided (.eval true)) } := by
    unfold Overlap.look
    rw [hf]
    dsimp only
    rw [hj]
  have hi := h.inv.look ha
  have hn := hi.nodes a ha
  have e1 : (w.look a).nodeAt a = .decided (.eval true) := by rw [e]; exact Function.update_self _ _ _
  rw [e1] at hn
  obtain ⟨f, c, h1, h2, h3⟩ := hi.core.run hM ha hn d hd
  have e2 : (w.look a).fetch M a d = { w with
      node := Function.update w.node a f
      nodeAt := Function.update w.nodeAt a (.sent c 1) } := by
    unfold Overlap.fetch
    rw [e1]
    dsimp only
    rw [h1, e]
    dsimp only
    rw [h.cur, Function.update_idem]
  have hc : ∃ ev, c = .submitPartialEval ev := by
    have hp : (w.look a).p.contractPhase = .Ready := by rw [e]; exact h.phase
    cases c with
    | submitPartialEval ev => exact ⟨ev, rfl⟩
    | registerNode pk => exact absurd (hp.symm.trans (hi.core.unreg ha h2.1)) Phase.noConfusion
    | submitPublicParams pp pr =>
      exact absurd (hp.symm.trans (hi.core.dealing ha h2.1 h2.2.1)) Phase.noConfusion
    | _ => exact h2.elim
  obtain ⟨ev, rfl⟩ := hc
  have hi2 := hi.fetch hM ha d hd
  refine ⟨(w.look a).fetch M a d, ev, .fetch a d ha hd (.look a ha .refl), ⟨hi2, ?_, ?_, ?_, ?_⟩, ?_, ?_⟩
  · rw [e2]; exact h.phase
  · rw [e2]; exact h.cur
  · rw [e2]; exact h.value
  · rw [e2]; exact h.admin
  · rw [e2]
  · rw [e2]

/-- All of some nodes make their evaluations. -/
theorem First.send_all (hM : Faithful M t n aux1 aux2) (d : Draw) (hd : GoodDraw t n aux1 aux2 d) :
    ∀ (l : List Address) {w : Overlap}, First M o ws t n w → l.Nodup → l ⊆ ws →
      (∀ a ∈ l, w.nodeAt a = .free ∧ w.p.lastSubmittedRound a = 0) → w.p.roundSubmissionCount 1 < t →
    ∃ w', Overlapping M o ws t n aux1 aux2 w w' ∧ First M o ws t n w' ∧ w'.p = w.p ∧
      (∀ a ∈ l, ∃ e, w'.nodeAt a = .sent (.submitPartialEval e) 1) ∧
      ∀ b ∉ l, w'.nodeAt b = w.nodeAt b := by
  intro l
  induction l with
  | nil => intro w h _ _ _ _; exact ⟨w, .refl, h, rfl, (fun _ h => by cases h), fun _ _ => rfl⟩
  | cons a l ih =>
    intro w h hnd hsub hl hq
    rw [List.nodup_cons] at hnd
    obtain ⟨w1, e, r1, h1, p1, n1⟩ := h.send hM d hd (hsub List.mem_cons_self)
      (hl a List.mem_cons_self).1 (hl a List.mem_cons_self).2 hq
    obtain ⟨w2, r2, h2, p2, n2, n3⟩ := ih h1 hnd.2 (fun x hx => hsub (List.mem_cons_of_mem _ hx)) (by
      intro b hb
      have hba : b ≠ a := by rintro rfl; exact hnd.1 hb
      rw [n1, Function.update_of_ne hba, p1]
      exact hl b (List.mem_cons_of_mem _ hb)) (by rw [p1]; exact hq)
    refine ⟨w2, Overlapping.trans r1 r2, h2, p2.trans p1, ?_, ?_⟩
    · intro b hb
      rcases List.mem_cons.1 hb with rfl | hb
      · exact ⟨e, by rw [n3 _ hnd.1, n1, Function.update_self]⟩
      · exact n2 b hb
    · intro b hb
      rw [List.mem_cons, not_or] at hb
      rw [n3 b hb.2, n1, Function.update_of_ne hb.1]

/-- A node makes its evaluation, which is stored. -/
theorem First.submit (hM : Faithful M t n aux1 aux2) (d : Draw) (hd : GoodDraw t n aux1 aux2 d)
    (h : First M o ws t n w) {a : Address} (ha : a ∈ ws) (hf : w.nodeAt a = .free)
    (hl : w.p.lastSubmittedRound a = 0) (hq : w.p.roundSubmissionCount 1 < t) :
    ∃ w', Overlapping M o ws t n aux1 aux2 w w' ∧ First M o ws t n w' ∧
      w'.p.roundSubmissionCount 1 = w.p.roundSubmissionCount 1 + 1 ∧
      (∀ b, b ≠ a → w'.p.lastSubmittedRound b = w.p.lastSubmittedRound b) ∧
      ∀ b, b ≠ a → w'.nodeAt b = w.nodeAt b := by
  obtain ⟨w1, e, r1, h1, p1, n1⟩ := h.send hM d hd ha hf hl hq
  have hs : w1.nodeAt a = .sent (.submitPartialEval e) 1 := by rw [n1, Function.update_self]
  have hopen : ¬ Completed w1.p 1 := fun hh => hh h1.value
  obtain ⟨p', he⟩ := (h1.inv.outcome ha hs).2.resolve_right (fun hh => hopen hh.2.1)
  have hl : ∀ c k, w1.nodeAt a = .sent c k → NoLuck M w1.p a k c := by
    intro c k hs' ev _ hne
    rw [hs] at hs'
    cases hs'
    exact absurd h1.cur.symm hne
  have e2 : w1.land M a = { w1 with p := p', nodeAt := Function.update w1.nodeAt a .free } := by
    unfold Overlap.land
    rw [hs]
    dsimp only
    rw [he]
  have hi := h1.inv.land ha hl
  obtain ⟨_, _, _, _, _, _, _, _, hp'⟩ := submitPartialEval_some.1 he
  refine ⟨w1.land M a, .land a ha hl r1, ⟨hi, ?_, ?_, ?_, ?_⟩, ?_, ?_, ?_⟩
  · rw [e2, ← hp']; exact h1.phase
  · rw [e2, ← hp']; exact h1.cur
  · rw [e2, ← hp']; exact h1.value
  · rw [e2]; exact h1.admin
  · rw [e2, ← hp']
    dsimp only
    rw [h1.cur, Function.update_self, p1]
  · intro b hb
    rw [e2, ← hp']
    dsimp only
    rw [Function.update_of_ne hb, p1]
  · intro b hb
    rw [e2, n1]
    dsimp only
    rw [Function.update_of_ne hb, Function.update_of_ne hb]

/-- A quorum submits. -/
theorem First.submit_all (hM : Faithful M t n aux1 aux2) (d : Draw) (hd : GoodDraw t n aux1 aux2 d) :
    ∀ (l : List Address) {w : Overlap}, First M o ws t n w → l.Nodup → l ⊆ ws →
      (∀ a ∈ l, w.nodeAt a = .free ∧ w.p.lastSubmittedRound a = 0) →
      w.p.roundSubmissionCount 1 + l.length = t →
    ∃ w', Overlapping M o ws t n aux1 aux2 w w' ∧ First M o ws t n w' ∧
      w'.p.roundSubmissionCount 1 = t ∧ ∀ b ∉ l, w'.nodeAt b = w.nodeAt b := by
  intro l
  induction l with
  | nil => intro w h _ _ _ hq; exact ⟨w, .refl, h, hq, fun _ _ => rfl⟩
  | cons a l ih =>
    intro w h hnd hsub hl hq
    rw [List.nodup_cons] at hnd
    rw [List.length_cons] at hq
    obtain ⟨w1, r1, h1, c1, l1, n1⟩ := h.submit hM d hd (hsub List.mem_cons_self)
      (hl a List.mem_cons_self).1 (hl a List.mem_cons_self).2 (by omega)
    obtain ⟨w2, r2, h2, c2, n2⟩ := ih h1 hnd.2 (fun x hx => hsub (List.mem_cons_of_mem _ hx)) (by
      intro b hb
      have hba : b ≠ a := by rintro rfl; exact hnd.1 hb
      rw [n1 b hba, l1 b hba]
      exact hl b (List.mem_cons_of_mem _ hb)) (by rw [c1]; omega)
    refine ⟨w2, Overlapping.trans r1 r2, h2, c2, ?_⟩
    intro b hb
    rw [List.mem_cons, not_or] at hb
    rw [n2 b hb.2, n1 b hb.1]

/-- The admin publishes the random of the first round. -/
theorem First.publish (hM : Faithful M t n aux1 aux2) (h : First M o ws t n w)
    (hq : w.p.roundSubmissionCount 1 = t) :
    ∃ w', Overlapping M o ws t n aux1 aux2 w w' ∧ OInv M o ws t n w' ∧ w'.p.currentRoundNum = 1 ∧
      Completed w'.p 1 ∧ w'.nodeAt = w.nodeAt := by
  have hj : adminLook w.p true = some (.random 1) := by
    unfold adminLook
    rw [h.phase]
    dsimp only
    rw [if_neg (by decide), h.cur, if_neg (by decide), if_pos ⟨h.value, by rw [h.inv.core.thr, hq]⟩]
  have e : w.adminDecide (adminLook w.p true) = { w with adminAt := .decided (.random 1) } := by
    unfold Overlap.adminDecide
    rw [h.admin, hj]
  have hi := h.inv.decide (j := adminLook w.p true) (fun i hi => adminLook_ok hi)
  have hn := hi.admin
  have e1 : (w.adminDecide (adminLook w.p true)).adminAt = .decided (.random 1) := by rw [e]
  rw [e1] at hn
  obtain ⟨f, c, h1, h2, h3⟩ := hi.core.adminRun hM hn
  have e2 : (w.adminDecide (adminLook w.p true)).adminFetch M =
      { w with admin := f, adminAt := .sent c 1 } := by
    unfold Overlap.adminFetch
    rw [e1]
    dsimp only
    rw [h1, e]
    dsimp only
    rw [h.cur]
  have hi2 := hi.adminFetch hM
  have r2 : Overlapping M o ws t n aux1 aux2 w ((w.adminDecide (adminLook w.p true)).adminFetch M) :=
    .adminFetch (.adminLook true .refl)
  rw [e2] at hi2 r2
  have hs : AdminSent M t n w.p f c := hi2.admin
  have hc : ∃ rnd, c = .submitRandom rnd := by
    cases c with
    | submitRandom rnd => exact ⟨rnd, rfl⟩
    | startNidkg => exact absurd (h.phase.symm.trans hs) Phase.noConfusion
    | computeVk g => exact absurd (h.phase.symm.trans hs.1) Phase.noConfusion
    | initiateRandom =>
      rcases hs.2 with h0 | h0
      · rw [h.cur] at h0; cases h0
      · rw [h.cur] at h0; exact absurd h.value h0
    | _ => exact hs.elim
  obtain ⟨rnd, rfl⟩ := hc
  obtain ⟨p', he⟩ := (land_admin hi2.core hs).2.1 (Or.inr (by intro hh; cases hh))
  have e3 : Overlap.adminLand M { w with admin := f, adminAt := .sent (.submitRandom rnd) 1 } o =
      { w with admin := f, p := p', adminAt := .free } := by
    unfold Overlap.adminLand
    dsimp only
    rw [he]
  have hi3 := hi2.adminLand
  obtain ⟨_, _, _, _, _, z6, hp'⟩ := submitRandom_some.1 he
  refine ⟨_, .adminLand r2, hi3, ?_, ?_, ?_⟩
  · rw [e3, ← hp']; exact h.cur
  · rw [e3, ← hp']
    unfold Completed
    dsimp only
    rw [h.cur, Function.update_self, z6]
    exact hM.hash _
  · rw [e3]

/-- Evaluations for the first round that come after its random stop their nodes. -/
theorem late_all : ∀ (l : List Address) {w : Overlap}, w.p.currentRoundNum = 1 → Completed w.p 1 →
      l.Nodup → l ⊆ ws → (∀ a ∈ l, ∃ e, w.nodeAt a = .sent (.submitPartialEval e) 1) →
    ∃ w', Overlapping M o ws t n aux1 aux2 w w' ∧ w'.p = w.p ∧ (∀ a ∈ l, w'.nodeAt a = .stopped) ∧
      ∀ b ∉ l, w'.nodeAt b = w.nodeAt b := by
  intro l
  induction l with
  | nil => intro w _ _ _ _ _; exact ⟨w, .refl, rfl, (fun _ h => by cases h), fun _ _ => rfl⟩
  | cons a l ih =>
    intro w hcur hC hnd hsub hl
    rw [List.nodup_cons] at hnd
    obtain ⟨e, hs⟩ := hl a List.mem_cons_self
    have hno : exec M.env w.p ⟨a, 0⟩ (.submitPartialEval e) = none := by
      cases he : exec M.env w.p ⟨a, 0⟩ (.submitPartialEval e) with
      | none => rfl
      | some p' =>
        obtain ⟨_, _, h1, _⟩ := submitPartialEval_some.1 he
        rw [hcur] at h1
        exact absurd h1 hC
    have e2 : w.land M a = { w with nodeAt := Function.update w.nodeAt a .stopped } := by
      unfold Overlap.land
      rw [hs]
      dsimp only
      rw [hno]
    have hlk : ∀ c k, w.nodeAt a = .sent c k → NoLuck M w.p a k c := by
      intro c k hs' ev _ hne
      rw [hs] at hs'
      cases hs'
      exact absurd hcur.symm hne
    have r1 : Overlapping M o ws t n aux1 aux2 w (w.land M a) := .land a (hsub List.mem_cons_self) hlk .refl
    rw [e2] at r1
    obtain ⟨w2, r2, p2, n2, n3⟩ := ih (w := { w with nodeAt := Function.update w.nodeAt a .stopped }) hcur hC
      hnd.2 (fun x hx => hsub (List.mem_cons_of_mem _ hx)) (by
        intro b hb
        have hba : b ≠ a := by rintro rfl; exact hnd.1 hb
        dsimp only
        rw [Function.update_of_ne hba]
        exact hl b (List.mem_cons_of_mem _ hb))
    refine ⟨w2, Overlapping.trans r1 r2, p2, ?_, ?_⟩
    · intro b hb
      rcases List.mem_cons.1 hb with rfl | hb
      · rw [n3 _ hnd.1]; exact Function.update_self _ _ _
      · exact n2 b hb
    · intro b hb
      rw [List.mem_cons, not_or] at hb
      rw [n3 b hb.2]
      exact Function.update_of_ne hb.1 _ _

end
end Verif.Overlap
