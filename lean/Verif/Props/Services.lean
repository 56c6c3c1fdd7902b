import Verif.Lemmas.Services
import Verif.Props.ContractPre
import Verif.Props.ClientDkg

/-!
C55-C57: the services of services/admin.ts and services/node.ts on contracts/zkdvrf_pre.sol.
-/

namespace Verif.Props
open Verif.Services
open Verif.ZkdvrfPre

/-! ### C56: the tenth round -/

private structure TenInv (M : Machine) (o : Address) (ws : List Address) (n t : ℕ) (p : State) : Prop where
  reach : Reachable M.env p
  owner : p.owner = o
  thr : p.threshold = t
  cnt : p.memberCount = n
  added : ∀ a, Added p a → a ∈ ws
  disj : ∀ i, Submitted p 10 i → ¬ Submitted p 9 i

private theorem ten_exec {M : Machine} {o : Address} {ws : List Address} {n t : ℕ} {p : State}
    (ht : 1 ≤ t) (h : TenInv M o ws n t p) {a : Address} (ha : a ≠ 0) {c : Zkdvrf.Call}
    (hc : (∃ pk, c = .registerNode pk) ∨ (∃ pp pr, c = .submitPublicParams pp pr) ∨
      (∃ w, c = .submitPartialEval w) ∨ c = .startNidkg ∨ (∃ g, c = .computeVk g) ∨
      c = .initiateRandom ∨ ∃ x, c = .submitRandom x)
    (hj : ∀ w, c = .submitPartialEval w →
      jsGreater p.currentRoundNum (p.lastSubmittedRound a) = true) :
    TenInv M o ws n t (mine M p a c) := by
  unfold mine
  cases he : exec M.env p ⟨a, 0⟩ c with
  | none => rw [step_none he]; exact h
  | some p' =>
    have hr' : Reachable M.env p' := by
      have := Reachable.step (.call ⟨a, 0⟩ c) ha h.reach
      rwa [step_some he] at this
    rw [step_some he]
    obtain ⟨i1, i2⟩ := exec_ids he hc
    have i3 := step_threshold M.env p (.call ⟨a, 0⟩ c)
    rw [step_some he] at i3
    refine ⟨hr', i1.trans h.owner, i3.1.trans h.thr, i3.2.trans h.cnt, fun b hb => h.added b ?_, ?_⟩
    · unfold Added at hb ⊢; rwa [i2 b] at hb
    · by_cases hw : ∃ w, c = .submitPartialEval w
      · obtain ⟨w, rfl⟩ := hw
        have hj := hj w rfl
        obtain ⟨_, h2, _, h4, _, h6, _, _, hp'⟩ := submitPartialEval_some.1 he
        obtain ⟨hx, o1, o2, hz⟩ := sim h.reach (by rw [h.thr]; exact ht)
        have hev := Zkdvrf.evalInv hz
        have hreg := Zkdvrf.regInv hz
        have hself : (p.addrToNode a).nodeAddress = a := h2.symm
        intro i hi h9
        subst hp'
        unfold Submitted at hi h9
        dsimp only at hi h9 h4 h6
        by_cases hk : p.currentRoundNum = 10
        · by_cases hia : i = (p.addrToNode a).pkIndex
          · have h9' : (p.roundToEval 9 i).indexPlus ≠ 0 := by
              rwa [Function.update_of_ne (by rw [hk]; decide)] at h9
            obtain ⟨_, hlt, hready, _, hle, _⟩ := hev.stored 9 i h9'
            have hrn := hreg.reg_node i hlt
            -- the node with index `i` is `a`
            have hra : (p.addrToNode a).status = true := by
              have hne : p.contractPhase ≠ .Unregistered := by
                intro hu
                have : p.contractPhase.toZk = Zkdvrf.Phase.Ready := hready
                rw [hu] at this
                cases this
              exact (C31_pre_registration M.env h.reach (by rw [h.thr]; exact ht)).2.2.2.2.2.2 hne |>.2 a
                (by unfold Added; rw [hself]; exact ha)
            have hsame : p.nodes i = a :=
              (C31_pre_registration M.env h.reach (by rw [h.thr]; exact ht)).2.2.1 _ _ hrn.1 hra
                (hrn.2.trans hia)
            have hle' : 9 ≤ p.lastSubmittedRound a := by rw [← hsame]; exact hle
            have hlast : p.lastSubmittedRound a ≤ 10 := by rw [← hk]; exact hev.last_le a
            rw [hk] at hj
            have := ten_cmp _ hlast hj
            omega
          · have hi' : (p.roundToEval 10 i).indexPlus ≠ 0 := by
              rw [hk, Function.update_self, Function.update_of_ne hia] at hi
              exact hi
            have h9' : (p.roundToEval 9 i).indexPlus ≠ 0 := by
              rwa [Function.update_of_ne (by rw [hk]; decide)] at h9
            exact h.disj i hi' h9'
        · rw [Function.update_of_ne (Ne.symm hk)] at hi
          -- an evaluation of round 10 is stored, so the current round is later
          have := (hev.stored 10 i hi).1.2
          change 10 ≤ p.currentRoundNum at this
          rw [Function.update_of_ne (by omega)] at h9
          exact h.disj i hi h9
      · have := exec_evals he (fun w hw' => hw ⟨w, hw'⟩)
        intro i
        unfold Submitted
        rw [this]
        exact h.disj i

private theorem ten_inv {M : Machine} {o : Address} {ws : List Address} {w w' : World}
    (h0 : Deployed M o ws w.p) (hrun : Run M o ws w w') :
    TenInv M o ws w.p.memberCount w.p.threshold w'.p := by
  induction hrun with
  | refl =>
    refine ⟨h0.reachable, h0.owner, rfl, rfl, h0.added, ?_⟩
    intro i hi
    obtain ⟨_, o1, o2, hz⟩ := sim h0.reachable h0.threshold
    have := ((Zkdvrf.evalInv hz).stored 10 i hi).1.2
    have e : (w.p.toZk o1 o2).currentRoundNum = 0 := h0.before
    omega
  | @node v a d ha _ ih =>
    unfold World.nodeStep
    split
    · exact ih
    · exact ih
    · next f c hs =>
      have := nodePass_send hs
      refine ten_exec h0.threshold ih (h0.nonzero a ha) ?_ ?_
      · rcases this with h | h | h
        · exact Or.inl h
        · exact Or.inr (Or.inl h)
        · exact Or.inr (Or.inr (Or.inl h.1))
      · rintro x rfl
        rcases this with ⟨_, h⟩ | ⟨_, _, h⟩ | h
        · cases h
        · cases h
        · exact h.2.2.1
  | @admin v b _ ih =>
    cases hs : adminPass M v.p v.admin b with
    | idle => exact ih
    | failed f => exact ih
    | send f c =>
      have := adminPass_send hs
      refine ten_exec h0.threshold ih h0.owner_ne (Or.inr (Or.inr (Or.inr this))) ?_
      rintro x rfl
      rcases this with h | ⟨_, h⟩ | h | ⟨_, h⟩ <;> cases h
  | @tick v b e _ ih =>
    cases hs : adminTick v.p v.admin b e with
    | idle => exact ih
    | failed f => exact ih
    | send f c =>
      have := adminTick_send hs
      refine ten_exec h0.threshold ih h0.owner_ne
        (Or.inr (Or.inr (Or.inr (Or.inr (Or.inr (Or.inl this)))))) ?_
      rintro x rfl
      cases this
  | @other v m c hm ho hn _ ih =>
    have hr : Reachable M.env (step M.env v.p (.call m c)) := Reachable.step _ hm ih.reach
    have hna : ¬ Added v.p m.sender := fun h => hn (ih.added _ h)
    rcases C39_pre_outsiders M.env v.p m c hm (by rw [ih.owner]; exact ho) hna with h | ⟨g, vks, _, _, _, h⟩
    · rw [h]; exact ih
    · rw [h] at hr ⊢
      exact ⟨hr, ih.owner, ih.thr, ih.cnt, ih.added, ih.disj⟩

/-- C56. Whatever the order of the passes, the randomness and the transactions of others: no member
has evaluations stored for both the ninth and the tenth round. -/
theorem C56_ninth_and_tenth_disjoint (M : Machine) {o : Address} {ws : List Address} {w w' : World}
    (h0 : Deployed M o ws w.p) (hrun : Run M o ws w w') (i : ℕ) :
    ¬ (Submitted w'.p 9 i ∧ Submitted w'.p 10 i) :=
  fun h => (ten_inv h0 hrun).disj i h.2 h.1

/-- C56. If the threshold is more than half of the members, the services never complete the tenth
round, and so no later one is ever opened. -/
theorem C56_violation_tenth_round (M : Machine) {o : Address} {ws : List Address} {w w' : World}
    (h0 : Deployed M o ws w.p) (hmaj : w.p.memberCount < 2 * w.p.threshold)
    (hrun : Run M o ws w w') : ¬ Completed w'.p 10 ∧ w'.p.currentRoundNum ≤ 10 := by
  have hi := ten_inv h0 hrun
  have ht : 1 ≤ w'.p.threshold := by rw [hi.thr]; exact h0.threshold
  have key : ¬ Completed w'.p 10 := by
    intro hc
    obtain ⟨_, h2, _, _, h5⟩ := C37_pre_quorum M.env hi.reach ht 10 hc
    have h9 : Completed w'.p 9 := (C34_pre_rounds M.env hi.reach ht).1 9 (by norm_num) (by omega)
    obtain ⟨_, _, _, _, h6⟩ := C37_pre_quorum M.env hi.reach ht 9 h9
    rw [hi.thr, hi.cnt] at h5 h6
    -- two disjoint sets of indices
    classical
    have card_eq : ∀ k, Nat.card {i : ℕ // i < w.p.memberCount ∧ Submitted w'.p k i} =
        ((Finset.range w.p.memberCount).filter (fun i => Submitted w'.p k i)).card := by
      intro k
      rw [← Nat.card_eq_finsetCard]
      refine Nat.card_congr (Equiv.subtypeEquivRight fun i => ?_)
      rw [Finset.mem_filter, Finset.mem_range]
    rw [card_eq] at h5 h6
    have hd : Disjoint ((Finset.range w.p.memberCount).filter (fun i => Submitted w'.p 10 i))
        ((Finset.range w.p.memberCount).filter (fun i => Submitted w'.p 9 i)) := by
      rw [Finset.disjoint_left]
      intro i a b
      exact hi.disj i (Finset.mem_filter.1 a).2 (Finset.mem_filter.1 b).2
    have hu := Finset.card_union_of_disjoint hd
    have hs := Finset.card_le_card (Finset.union_subset
      (Finset.filter_subset (fun i => Submitted w'.p 10 i) (Finset.range w.p.memberCount))
      (Finset.filter_subset (fun i => Submitted w'.p 9 i) (Finset.range w.p.memberCount)))
    rw [Finset.card_range] at hs
    omega
  refine ⟨key, ?_⟩
  by_contra hgt
  exact key ((C34_pre_rounds M.env hi.reach ht).1 10 (by norm_num) (by omega))

/-- C56. The comparison of the node service is the numerical one for rounds 1 to 9. -/
theorem C56_comparison_below_ten (a b : ℕ) (ha : a ≤ 9) (hb : b ≤ 9) :
    jsGreater a b = true ↔ b < a := by
  rw [digit_cmp a ha b hb, decide_eq_true_eq]

/-- Round 9 after round 8; and, beyond nine, the comparison of texts: round 10 is not after round 9. -/
example : jsGreater 9 8 = true ∧ jsGreater 9 9 = false ∧ jsGreater 10 9 = false :=
  ⟨(C56_comparison_below_ten 9 8 (by norm_num) (by norm_num)).2 (by norm_num),
   Bool.eq_false_iff.2 fun h => lt_irrefl 9 ((C56_comparison_below_ten 9 9 (by norm_num) (by norm_num)).1 h),
   Bool.eq_false_iff.2 fun h => absurd (ten_cmp 9 (by norm_num) h) (by norm_num)⟩

/-- C56. In the tenth round a node that has submitted in one of the rounds 2 to 9 makes no
transaction. -/
theorem C56_node_idle_in_round_ten (M : Machine) (p : State) (hp : p.contractPhase = .Ready)
    (hk : p.currentRoundNum = 10) (a : Address)
    (hl : 2 ≤ p.lastSubmittedRound a) (hl' : p.lastSubmittedRound a ≤ 9) (f : Files) (d : Draw) :
    nodePass M p a f d = .idle := by
  have hj : jsGreater p.currentRoundNum (p.lastSubmittedRound a) = false := by
    rw [hk]
    cases h : jsGreater 10 (p.lastSubmittedRound a) with
    | false => rfl
    | true => have := ten_cmp _ (by omega) h; omega
  unfold nodePass
  simp only [hp, hj, Bool.false_and, Bool.false_eq_true, if_false]
  split <;> rfl

end Verif.Props
