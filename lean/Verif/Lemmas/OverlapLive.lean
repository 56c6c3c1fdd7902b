import Verif.Lemmas.OverlapInv
namespace Verif.Overlap
open Verif.Services
open Verif.ZkdvrfPre
open Verif.Props

/-! Progress of services whose passes overlap. -/

/-- How far the contract has come. -/
noncomputable def workO (n : ℕ) (p : State) : ℕ :=
  match p.contractPhase with
  | .Unregistered => p.pkList.length
  | .Registered => p.pkList.length
  | .Nidkg => n + 1 + p.ppList.length
  | .NidkgComplete => 2 * n + 1
  | .Ready => 2 * n + 2 + if p.currentRoundNum = 0 then 0 else (p.currentRoundNum - 1) * (n + 2) + 1 +
      if (p.roundToRandom p.currentRoundNum).value = 0 then p.roundSubmissionCount p.currentRoundNum else n + 1

section
variable {M : Machine} {o : Address} {ws : List Address} {t n : ℕ} {p p' : State} {ad : Files}
  {nd : Address → Files}

theorem Core.count_le (h : Core M o ws t n p ad nd) (k : ℕ) : p.roundSubmissionCount k ≤ n := by
  obtain ⟨hx, o1, o2, hz⟩ := sim h.reach h.ht
  refine ((Zkdvrf.evalInv hz).count _).le.trans ((Finset.card_filter_le _ _).trans ?_)
  rw [Finset.card_range]
  exact h.cnt.le

/-- Every accepted transaction brings the contract further. -/
theorem work_node (h : Core M o ws t n p ad nd) {a : Address} {c : Zkdvrf.Call} (hc : NodeCall c)
    (he : exec M.env p ⟨a, 0⟩ c = some p') : workO n p < workO n p' := by
  obtain ⟨hx, o1, o2, hz⟩ := sim h.reach h.ht
  have hcnt := h.cnt
  cases c with
  | registerNode pk =>
    obtain ⟨h1, _, _, _, _, _, _, rfl⟩ := registerNode_some.1 he
    unfold workO
    dsimp only
    rw [h1]
    by_cases hc : p.registeredCount + 1 = p.memberCount
    · rw [if_pos hc]; dsimp only; rw [List.length_append]; exact Nat.lt_succ_self _
    · rw [if_neg hc]; dsimp only; rw [List.length_append]; exact Nat.lt_succ_self _
  | submitPublicParams pp pr =>
    obtain ⟨_, _, h1, _, _, _, _, rfl⟩ := submitPublicParams_some.1 he
    have hlen : p.ppList.length = p.ppSubmissionCount := (Zkdvrf.dkgInv hz).ppLen
    unfold workO
    dsimp only
    rw [h1]
    by_cases hc : p.ppSubmissionCount + 1 = p.memberCount
    · rw [if_pos hc]; dsimp only; omega
    · rw [if_neg hc]; dsimp only; rw [List.length_append]; exact Nat.lt_succ_self _
  | submitPartialEval e =>
    obtain ⟨_, _, h1, h2, _, _, _, _, rfl⟩ := submitPartialEval_some.1 he
    have hp := h.ready h2
    have hne : p.currentRoundNum ≠ 0 := by omega
    unfold workO
    dsimp only
    rw [hp]
    dsimp only
    rw [if_neg hne, if_neg hne, if_pos h1, if_pos h1, Function.update_self]
    omega
  | _ => exact hc.elim

theorem work_admin_any (h : Core M o ws t n p ad nd) (hK : ∀ b, M.env.keccak b ≠ 0) {a : Address}
    {c : Zkdvrf.Call} (hs : AdminCall c)
    (he : exec M.env p ⟨a, 0⟩ c = some p') : workO n p < workO n p' := by
  obtain ⟨hx, o1, o2, hz⟩ := sim h.reach h.ht
  have hcnt := h.cnt
  cases c with
  | startNidkg =>
    obtain ⟨_, _, h1, rfl⟩ := startNidkg_some.1 he
    have h2 : p.pkList.length = p.registeredCount := (Zkdvrf.regInv hz).pkLen
    have h3 := (hx.reg h1).1
    unfold workO
    dsimp only
    rw [h1]
    dsimp only
    omega
  | computeVk gpk =>
    obtain ⟨_, h1, out, _, rfl⟩ := computeVk_some.1 he
    unfold workO
    dsimp only
    rw [h1]
    dsimp only
    omega
  | initiateRandom =>
    obtain ⟨_, _, hp, hd, _, _, _, rfl⟩ := initiateRandom_some.1 he
    have hev := Zkdvrf.evalInv hz
    have hro := Zkdvrf.roundInv hz
    have hc0 : p.roundSubmissionCount (p.currentRoundNum + 1) = 0 := by
      refine (hev.count _).trans ?_
      rw [Finset.card_eq_zero, Finset.filter_eq_empty_iff]
      intro i _ hi
      have := (hev.stored _ i hi).1.2
      change p.currentRoundNum + 1 ≤ p.currentRoundNum at this
      omega
    have hv0 : (p.roundToRandom (p.currentRoundNum + 1)).value = 0 := by
      have : p.roundToRandom (p.currentRoundNum + 1) = .empty := hro.future _ (Nat.lt_succ_self _)
      rw [this]; rfl
    unfold workO
    dsimp only
    rw [hp]
    dsimp only
    rw [hc0, if_pos hv0, if_neg (Nat.succ_ne_zero _)]
    by_cases h0 : p.currentRoundNum = 0
    · rw [if_pos h0, h0]; omega
    · rw [if_neg h0, if_neg (hd.resolve_left h0)]
      obtain ⟨k, hk⟩ := Nat.exists_eq_succ_of_ne_zero h0
      rw [hk]
      simp only [Nat.succ_eq_add_one, Nat.add_sub_cancel]
      have : (k + 1) * (n + 2) = k * (n + 2) + (n + 2) := by ring
      omega
  | submitRandom rnd =>
    obtain ⟨_, _, h1, h2, _, z6, rfl⟩ := submitRandom_some.1 he
    have hne : ¬ (Function.update p.roundToRandom p.currentRoundNum rnd
        p.currentRoundNum).value = 0 := by rw [Function.update_self, z6]; exact hK _
    have hle := h.count_le p.currentRoundNum
    have h0 : p.currentRoundNum ≠ 0 := by
      intro h0
      have hev := Zkdvrf.evalInv hz
      have hc0 : p.roundSubmissionCount 0 = 0 := by
        refine (hev.count _).trans ?_
        rw [Finset.card_eq_zero, Finset.filter_eq_empty_iff]
        intro i _ hi
        have := (hev.stored _ i hi).1.1
        omega
      rw [h0, hc0] at h2
      have := h.ht
      omega
    have hp : p.contractPhase = .Ready := h.ready (Nat.pos_of_ne_zero h0)
    unfold workO
    dsimp only
    rw [hp]
    dsimp only
    rw [if_neg h0, if_neg h0, if_pos h1, if_neg hne]
    omega
  | _ => exact hs.elim

theorem work_admin (h : Core M o ws t n p ad nd) (hK : ∀ b, M.env.keccak b ≠ 0) {a : Address}
    {c : Zkdvrf.Call} (hs : AdminSent M t n p ad c)
    (he : exec M.env p ⟨a, 0⟩ c = some p') : workO n p < workO n p' :=
  work_admin_any h hK (land_admin h hs).1 he

theorem Core.work_le (h : Core M o ws t n p ad nd) {K : ℕ} (hc : p.currentRoundNum ≤ K) :
    workO n p ≤ 2 * n + 2 + K * (n + 2) := by
  obtain ⟨hx, o1, o2, hz⟩ := sim h.reach h.ht
  have hpk := (C31_pre_registration M.env h.reach h.ht).2.2.2.2.1
  rw [h.cnt] at hpk
  have hcnt := h.cnt
  have h1 : p.ppList.length = p.ppSubmissionCount := (Zkdvrf.dkgInv hz).ppLen
  have hcl := h.count_le p.currentRoundNum
  have ht := h.t_pos
  have htn := h.t_le
  unfold workO
  cases hp : p.contractPhase with
  | Unregistered => dsimp only; omega
  | Registered => dsimp only; omega
  | Nidkg =>
    dsimp only
    have h2 : p.ppSubmissionCount < p.memberCount ∨ p.memberCount = 0 :=
      (Zkdvrf.dkgInv hz).nidkg (toZk_nidkg.2 hp)
    omega
  | NidkgComplete => dsimp only; omega
  | Ready =>
    dsimp only
    by_cases h0 : p.currentRoundNum = 0
    · rw [if_pos h0]; omega
    · rw [if_neg h0]
      obtain ⟨k, hk⟩ := Nat.exists_eq_succ_of_ne_zero h0
      have h3 : p.currentRoundNum * (n + 2) ≤ K * (n + 2) := Nat.mul_le_mul_right _ hc
      rw [hk] at h3 hcl ⊢
      simp only [Nat.succ_eq_add_one, Nat.add_sub_cancel] at h3 hcl ⊢
      have h4 : (k + 1) * (n + 2) = k * (n + 2) + (n + 2) := by ring
      split <;> omega

/-- The members that submitted for round `K` or later number at least its submissions. -/
theorem Core.active (h : Core M o ws t n p ad nd) {k : ℕ} :
    ∃ l : List Address, l.Nodup ∧ l ⊆ ws ∧ l.length = p.roundSubmissionCount k ∧
      ∀ a ∈ l, k ≤ p.lastSubmittedRound a ∧ Submitted p k (indexOf p a) := by
  obtain ⟨hx, o1, o2, hz⟩ := sim h.reach h.ht
  have hev := Zkdvrf.evalInv hz
  have hreg := Zkdvrf.regInv hz
  have hst : ∀ i, Submitted p k i → i < p.registeredCount ∧ k ≤ p.lastSubmittedRound (p.nodes i) :=
    fun i hi => ⟨(hev.stored k i hi).2.1, (hev.stored k i hi).2.2.2.2.1⟩
  have hrn : ∀ i, i < p.registeredCount → Registered p (p.nodes i) ∧ indexOf p (p.nodes i) = i := hreg.reg_node
  let S := (Finset.range p.memberCount).filter (fun i => (p.roundToEval k i).indexPlus ≠ 0)
  have hS : ∀ i ∈ S, Submitted p k i := fun i hi => (Finset.mem_filter.1 hi).2
  refine ⟨S.toList.map p.nodes, ?_, ?_, ?_, ?_⟩
  · refine List.Nodup.map_on ?_ S.nodup_toList
    intro i hi j hj hij
    have h1 := (hrn i (hst i (hS i (Finset.mem_toList.1 hi))).1).2
    have h2 := (hrn j (hst j (hS j (Finset.mem_toList.1 hj))).1).2
    rw [hij] at h1
    exact h1.symm.trans h2
  · intro a ha
    obtain ⟨i, hi, rfl⟩ := List.mem_map.1 ha
    have h1 := (hrn i (hst i (hS i (Finset.mem_toList.1 hi))).1).1
    exact (h.added _).1 ((C31_pre_registration M.env h.reach h.ht).1 _ h1)
  · rw [List.length_map, Finset.length_toList]
    exact (hev.count k).symm
  · intro a ha
    obtain ⟨i, hi, rfl⟩ := List.mem_map.1 ha
    have hi := hS i (Finset.mem_toList.1 hi)
    have h1 := hrn i (hst i hi).1
    exact ⟨(hst i hi).2, by rw [h1.2]; exact hi⟩

/-- Members that missed no complete round. -/
theorem Core.uptodate (h : Core M o ws t n p ad nd) :
    ∃ l : List Address, l.Nodup ∧ l ⊆ ws ∧ t ≤ l.length ∧
      ∀ a ∈ l, ∀ k, Completed p k → k ≤ p.lastSubmittedRound a := by
  by_cases hc : ∃ k, Completed p k
  · have hall : ∀ k, Completed p k → k ≤ p.currentRoundNum := fun k hk =>
      (C37_pre_quorum M.env h.reach h.ht k hk).2.1
    -- the last complete round
    obtain ⟨K, hK, hmax⟩ : ∃ K, Completed p K ∧ ∀ k, Completed p k → k ≤ K := by
      classical
      have hb : ∀ k, Completed p k → k ≤ p.currentRoundNum := hall
      obtain ⟨k, hk⟩ := hc
      exact ⟨Nat.findGreatest (Completed p) p.currentRoundNum,
        Nat.findGreatest_spec (hb k hk) hk, fun j hj => Nat.le_findGreatest (hb j hj) hj⟩
    obtain ⟨l, l1, l2, l3, l4⟩ := h.active (k := K)
    refine ⟨l, l1, l2, ?_, fun a ha k hk => (hmax k hk).trans (l4 a ha).1⟩
    rw [l3, ← h.thr]
    exact (quorum h.reach h.ht K hK).2
  · exact ⟨ws, h.nodup, List.Subset.refl _, by rw [h.len]; exact h.t_le, fun a _ k hk => absurd ⟨k, hk⟩ hc⟩

end

theorem _root_.Verif.Services.Overlapping.trans {M : Machine} {o : Address} {ws : List Address} {t n : ℕ} {aux1 : G1} {aux2 : G2}
    {w w' w'' : Overlap} (h : Overlapping M o ws t n aux1 aux2 w w')
    (h' : Overlapping M o ws t n aux1 aux2 w' w'') : Overlapping M o ws t n aux1 aux2 w w'' := by
  induction h' with
  | refl => exact h
  | look a ha _ ih => exact .look a ha ih
  | fetch a d ha hd _ ih => exact .fetch a d ha hd ih
  | land a ha hl _ ih => exact .land a ha hl ih
  | adminLook b _ ih => exact .adminLook b ih
  | adminTick b e he _ ih => exact .adminTick b e he ih
  | adminFetch _ ih => exact .adminFetch ih
  | adminLand _ ih => exact .adminLand ih

section
variable {M : Machine} {o : Address} {ws : List Address} {t n : ℕ} {aux1 : G1} {aux2 : G2} {w : Overlap}

/-- The services can go on to a world further on. -/
def Onward (M : Machine) (o : Address) (ws : List Address) (t n : ℕ) (aux1 : G1) (aux2 : G2) (w : Overlap) : Prop :=
  ∃ w', Overlapping M o ws t n aux1 aux2 w w' ∧ workO n w.p < workO n w'.p

theorem Onward.after {w' : Overlap} (h : Overlapping M o ws t n aux1 aux2 w w') (hp : w'.p = w.p)
    (h' : Onward M o ws t n aux1 aux2 w') : Onward M o ws t n aux1 aux2 w := by
  obtain ⟨w2, h1, h2⟩ := h'
  exact ⟨w2, Overlapping.trans h h1, by rw [← hp]; exact h2⟩

/-- A transaction on its way that is not an evaluation for a complete round. -/
theorem onward_sent (h : OInv M o ws t n w) {a : Address} (ha : a ∈ ws) {c : Zkdvrf.Call} {k : ℕ}
    (hs : w.nodeAt a = .sent c k) (hk : (∃ e, c = .submitPartialEval e) → ¬ Completed w.p k) :
    Onward M o ws t n aux1 aux2 w := by
  obtain ⟨hc, ho⟩ := h.outcome ha hs
  rcases ho with ⟨p', he⟩ | ⟨h1, h2, _⟩
  · have hl : ∀ c' k', w.nodeAt a = .sent c' k' → NoLuck M w.p a k' c' := by
      intro c' k' hs' e he' hne
      rw [hs] at hs'
      cases hs'
      exfalso
      have hn := h.nodes a ha
      rw [hs, he'] at hn
      exact hk ⟨e, he'⟩ ((C34_pre_rounds M.env h.core.reach h.core.ht).1 k hn.1
        (lt_of_le_of_ne hn.2.1 hne))
    refine ⟨_, .land a ha hl .refl, ?_⟩
    unfold Overlap.land
    rw [hs]
    dsimp only
    rw [he]
    exact work_node h.core hc he
  · exact absurd h2 (hk h1)

theorem onward_decided (hM : Faithful M t n aux1 aux2) (d : Draw) (hd : GoodDraw t n aux1 aux2 d)
    (h : OInv M o ws t n w) {a : Address} (ha : a ∈ ws) {j : Job} (hs : w.nodeAt a = .decided j)
    (hk : ¬ Completed w.p w.p.currentRoundNum) :
    Onward M o ws t n aux1 aux2 w := by
  have hn := h.nodes a ha
  rw [hs] at hn
  obtain ⟨f, c, h1, h2, h3⟩ := h.core.run hM ha hn d hd
  have e : w.fetch M a d = { w with
      node := Function.update w.node a f
      nodeAt := Function.update w.nodeAt a (.sent c w.p.currentRoundNum) } := by
    unfold Overlap.fetch
    rw [hs]
    dsimp only
    rw [h1]
  have hi := h.fetch hM ha d hd
  have hp : (w.fetch M a d).p = w.p := by rw [e]
  have hs' : (w.fetch M a d).nodeAt a = .sent c w.p.currentRoundNum := by
    rw [e]
    exact Function.update_self _ _ _
  exact Onward.after (.fetch a d ha hd .refl) hp
    (onward_sent hi ha hs' (fun _ => by rw [hp]; exact hk))

theorem onward_free (hM : Faithful M t n aux1 aux2) (d : Draw) (hd : GoodDraw t n aux1 aux2 d)
    (h : OInv M o ws t n w) {a : Address} (ha : a ∈ ws) {j : Job} (hs : w.nodeAt a = .free)
    (hj : nodeLook w.p a = some j) (hk : ¬ Completed w.p w.p.currentRoundNum) :
    Onward M o ws t n aux1 aux2 w := by
  have e : w.look a = { w with nodeAt := Function.update w.nodeAt a (.decided j) } := by
    unfold Overlap.look
    rw [hs]
    dsimp only
    rw [hj]
  have hp : (w.look a).p = w.p := by rw [e]
  have hs' : (w.look a).nodeAt a = .decided j := by
    rw [e]
    exact Function.update_self _ _ _
  exact Onward.after (.look a ha .refl) hp (onward_decided hM d hd (h.look ha) ha hs' (by rw [hp]; exact hk))

theorem onward_admin_sent (hM : Faithful M t n aux1 aux2) (h : OInv M o ws t n w)
    (hb : w.p.currentRoundNum + 1 < 2 ^ 256) {c : Zkdvrf.Call} {k : ℕ} (hs : w.adminAt = .sent c k) :
    Onward M o ws t n aux1 aux2 w := by
  have hn := h.admin
  rw [hs] at hn
  obtain ⟨hc, h1, h2⟩ := land_admin h.core hn
  obtain ⟨p', he⟩ := h1 (Or.inl hb)
  refine ⟨_, .adminLand .refl, ?_⟩
  unfold Overlap.adminLand
  rw [hs]
  dsimp only
  rw [he]
  exact work_admin h.core hM.hash hn he

theorem onward_admin_decided (hM : Faithful M t n aux1 aux2) (h : OInv M o ws t n w)
    (hb : w.p.currentRoundNum + 1 < 2 ^ 256) {j : AdminJob} (hs : w.adminAt = .decided j) :
    Onward M o ws t n aux1 aux2 w := by
  have hn := h.admin
  rw [hs] at hn
  obtain ⟨f, c, h1, h2, h3⟩ := h.core.adminRun hM hn
  have e : w.adminFetch M = { w with admin := f, adminAt := .sent c w.p.currentRoundNum } := by
    unfold Overlap.adminFetch
    rw [hs]
    dsimp only
    rw [h1]
  have hp : (w.adminFetch M).p = w.p := by rw [e]
  exact Onward.after (.adminFetch .refl) hp
    (onward_admin_sent (k := w.p.currentRoundNum) (c := c) hM (h.adminFetch hM) (by rw [hp]; exact hb) (by rw [e]))

/-- The admin goes on when it is in a pass, or finds something to do. -/
theorem onward_admin (hM : Faithful M t n aux1 aux2) (h : OInv M o ws t n w)
    (hb : w.p.currentRoundNum + 1 < 2 ^ 256)
    (hj : (∃ j, adminLook w.p true = some j) ∨
      Completed w.p w.p.currentRoundNum ∧ ∃ j, adminTickLook w.p true true = some j) :
    Onward M o ws t n aux1 aux2 w := by
  cases hs : w.adminAt with
  | stopped =>
    have hn := h.admin
    rw [hs] at hn
    exact absurd hb (not_lt.2 hn)
  | sent c k => exact onward_admin_sent hM h hb hs
  | decided j => exact onward_admin_decided hM h hb hs
  | free =>
    rcases hj with ⟨j, hj⟩ | ⟨hc, j, hj⟩
    · have e : w.adminDecide (adminLook w.p true) = { w with adminAt := .decided j } := by
        unfold Overlap.adminDecide
        rw [hs, hj]
      have hp : (w.adminDecide (adminLook w.p true)).p = w.p := by rw [e]
      exact Onward.after (.adminLook true .refl) hp (onward_admin_decided (j := j) hM
        (h.decide (fun i hi => adminLook_ok hi)) (by rw [hp]; exact hb) (by rw [e]))
    · have e : w.adminDecide (adminTickLook w.p true true) = { w with adminAt := .decided j } := by
        unfold Overlap.adminDecide
        rw [hs, hj]
      have hp : (w.adminDecide (adminTickLook w.p true true)).p = w.p := by rw [e]
      exact Onward.after (.adminTick true true (fun _ => hc) .refl) hp (onward_admin_decided (j := j) hM
        (h.decide (fun i hi => tickLook_ok (fun _ => hc) hi)) (by rw [hp]; exact hb) (by rw [e]))

/-- Before phase `Ready` nothing is complete. -/
theorem not_completed {p : State} {ad : Files} {nd : Address → Files} (h : Core M o ws t n p ad nd)
    (hp : p.contractPhase ≠ .Ready) (k : ℕ) : ¬ Completed p k :=
  fun hc => hp (C37_pre_quorum M.env h.reach h.ht k hc).2.2.1

theorem onward (hM : Faithful M t n aux1 aux2) (d : Draw) (hd : GoodDraw t n aux1 aux2 d)
    (h : OInv M o ws t n w) {K : ℕ} (hK1 : 1 ≤ K) (hK9 : K ≤ 9) (hK : ¬ Completed w.p K) :
    Onward M o ws t n aux1 aux2 w := by
  have hc := h.core
  obtain ⟨hx, o1, o2, hz⟩ := sim hc.reach hc.ht
  obtain ⟨c1, c2, c3, c4, c5, _, c7⟩ := C31_pre_registration M.env hc.reach hc.ht
  have hcnt := hc.cnt
  have hthr := hc.thr
  have hlen := hc.len
  have hcur : w.p.currentRoundNum ≤ 9 := by
    by_contra hgt
    exact hK ((C34_pre_rounds M.env hc.reach hc.ht).1 K hK1 (by omega))
  have hb : w.p.currentRoundNum + 1 < 2 ^ 256 :=
    lt_of_le_of_lt (Nat.add_le_add_right hcur 1) (by decide +kernel)
  -- a node that is in a pass, or finds something to do
  have hnode : ∀ a ∈ ws, ¬ Completed w.p w.p.currentRoundNum →
      (∃ j, nodeLook w.p a = some j) →
      (∀ k, Completed w.p k → k ≤ w.p.lastSubmittedRound a) → Onward M o ws t n aux1 aux2 w := by
    intro a ha hk hj hu
    cases hs : w.nodeAt a with
    | free => obtain ⟨j, hj⟩ := hj; exact onward_free hM d hd h ha hs hj hk
    | decided j => exact onward_decided hM d hd h ha hs hk
    | stopped =>
      have hn := h.nodes a ha
      rw [hs] at hn
      obtain ⟨k, h1, h2⟩ := hn
      exact absurd (hu k h1) (not_le.2 h2)
    | sent c k =>
      refine onward_sent h ha hs ?_
      rintro ⟨e, rfl⟩ hck
      have hn := h.nodes a ha
      rw [hs] at hn
      exact absurd (hu k hck) (not_le.2 hn.2.2.1)
  cases hp : w.p.contractPhase with
  | Unregistered =>
    have hnc := not_completed hc (by rw [hp]; exact Phase.noConfusion)
    have hlt : w.p.pkList.length < n := by
      have h1 : w.p.pkList.length = w.p.registeredCount := (Zkdvrf.regInv hz).pkLen
      have h2 := hx.unreg hp
      have := hc.t_pos
      have := hc.t_le
      omega
    have hex : ∃ a ∈ ws, (w.p.addrToNode a).status = false := by
      by_contra hall
      have hall : ∀ a ∈ ws, Registered w.p a := by
        intro a ha
        by_contra hc
        refine hall ⟨a, ha, ?_⟩
        unfold Registered at hc
        cases hs : (w.p.addrToNode a).status with
        | true => exact absurd hs hc
        | false => rfl
      have h1 : (ws.map (indexOf w.p)).Nodup :=
        List.Nodup.map_on (fun a ha b hb hab => c3 a b (hall a ha) (hall b hb) hab) hc.nodup
      have h2 : (ws.map (indexOf w.p)) ⊆ List.range w.p.pkList.length := by
        intro i hi'
        obtain ⟨a, ha, rfl⟩ := List.mem_map.1 hi'
        exact List.mem_range.2 (c2 a (hall a ha))
      have h3 := (List.Nodup.subperm h1 h2).length_le
      rw [List.length_map, List.length_range] at h3
      omega
    obtain ⟨a, ha, hst⟩ := hex
    refine hnode a ha (hnc _) ⟨.register, ?_⟩ (fun k hk => absurd hk (hnc k))
    unfold nodeLook
    dsimp only
    rw [if_pos (hc.self ha).1, hp, hst]
    rfl
  | Registered =>
    refine onward_admin hM h hb (Or.inl ⟨.start, ?_⟩)
    unfold adminLook
    rw [hp]
  | Nidkg =>
    have hnc := not_completed hc (by rw [hp]; exact Phase.noConfusion)
    have hdk := Zkdvrf.dkgInv hz
    have hex : ∃ a ∈ ws, (w.p.addrToNode a).statusPP = false := by
      by_contra hall
      have hsub : ws ⊆ o2 := by
        intro a ha
        refine (hdk.ppMem a).2 ?_
        change (w.p.addrToNode a).statusPP = true
        cases hs : (w.p.addrToNode a).statusPP with
        | true => rfl
        | false => exact absurd ⟨a, ha, hs⟩ hall
      have h3 := (List.Nodup.subperm hc.nodup hsub).length_le
      have h4 : o2.length = w.p.ppSubmissionCount := hdk.ordLen
      have h5 : w.p.ppSubmissionCount < w.p.memberCount ∨ w.p.memberCount = 0 :=
        hdk.nidkg (toZk_nidkg.2 hp)
      have := hc.t_pos
      have := hc.t_le
      omega
    obtain ⟨a, ha, hst⟩ := hex
    refine hnode a ha (hnc _) ⟨.deal, ?_⟩ (fun k hk => absurd hk (hnc k))
    unfold nodeLook
    dsimp only
    rw [if_pos (hc.self ha).1, hp, hst]
    rfl
  | NidkgComplete =>
    refine onward_admin hM h hb (Or.inl ⟨.gpp, ?_⟩)
    unfold adminLook
    rw [hp]
  | Ready =>
    by_cases hc0 : w.p.currentRoundNum = 0
    · refine onward_admin hM h hb (Or.inl ⟨.open, ?_⟩)
      unfold adminLook
      rw [hp]
      dsimp only
      rw [if_neg (by decide), if_pos hc0]
    · by_cases hv : (w.p.roundToRandom w.p.currentRoundNum).value = 0
      · by_cases hq : w.p.threshold ≤ w.p.roundSubmissionCount w.p.currentRoundNum
        · refine onward_admin hM h hb (Or.inl ⟨.random w.p.currentRoundNum, ?_⟩)
          unfold adminLook
          rw [hp]
          dsimp only
          rw [if_neg (by decide), if_neg hc0, if_pos ⟨hv, hq⟩]
        · have hqlt : w.p.roundSubmissionCount w.p.currentRoundNum < w.p.threshold := by omega
          have hev := Zkdvrf.evalInv hz
          obtain ⟨l, l1, l2, l3, l4⟩ := hc.uptodate
          -- one of the members that missed nothing has not submitted yet
          have hex : ∃ a ∈ l, w.p.lastSubmittedRound a < w.p.currentRoundNum := by
            by_contra hall
            have hla : ∀ a ∈ l, w.p.lastSubmittedRound a = w.p.currentRoundNum := by
              intro a ha
              have h1 : w.p.lastSubmittedRound a ≤ w.p.currentRoundNum := hev.last_le a
              by_contra hne
              exact hall ⟨a, ha, by omega⟩
            have hreg : ∀ a ∈ l, Registered w.p a := fun a ha =>
              hc.registered (l2 ha) (by rw [hp]; exact Phase.noConfusion)
            have h1 : (l.map (indexOf w.p)).Nodup :=
              List.Nodup.map_on (fun a ha b hb hab => c3 a b (hreg a ha) (hreg b hb) hab) l1
            have h2 : (l.map (indexOf w.p)).toFinset ⊆ (Finset.range w.p.memberCount).filter
                (fun i => (w.p.roundToEval w.p.currentRoundNum i).indexPlus ≠ 0) := by
              intro i hi
              obtain ⟨a, ha, rfl⟩ := List.mem_map.1 (List.mem_toFinset.1 hi)
              have h3 := hla a ha
              have h4 := (hev.last_stored a (by change 0 < w.p.lastSubmittedRound a; omega)).2
              change (w.p.roundToEval (w.p.lastSubmittedRound a) (indexOf w.p a)).indexPlus ≠ 0 at h4
              rw [h3] at h4
              refine Finset.mem_filter.2 ⟨Finset.mem_range.2 ?_, h4⟩
              exact lt_of_lt_of_le (c2 a (hreg a ha)) c5
            have h3 := Finset.card_le_card h2
            rw [List.toFinset_card_of_nodup h1, List.length_map] at h3
            have h4 : w.p.roundSubmissionCount w.p.currentRoundNum = _ := hev.count w.p.currentRoundNum
            have h5 : l.length ≤ w.p.roundSubmissionCount w.p.currentRoundNum := by
              rw [h4]; exact h3
            omega
          obtain ⟨a, ha, hl⟩ := hex
          have hj : jsGreater w.p.currentRoundNum (w.p.lastSubmittedRound a) = true :=
            (C56_comparison_below_ten _ _ hcur (by omega)).2 hl
          refine hnode a (l2 ha) (fun hh => hh hv) ⟨.eval (decide (w.p.lastSubmittedRound a = 0)), ?_⟩ (l4 a ha)
          unfold nodeLook
          dsimp only
          rw [if_pos (hc.self (l2 ha)).1, hp]
          dsimp only
          rw [hj, if_pos (by rw [Bool.true_and]; exact decide_eq_true hqlt)]
      · refine onward_admin hM h hb (Or.inr ⟨hv, .open, ?_⟩)
        unfold adminTickLook
        rw [hp]
        dsimp only
        rw [if_pos (by rw [Bool.true_and, Bool.and_true]; exact decide_eq_true hc0)]

end
end Verif.Overlap
