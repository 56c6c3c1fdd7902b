import Verif.Lemmas.OverlapLive
namespace Verif.Overlap
open Verif.Services
open Verif.ZkdvrfPre
open Verif.Props

/-! Every schedule makes progress: a measure that grows with every step that changes something. -/

/-- How far a pass has come; a service that has stopped is furthest. -/
def stageRank {J : Type} : Stage J → ℕ
  | .free => 0
  | .decided _ => 1
  | .sent _ _ => 2
  | .stopped => 3

theorem stageRank_le {J : Type} (s : Stage J) : stageRank s ≤ 3 := by
  cases s <;> unfold stageRank <;> dsimp only <;> omega

noncomputable def measureO (ws : List Address) (n : ℕ) (w : Overlap) : ℕ :=
  3 * workO n w.p + ws.toFinset.sum (fun a => stageRank (w.nodeAt a)) + stageRank w.adminAt

theorem sum_rank {ws : List Address} {a : Address} (ha : a ∈ ws) (f : Address → Stage Job) (s : Stage Job) :
    ws.toFinset.sum (fun b => stageRank (Function.update f a s b)) + stageRank (f a) =
      ws.toFinset.sum (fun b => stageRank (f b)) + stageRank s := by
  have hm : a ∈ ws.toFinset := List.mem_toFinset.2 ha
  rw [← Finset.add_sum_erase _ _ hm, ← Finset.add_sum_erase _ (fun b => stageRank (f b)) hm,
    Function.update_self]
  have : (ws.toFinset.erase a).sum (fun b => stageRank (Function.update f a s b)) =
      (ws.toFinset.erase a).sum (fun b => stageRank (f b)) := by
    refine Finset.sum_congr rfl fun b hb => ?_
    rw [Function.update_of_ne (Finset.ne_of_mem_erase hb)]
  rw [this]
  omega

section
variable {M : Machine} {o : Address} {ws : List Address} {t n : ℕ} {aux1 : G1} {aux2 : G2} {w w' : Overlap}

theorem OInv.measure_le (h : OInv M o ws t n w) {K : ℕ} (hc : w.p.currentRoundNum ≤ K) :
    measureO ws n w ≤ 3 * (2 * n + 2 + K * (n + 2)) + 3 * n + 3 := by
  have h1 := h.core.work_le hc
  have h2 : ws.toFinset.sum (fun a => stageRank (w.nodeAt a)) ≤ n * 3 := by
    refine (Finset.sum_le_card_nsmul _ _ 3 (fun a _ => stageRank_le _)).trans ?_
    rw [smul_eq_mul, List.toFinset_card_of_nodup h.core.nodup, h.core.len]
  have h3 := stageRank_le w.adminAt
  unfold measureO
  omega

theorem measure_node {ws : List Address} {a : Address} (ha : a ∈ ws) {w w' : Overlap} {s : Stage Job}
    (hn : w'.nodeAt = Function.update w.nodeAt a s) (hadm : w'.adminAt = w.adminAt)
    (hw : 3 * workO n w.p + stageRank (w.nodeAt a) < 3 * workO n w'.p + stageRank s) :
    measureO ws n w < measureO ws n w' := by
  have := sum_rank ha w.nodeAt s
  unfold measureO
  rw [hn, hadm]
  omega

theorem measure_adm {w w' : Overlap} (hn : w'.nodeAt = w.nodeAt)
    (hw : 3 * workO n w.p + stageRank w.adminAt < 3 * workO n w'.p + stageRank w'.adminAt) :
    measureO ws n w < measureO ws n w' := by
  unfold measureO
  rw [hn]
  omega

/-- A step that changes something increases the measure. -/
theorem step_measure (hM : Faithful M t n aux1 aux2) (h : OInv M o ws t n w)
    (hs : OverlapStep M o ws t n aux1 aux2 w w') (hne : w' ≠ w) : measureO ws n w < measureO ws n w' := by
  cases hs with
  | look a ha =>
    unfold Overlap.look at hne ⊢
    split
    · rename_i hf
      rw [hf] at hne
      dsimp only at hne
      split
      · rename_i hj
        rw [hj] at hne
        exact absurd rfl hne
      · refine measure_node ha rfl rfl ?_
        rw [hf]
        unfold stageRank
        dsimp only
        omega
    · rename_i hf
      refine absurd ?_ hne
      split
      · rename_i hf'; exact absurd hf' hf
      · rfl
  | fetch a d ha hd =>
    unfold Overlap.fetch at hne ⊢
    split
    · rename_i j hj
      have hn := h.nodes a ha
      rw [hj] at hn
      obtain ⟨f, c, h1, _⟩ := h.core.run hM ha hn d hd
      rw [h1]
      refine measure_node ha rfl rfl ?_
      rw [hj]
      unfold stageRank
      dsimp only
      omega
    · rename_i hf
      refine absurd ?_ hne
      split
      · rename_i j hj; exact absurd hj (hf j)
      · rfl
  | land a ha hl =>
    unfold Overlap.land at hne ⊢
    split
    · rename_i c k hk
      have hc := (h.outcome ha hk).1
      split
      · refine measure_node ha rfl rfl ?_
        rw [hk]
        unfold stageRank
        dsimp only
        omega
      · rename_i p' he
        have := work_node h.core hc he
        refine measure_node ha rfl rfl ?_
        rw [hk]
        unfold stageRank
        dsimp only
        omega
    · rename_i hf
      refine absurd ?_ hne
      split
      · rename_i c k hk; exact absurd hk (hf c k)
      · rfl
  | adminLook begun => exact decide_measure hne
  | adminTick begun elapsed he => exact decide_measure hne
  | adminFetch =>
    unfold Overlap.adminFetch at hne ⊢
    split
    · rename_i j hj
      have hn := h.admin
      rw [hj] at hn
      obtain ⟨f, c, h1, _⟩ := h.core.adminRun hM hn
      rw [h1]
      refine measure_adm rfl ?_
      dsimp only
      rw [hj]
      unfold stageRank
      dsimp only
      omega
    · rename_i hf
      refine absurd ?_ hne
      split
      · rename_i j hj; exact absurd hj (hf j)
      · rfl
  | adminLand =>
    unfold Overlap.adminLand at hne ⊢
    split
    · rename_i c k hk
      have hn := h.admin
      rw [hk] at hn
      split
      · refine measure_adm rfl ?_
        dsimp only
        rw [hk]
        unfold stageRank
        dsimp only
        omega
      · rename_i p' he
        have := work_admin h.core hM.hash hn he
        refine measure_adm rfl ?_
        dsimp only
        rw [hk]
        unfold stageRank
        dsimp only
        omega
    · rename_i hf
      refine absurd ?_ hne
      split
      · rename_i c k hk; exact absurd hk (hf c k)
      · rfl
where
  decide_measure {w : Overlap} {j : Option AdminJob} (hne : w.adminDecide j ≠ w) :
      measureO ws n w < measureO ws n (w.adminDecide j) := by
    unfold Overlap.adminDecide at hne ⊢
    split
    · rename_i hf
      refine measure_adm rfl ?_
      dsimp only
      rw [hf]
      unfold stageRank
      dsimp only
      omega
    · rename_i hf
      refine absurd ?_ hne
      split
      · rename_i hf' ; exact (hf _ hf' rfl).elim
      · rfl

theorem overlapping_step (hs : OverlapStep M o ws t n aux1 aux2 w w') : Overlapping M o ws t n aux1 aux2 w w' := by
  cases hs with
  | look a ha => exact .look a ha .refl
  | fetch a d ha hd => exact .fetch a d ha hd .refl
  | land a ha hl => exact .land a ha hl .refl
  | adminLook b => exact .adminLook b .refl
  | adminTick b e he => exact .adminTick b e he .refl
  | adminFetch => exact .adminFetch .refl
  | adminLand => exact .adminLand .refl

theorem overlapping_iff : Overlapping M o ws t n aux1 aux2 w w' ↔
    Relation.ReflTransGen (OverlapStep M o ws t n aux1 aux2) w w' := by
  constructor
  · intro h
    induction h with
    | refl => exact .refl
    | look a ha _ ih => exact ih.tail (.look a ha)
    | fetch a d ha hd _ ih => exact ih.tail (.fetch a d ha hd)
    | land a ha hl _ ih => exact ih.tail (.land a ha hl)
    | adminLook b _ ih => exact ih.tail (.adminLook b)
    | adminTick b e he _ ih => exact ih.tail (.adminTick b e he)
    | adminFetch _ ih => exact ih.tail .adminFetch
    | adminLand _ ih => exact ih.tail .adminLand
  · intro h
    induction h with
    | refl => exact .refl
    | tail _ hs ih => exact ih.trans (overlapping_step hs)

end
end Verif.Overlap
