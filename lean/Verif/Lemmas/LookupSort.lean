import Mathlib.Data.List.Perm.Subperm
import Mathlib.Data.List.Dedup
import Mathlib.Data.List.Count

/-! Sorting the columns of a lookup argument. -/

namespace Verif
variable {α : Type*}

/-- In every row, the first component equals the second one, or the first one of the row before. -/
def GoodRows (Z : List (α × α)) : Prop :=
  ∀ i (h : i < Z.length), Z[i].1 = Z[i].2 ∨ ∃ j, ∃ h' : j + 1 = i, Z[i].1 = (Z[j]'(by omega)).1

theorem GoodRows.nil : GoodRows ([] : List (α × α)) := fun i h => absurd h (Nat.not_lt_zero i)

theorem GoodRows.append {Z Z' : List (α × α)} (h : GoodRows Z) (h' : GoodRows Z') : GoodRows (Z ++ Z') := by
  intro i hi
  rcases Nat.lt_or_ge i Z.length with h1 | h1
  · rw [List.getElem_append_left h1]
    rcases h i h1 with h2 | ⟨j, hj, h2⟩
    · exact Or.inl h2
    · refine Or.inr ⟨j, hj, ?_⟩
      rw [List.getElem_append_left (by omega)]
      exact h2
  · rw [List.length_append] at hi
    rw [List.getElem_append_right h1]
    rcases h' (i - Z.length) (by omega) with h2 | ⟨j, hj, h2⟩
    · exact Or.inl h2
    · refine Or.inr ⟨Z.length + j, by omega, ?_⟩
      rw [List.getElem_append_right (by omega)]
      simp only [Nat.add_sub_cancel_left]
      exact h2

theorem GoodRows.block (a : α) (l : List α) : GoodRows ((a, a) :: l.map fun b => (a, b)) := by
  have key : ∀ i (h : i < ((a, a) :: l.map fun b => (a, b)).length), (((a, a) :: l.map fun b => (a, b))[i]).1 = a := by
    intro i h
    rcases i with _ | i
    · rfl
    · simp only [List.getElem_cons_succ, List.getElem_map]
  intro i h
  rcases i with _ | i
  · exact Or.inl rfl
  · exact Or.inr ⟨i, rfl, by rw [key, key]⟩

/-- Blocks of equal values, each beginning with the value itself in the second column. -/
theorem blocks (c : α → ℕ) : ∀ (D L : List α), (∀ a ∈ D, 1 ≤ c a) →
    L.length + D.length = (D.flatMap fun a => List.replicate (c a) a).length →
    ∃ Z : List (α × α), GoodRows Z ∧ Z.map Prod.fst = (D.flatMap fun a => List.replicate (c a) a) ∧
      (Z.map Prod.snd).Perm (D ++ L)
  | [], L, _, h => by
    have hL : L = [] := by
      simp only [List.flatMap_nil, List.length_nil, Nat.add_zero] at h
      exact List.eq_nil_of_length_eq_zero h
    subst hL
    exact ⟨[], GoodRows.nil, rfl, List.Perm.refl _⟩
  | a :: D, L, hc, h => by
    have hca := hc a (List.mem_cons_self ..)
    have hle : ∀ D : List α, (∀ a ∈ D, 1 ≤ c a) → D.length ≤ (D.flatMap fun a => List.replicate (c a) a).length := by
      intro D
      induction D with
      | nil => intro _; exact Nat.zero_le _
      | cons b D ih =>
        intro hD
        have h1 := ih fun a ha => hD a (List.mem_cons_of_mem _ ha)
        have h2 := hD b (List.mem_cons_self ..)
        simp only [List.flatMap_cons, List.length_append, List.length_replicate, List.length_cons]
        omega
    have h1 := hle D fun a ha => hc a (List.mem_cons_of_mem _ ha)
    simp only [List.flatMap_cons, List.length_append, List.length_replicate, List.length_cons] at h
    obtain ⟨Z, hZ, hf, hs⟩ := blocks c D (L.drop (c a - 1)) (fun a ha => hc a (List.mem_cons_of_mem _ ha))
      (by rw [List.length_drop]; omega)
    refine ⟨((a, a) :: (L.take (c a - 1)).map fun b => (a, b)) ++ Z, (GoodRows.block a _).append hZ, ?_, ?_⟩
    · rw [List.map_append, hf, List.flatMap_cons]
      congr 1
      rw [List.eq_replicate_iff]
      refine ⟨?_, ?_⟩
      · simp only [List.length_map, List.length_cons, List.length_take]
        omega
      · intro b hb
        simp only [List.map_cons, List.map_map, List.mem_cons, List.mem_map, Function.comp] at hb
        rcases hb with rfl | ⟨_, _, rfl⟩ <;> rfl
    · rw [List.map_append, List.map_cons, List.map_map]
      have e1 : (Prod.snd ∘ fun b : α => (a, b)) = id := rfl
      rw [e1, List.map_id]
      simp only [List.cons_append]
      refine List.Perm.cons _ ?_
      calc L.take (c a - 1) ++ Z.map Prod.snd
          _ |>.Perm (L.take (c a - 1) ++ (D ++ L.drop (c a - 1))) := hs.append_left _
          _ |>.Perm (D ++ (L.take (c a - 1) ++ L.drop (c a - 1))) := by
              rw [← List.append_assoc, ← List.append_assoc]
              exact List.perm_append_comm.append_right _
          _ |>.Perm (D ++ L) := by rw [List.take_append_drop]

theorem count_blocks [DecidableEq α] (c : α → ℕ) (b : α) : ∀ D : List α, D.Nodup →
    (D.flatMap fun a => List.replicate (c a) a).count b = if b ∈ D then c b else 0
  | [], _ => rfl
  | a :: D, h => by
    obtain ⟨h1, h2⟩ := List.nodup_cons.1 h
    rw [List.flatMap_cons, List.count_append, count_blocks c b D h2, List.count_replicate]
    by_cases hab : a = b
    · subst hab
      simp [h1]
    · simp [hab, Ne.symm hab]

/-- Sorting: if every input is in the table, of the same length, both can be permuted such that in every
row the input equals the table entry or the input of the row before. -/
theorem lookup_sort (A S : List α) (hlen : A.length = S.length) (h : ∀ a ∈ A, a ∈ S) :
    ∃ Z : List (α × α), GoodRows Z ∧ (Z.map Prod.fst).Perm A ∧ (Z.map Prod.snd).Perm S := by
  classical
  have hp : (A.dedup.flatMap fun a => List.replicate (A.count a) a).Perm A := by
    rw [List.perm_iff_count]
    intro b
    rw [count_blocks _ _ _ (List.nodup_dedup A)]
    split
    · rfl
    · rename_i hb
      rw [List.mem_dedup] at hb
      exact (List.count_eq_zero_of_not_mem hb).symm
  have hsub : A.dedup.Subperm S :=
    (List.subperm_of_subset (List.nodup_dedup A) fun a ha => h a (List.mem_dedup.1 ha))
  obtain ⟨l, hl, hls⟩ := hsub
  obtain ⟨L, hL'⟩ := hls.exists_perm_append
  have hL : S.Perm (A.dedup ++ L) := hL'.trans (hl.append_right L)
  obtain ⟨Z, hZ, hf, hs⟩ := blocks (fun a => A.count a) A.dedup L
    (fun a ha => List.count_pos_iff.2 (List.mem_dedup.1 ha)) (by
      rw [hp.length_eq, hlen, hL.length_eq, List.length_append, Nat.add_comm])
  exact ⟨Z, hZ, hf ▸ hp, hs.trans hL.symm⟩

end Verif
