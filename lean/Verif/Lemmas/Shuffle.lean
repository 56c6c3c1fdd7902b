import Verif.Model.Lottery
import Verif.Lemmas.Zkdvrf
import Verif.Spec.Lottery
import Mathlib.Data.List.Perm.Basic
import Mathlib.Data.List.Nodup

/-! The Fisher-Yates loop. -/

namespace Verif.Lottery

theorem swap_some {α : Type} {l l' : List α} {i j : ℕ} :
    swap l i j = some l' ↔ ∃ (hi : i < l.length) (hj : j < l.length),
      l' = (l.set i l[j]).set j l[i] := by
  unfold swap
  by_cases hi : i < l.length
  · by_cases hj : j < l.length
    · simp [hi, hj, eq_comm]
    · simp [hi, hj]
  · simp [hi]

theorem swap_perm {α : Type} {l l' : List α} {i j : ℕ} (h : swap l i j = some l') :
    l'.Perm l := by
  obtain ⟨hi, hj, rfl⟩ := swap_some.1 h
  exact List.set_set_perm hi hj

theorem loop_perm {α : Type} (c : ℕ → ℕ) : ∀ (left i : ℕ) (l l' : List α),
    shuffleLoop c left i l = some l' → l'.Perm l
  | 0, _, l, l', h => by
    have := Option.some.inj h
    rw [this]
  | left + 1, i, l, l', h => by
    unfold shuffleLoop at h
    rw [opt_bind] at h
    obtain ⟨l1, h1, h2⟩ := h
    exact (loop_perm c left (i + 1) l1 l' h2).trans (swap_perm h1)

theorem loop_total {α : Type} (c : ℕ → ℕ) : ∀ (left i : ℕ) (l : List α),
    (∀ k, c k ≤ k) → i + left ≤ l.length → ∃ l', shuffleLoop c left i l = some l'
  | 0, _, l, _, _ => ⟨l, rfl⟩
  | left + 1, i, l, hc, hb => by
    have hi : i < l.length := by omega
    have hj : c i < l.length := by have := hc i; omega
    have h1 : swap l i (c i) = some ((l.set i l[c i]).set (c i) l[i]) := swap_some.2 ⟨hi, hj, rfl⟩
    obtain ⟨l', h'⟩ := loop_total c left (i + 1) ((l.set i l[c i]).set (c i) l[i]) hc
      (by simp only [List.length_set]; omega)
    refine ⟨l', ?_⟩
    unfold shuffleLoop
    rw [opt_bind]
    exact ⟨_, h1, h'⟩

theorem choice_le (k : Keccak) (v : Word) (i : ℕ) : choice k v i ≤ i :=
  Nat.le_of_lt_succ (Nat.mod_lt _ (Nat.succ_pos i))

/-- Splitting off the last iteration. -/
theorem loop_succ {α : Type} (c : ℕ → ℕ) : ∀ (left i : ℕ) (l : List α),
    shuffleLoop c (left + 1) i l = shuffleLoop c left i l >>= fun l1 => swap l1 (i + left) (c (i + left))
  | 0, i, l => by
    unfold shuffleLoop
    unfold shuffleLoop
    simp
  | left + 1, i, l => by
    rw [shuffleLoop]
    conv_rhs => rw [shuffleLoop]
    cases h : swap l i (c i) with
    | none => rfl
    | some l1 =>
      simp only [Option.bind_eq_bind, Option.bind_some]
      have := loop_succ c left (i + 1) l1
      rw [this, show i + 1 + left = i + (left + 1) by ring]
      rfl

/-- The loop only looks at its own choices. -/
theorem loop_congr {α : Type} {c c' : ℕ → ℕ} : ∀ (left i : ℕ) (l : List α),
    (∀ k, i ≤ k → k < i + left → c k = c' k) → shuffleLoop c left i l = shuffleLoop c' left i l
  | 0, _, _, _ => rfl
  | left + 1, i, l, h => by
    unfold shuffleLoop
    rw [h i le_rfl (by omega)]
    cases swap l i (c' i) with
    | none => rfl
    | some l1 =>
      simp only [Option.bind_eq_bind, Option.bind_some]
      exact loop_congr left (i + 1) l1 (fun k h1 h2 => h k (by omega) (by omega))

/-- A prefix of the loop leaves the tail alone. -/
theorem loop_tail {α : Type} (c : ℕ → ℕ) (hc : ∀ k, c k ≤ k) : ∀ (k : ℕ) (l l' : List α),
    shuffleLoop c k 0 l = some l' → ∀ j, k ≤ j → l'[j]? = l[j]?
  | 0, l, l', h, j, _ => by rw [Option.some.inj h]
  | k + 1, l, l', h, j, hj => by
    rw [loop_succ, opt_bind] at h
    obtain ⟨l1, h1, h2⟩ := h
    rw [Nat.zero_add] at h2
    obtain ⟨hi, hjj, rfl⟩ := swap_some.1 h2
    have := hc k
    rw [List.getElem?_set_ne (by omega), List.getElem?_set_ne (by omega)]
    exact loop_tail c hc k l l1 h1 j (by omega)

theorem swap_get {α : Type} {l l' : List α} {i j : ℕ} (h : swap l i j = some l') (k : ℕ) :
    l'[k]? = if k = j then l[i]? else if k = i then l[j]? else l[k]? := by
  obtain ⟨hi, hj, rfl⟩ := swap_some.1 h
  by_cases hkj : k = j
  · subst hkj
    rw [if_pos rfl, List.getElem?_set_self (by simpa using hj), List.getElem?_eq_getElem hi]
  · rw [if_neg hkj, List.getElem?_set_ne (by omega)]
    by_cases hki : k = i
    · subst hki
      rw [if_pos rfl, List.getElem?_set_self hi, List.getElem?_eq_getElem hj]
    · rw [if_neg hki, List.getElem?_set_ne (by omega)]

theorem swap_invol {α : Type} {l l' : List α} {i j : ℕ} (h : swap l i j = some l') :
    swap l' i j = some l := by
  have hlen := (swap_perm h).length_eq
  obtain ⟨hi, hj, _⟩ := swap_some.1 h
  obtain ⟨l2, h2⟩ : ∃ l2, swap l' i j = some l2 := ⟨_, swap_some.2 ⟨by omega, by omega, rfl⟩⟩
  rw [h2]
  congr 1
  apply List.ext_getElem?
  intro k
  rw [swap_get h2, swap_get h, swap_get h, swap_get h]
  by_cases hkj : k = j
  · subst hkj
    rw [if_pos rfl]
    by_cases hik : i = k
    · rw [if_pos hik, hik]
    · rw [if_neg hik, if_pos rfl]
  · rw [if_neg hkj]
    by_cases hki : k = i
    · rw [if_pos hki, if_pos rfl, hki]
    · rw [if_neg hki, if_neg hkj, if_neg hki]

theorem loop_unique {α : Type} (l : List α) (hl : l.Nodup) {c c' : ℕ → ℕ} (hc : ∀ k, c k ≤ k)
    (hc' : ∀ k, c' k ≤ k) : ∀ (k : ℕ) (l' : List α), shuffleLoop c k 0 l = some l' →
    shuffleLoop c' k 0 l = some l' → ∀ i, i < k → c i = c' i
  | 0, _, _, _, i, hi => by omega
  | k + 1, l', h, h', i, hi => by
    have hnd : l'.Nodup := (loop_perm c _ _ _ _ h).nodup_iff.2 hl
    rw [loop_succ, opt_bind] at h h'
    obtain ⟨l1, h1, h2⟩ := h
    obtain ⟨l1', h1', h2'⟩ := h'
    rw [Nat.zero_add] at h2 h2'
    have e : l'[c k]? = l[k]? := by
      rw [swap_get h2, if_pos rfl, loop_tail c hc k l l1 h1 k le_rfl]
    have e' : l'[c' k]? = l[k]? := by
      rw [swap_get h2', if_pos rfl, loop_tail c' hc' k l l1' h1' k le_rfl]
    have hk : c k = c' k := by
      have hlen := (swap_perm h2).length_eq
      obtain ⟨_, hck, _⟩ := swap_some.1 h2
      obtain ⟨_, hck', _⟩ := swap_some.1 h2'
      have hlen' := (swap_perm h2').length_eq
      have h3 : l'[c k]? = l'[c' k]? := by rw [e, e']
      rw [List.getElem?_eq_getElem (by omega), List.getElem?_eq_getElem (by omega)] at h3
      exact (List.Nodup.getElem_inj_iff hnd).1 (Option.some.inj h3)
    have hl1 : l1 = l1' := by
      have a := swap_invol h2
      have b := swap_invol h2'
      rw [← hk, a] at b
      exact Option.some.inj b
    subst hl1
    by_cases hik : i = k
    · rw [hik, hk]
    · exact loop_unique l hl hc hc' k l1 h1 h1' i (by omega)

theorem loop_exists {α : Type} (l : List α) (hl : l.Nodup) : ∀ (k : ℕ) (l' : List α),
    k ≤ l.length → l'.Perm l → (∀ j, k ≤ j → l'[j]? = l[j]?) →
    ∃ c : ℕ → ℕ, (∀ i, c i ≤ i) ∧ shuffleLoop c k 0 l = some l'
  | 0, l', _, _, ht => by
    refine ⟨fun _ => 0, fun _ => Nat.zero_le _, ?_⟩
    have : l' = l := List.ext_getElem? (fun j => ht j (Nat.zero_le _))
    rw [this]; rfl
  | k + 1, l', hk, hp, ht => by
    have hlen := hp.length_eq
    have hmem : l[k] ∈ l' := hp.mem_iff.2 (List.getElem_mem _)
    obtain ⟨j, hj, hjk⟩ := List.getElem_of_mem hmem
    have hjle : j ≤ k := by
      by_contra hgt
      have := ht j (by omega)
      rw [List.getElem?_eq_getElem hj, hjk, List.getElem?_eq_getElem (by omega)] at this
      have := (List.Nodup.getElem_inj_iff hl).1 (Option.some.inj this)
      omega
    obtain ⟨l1, h1⟩ : ∃ l1, swap l' k j = some l1 := ⟨_, swap_some.2 ⟨by omega, hj, rfl⟩⟩
    obtain ⟨c, hc, hs⟩ := loop_exists l hl k l1 (by omega) ((swap_perm h1).trans hp) (by
      intro i hi
      rw [swap_get h1]
      by_cases hij : i = j
      · have hjk' : j = k := by omega
        have hik : i = k := by omega
        subst hjk'
        rw [if_pos hij, hij, List.getElem?_eq_getElem hj, hjk, List.getElem?_eq_getElem (by omega)]
      · rw [if_neg hij]
        by_cases hik : i = k
        · rw [if_pos hik, hik, List.getElem?_eq_getElem hj, hjk, List.getElem?_eq_getElem (by omega)]
        · rw [if_neg hik]; exact ht i (by omega))
    refine ⟨Function.update c k j, fun i => ?_, ?_⟩
    · by_cases hik : i = k
      · subst hik; rw [Function.update_self]; exact hjle
      · rw [Function.update_of_ne hik]; exact hc i
    · rw [loop_succ, opt_bind]
      refine ⟨l1, ?_, ?_⟩
      · rw [← hs]
        apply loop_congr
        intro i _ hi
        rw [Function.update_of_ne (by omega)]
      · rw [Nat.zero_add, Function.update_self]
        exact swap_invol h1

end Verif.Lottery
