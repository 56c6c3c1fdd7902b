import Mathlib.FieldTheory.Finite.Basic
import Verif.Model.Poseidon
import Verif.Spec.Poseidon

namespace Verif.Poseidon
open Verif

theorem mds_left : ∀ i j : Fin 3,
    MDS_INV i 0 * MDS 0 j + MDS_INV i 1 * MDS 1 j + MDS_INV i 2 * MDS 2 j =
      if i = j then 1 else 0 := by decide +kernel

theorem mds_right : ∀ i j : Fin 3,
    MDS i 0 * MDS_INV 0 j + MDS i 1 * MDS_INV 1 j + MDS i 2 * MDS_INV 2 j =
      if i = j then 1 else 0 := by decide +kernel

theorem applyMds_left (s : St) : applyMds MDS_INV (applyMds MDS s) = s := by
  have h := mds_left
  funext i
  have h0 := h i 0
  have h1 := h i 1
  have h2 := h i 2
  generalize MDS = m at *
  generalize MDS_INV = n at *
  simp only [applyMds]
  have key : n i 0 * (m 0 0 * s 0 + m 0 1 * s 1 + m 0 2 * s 2) +
      n i 1 * (m 1 0 * s 0 + m 1 1 * s 1 + m 1 2 * s 2) +
      n i 2 * (m 2 0 * s 0 + m 2 1 * s 1 + m 2 2 * s 2) =
      (if i = 0 then 1 else 0) * s 0 + (if i = 1 then 1 else 0) * s 1 +
        (if i = 2 then 1 else 0) * s 2 := by
    rw [← h0, ← h1, ← h2]; ring
  rw [key]
  fin_cases i <;> simp

theorem applyMds_right (s : St) : applyMds MDS (applyMds MDS_INV s) = s := by
  have h := mds_right
  funext i
  have h0 := h i 0
  have h1 := h i 1
  have h2 := h i 2
  generalize MDS = n at *
  generalize MDS_INV = m at *
  simp only [applyMds]
  have key : n i 0 * (m 0 0 * s 0 + m 0 1 * s 1 + m 0 2 * s 2) +
      n i 1 * (m 1 0 * s 0 + m 1 1 * s 1 + m 1 2 * s 2) +
      n i 2 * (m 2 0 * s 0 + m 2 1 * s 1 + m 2 2 * s 2) =
      (if i = 0 then 1 else 0) * s 0 + (if i = 1 then 1 else 0) * s 1 +
        (if i = 2 then 1 else 0) * s 2 := by
    rw [← h0, ← h1, ← h2]; ring
  rw [key]
  fin_cases i <;> simp

theorem applyMds_bijective : Function.Bijective (applyMds MDS) :=
  ⟨Function.LeftInverse.injective applyMds_left, Function.RightInverse.surjective applyMds_right⟩

/-- Inverse exponent of 5. -/
@[irreducible] def fifth : ℕ :=
  17510594297471420177797124596205820070838691520332827474958563349260646796493

theorem fifth_mul : 5 * fifth = (r - 1) * 4 + 1 := by unfold fifth; decide +kernel

theorem sbox_inv (x : Fr) : (sbox x) ^ fifth = x := by
  unfold sbox
  rw [← pow_mul, fifth_mul, pow_succ, pow_mul]
  by_cases hx : x = 0
  · rw [hx, mul_zero]
  · rw [ZMod.pow_card_sub_one_eq_one hx, one_pow, one_mul]

theorem sbox_bijective : Function.Bijective sbox :=
  (Finite.injective_iff_bijective).1 (Function.LeftInverse.injective (g := fun y => y ^ fifth) sbox_inv)

theorem fullRound_injective (rc : St) : Function.Injective (fullRound rc) := by
  intro s t h
  have h1 := applyMds_bijective.1 h
  funext i
  exact add_right_cancel (sbox_bijective.1 (congrFun h1 i))

theorem partialRound_injective (rc : St) : Function.Injective (partialRound rc) := by
  intro s t h
  have h1 := applyMds_bijective.1 h
  have e0 : s 0 = t 0 := add_right_cancel (sbox_bijective.1 (congrFun h1 0))
  have e1 : s 1 = t 1 := add_right_cancel (congrFun h1 1)
  have e2 : s 2 = t 2 := add_right_cancel (congrFun h1 2)
  funext i
  fin_cases i
  · exact e0
  · exact e1
  · exact e2

theorem fold_injective (l : List ((St → St → St) × St)) (h : ∀ p ∈ l, Function.Injective (p.1 p.2)) :
    Function.Injective (fun s => l.foldl (fun s p => p.1 p.2 s) s) := by
  induction l with
  | nil => exact fun _ _ h => h
  | cons p l ih =>
    intro s t hst
    exact h p List.mem_cons_self (ih (fun q hq => h q (List.mem_cons_of_mem _ hq)) hst)

theorem permute_injective (rcs : List St) : Function.Injective (permute rcs) := by
  refine fold_injective _ ?_
  intro p hp
  have h1 := (List.of_mem_zip (a := p.1) (b := p.2) (by exact hp)).1
  unfold schedule at h1
  rcases List.mem_append.1 h1 with h1 | h1
  · rcases List.mem_append.1 h1 with h1 | h1
    · rw [List.eq_of_mem_replicate h1]; exact fullRound_injective _
    · rw [List.eq_of_mem_replicate h1]; exact partialRound_injective _
  · rw [List.eq_of_mem_replicate h1]; exact fullRound_injective _

theorem length_schedule : schedule.length = 64 := by
  simp [schedule, fullRounds, partialRounds]

theorem length_rcs : ROUND_CONSTANTS.length = 65 := rfl

/-! ### The circuit -/

theorem fullGate_iff (rc cur next : St) : FullGate rc cur next ↔ next = fullRound rc cur := by
  unfold FullGate fullRound applyMds sbox
  constructor
  · intro h
    funext i
    rw [← h i]; ring
  · rintro rfl i
    ring

theorem partialGate_iff (rcA rcB cur next : St) :
    (∃ mid0, PartialGate rcA rcB cur mid0 next) ↔
      next = partialRound rcB (partialRound rcA cur) := by
  have hmid : ∀ i, gateMid rcA cur ((cur 0 + rcA 0) ^ 5) i = partialRound rcA cur i := by
    intro i
    unfold gateMid partialRound applyMds sbox
    simp only [Matrix.cons_val_zero, Matrix.cons_val_one, Matrix.cons_val]
    ring
  have hnext : ∀ i, gateNext next i = applyMds MDS_INV next i := by
    intro i
    unfold gateNext applyMds
    ring
  constructor
  · rintro ⟨mid0, h0, h1, h2, h3⟩
    subst h0
    rw [hmid, hnext] at h1 h2 h3
    have : applyMds MDS_INV next = ![sbox (partialRound rcA cur 0 + rcB 0),
        partialRound rcA cur 1 + rcB 1, partialRound rcA cur 2 + rcB 2] := by
      funext i
      fin_cases i
      · exact h1.symm
      · exact h2.symm
      · exact h3.symm
    have e := applyMds_right next
    rw [this] at e
    exact e.symm
  · intro h
    have e : applyMds MDS_INV next = ![sbox (partialRound rcA cur 0 + rcB 0),
        partialRound rcA cur 1 + rcB 1, partialRound rcA cur 2 + rcB 2] := by
      rw [h]; exact applyMds_left _
    refine ⟨(cur 0 + rcA 0) ^ 5, rfl, ?_, ?_, ?_⟩
    · rw [hmid, hnext, e]; rfl
    · rw [hmid, hnext, e]; rfl
    · rw [hmid, hnext, e]; rfl

theorem fullRows_iff (rcs : List St) (cur last : St) :
    FullRows rcs cur last ↔ last = rcs.foldl (fun s rc => fullRound rc s) cur := by
  induction rcs generalizing cur with
  | nil => exact eq_comm
  | cons rc rcs ih =>
    unfold FullRows
    constructor
    · rintro ⟨next, h1, h2⟩
      rw [(fullGate_iff _ _ _).1 h1] at h2
      exact (ih _).1 h2
    · intro h
      exact ⟨_, (fullGate_iff _ _ _).2 rfl, (ih _).2 h⟩

theorem partialRows_iff : ∀ (k : ℕ) (rcs : List St) (cur last : St), rcs.length = 2 * k →
    (PartialRows rcs cur last ↔ last = rcs.foldl (fun s rc => partialRound rc s) cur)
  | 0, [], _, _, _ => eq_comm
  | k + 1, a :: b :: rcs, cur, last, h => by
    have ih := fun c => partialRows_iff k rcs c last (by simp at h; omega)
    unfold PartialRows
    constructor
    · rintro ⟨m, next, h1, h2⟩
      rw [(partialGate_iff _ _ _ _).1 ⟨m, h1⟩] at h2
      exact (ih _).1 h2
    · intro h
      obtain ⟨m, hm⟩ := (partialGate_iff a b cur _).2 rfl
      exact ⟨m, _, hm, (ih _).2 h⟩
  | k + 1, [], _, _, h => by simp at h
  | k + 1, [a], _, _, h => by simp at h; omega
  | 0, _ :: _, _, _, h => by simp at h

theorem foldl_zip_replicate (f : St → St → St) : ∀ (n : ℕ) (rcs : List St) (s : St), rcs.length = n →
    ((List.replicate n f).zip rcs).foldl (fun s p => p.1 p.2 s) s = rcs.foldl (fun s rc => f rc s) s
  | 0, [], _, _ => rfl
  | n + 1, rc :: rcs, s, h => by
    rw [List.replicate_succ, List.zip_cons_cons, List.foldl_cons, List.foldl_cons,
      foldl_zip_replicate f n rcs _ (by simpa using h)]
  | 0, _ :: _, _, h => by simp at h
  | n + 1, [], _, h => by simp at h

theorem permute_split (a b c d : List St) (ha : a.length = 4) (hb : b.length = 56)
    (hc : c.length = 4) (s : St) : permute (a ++ (b ++ (c ++ d))) s =
      c.foldl (fun s rc => fullRound rc s) (b.foldl (fun s rc => partialRound rc s)
        (a.foldl (fun s rc => fullRound rc s) s)) := by
  unfold permute schedule fullRounds partialRounds
  rw [List.append_assoc, List.zip_append (by simp [ha]), List.zip_append (by simp [hb]),
    List.foldl_append, List.foldl_append, foldl_zip_replicate _ _ _ _ ha,
    foldl_zip_replicate _ _ _ _ hb]
  have : (List.replicate (8 / 2) fullRound).zip (c ++ d) =
      (List.replicate (8 / 2) fullRound).zip c := by
    have h := List.zip_append (l₁ := List.replicate (8 / 2) fullRound) (r₁ := [])
      (l₂ := c) (r₂ := d) (by simp [hc])
    rw [List.append_nil] at h
    rw [h]
    simp
  rw [this, foldl_zip_replicate _ _ _ _ hc]

theorem rcs_split : ROUND_CONSTANTS = ROUND_CONSTANTS.take 4 ++
    ((ROUND_CONSTANTS.drop 4).take 56 ++ ((ROUND_CONSTANTS.drop 60).take 4 ++
      ROUND_CONSTANTS.drop 64)) := rfl

theorem permuteRows_iff (s t : St) : PermuteRows s t ↔ t = permute ROUND_CONSTANTS s := by
  have hs := permute_split (ROUND_CONSTANTS.take 4) ((ROUND_CONSTANTS.drop 4).take 56)
    ((ROUND_CONSTANTS.drop 60).take 4) (ROUND_CONSTANTS.drop 64) rfl rfl rfl s
  rw [← rcs_split] at hs
  rw [hs]
  unfold PermuteRows
  constructor
  · rintro ⟨a, b, h1, h2, h3⟩
    rw [(fullRows_iff _ _ _).1 h1] at h2
    rw [(partialRows_iff 28 _ _ _ rfl).1 h2] at h3
    exact (fullRows_iff _ _ _).1 h3
  · intro h
    exact ⟨_, _, (fullRows_iff _ _ _).2 rfl, (partialRows_iff 28 _ _ _ rfl).2 rfl,
      (fullRows_iff _ _ _).2 h⟩

theorem permute_take (s : St) :
    permute ROUND_CONSTANTS s = permute (ROUND_CONSTANTS.take 64) s := by
  have h1 := permute_split (ROUND_CONSTANTS.take 4) ((ROUND_CONSTANTS.drop 4).take 56)
    ((ROUND_CONSTANTS.drop 60).take 4) (ROUND_CONSTANTS.drop 64) rfl rfl rfl s
  have h2 := permute_split (ROUND_CONSTANTS.take 4) ((ROUND_CONSTANTS.drop 4).take 56)
    ((ROUND_CONSTANTS.drop 60).take 4) [] rfl rfl rfl s
  rw [← rcs_split] at h1
  have e : ROUND_CONSTANTS.take 64 = ROUND_CONSTANTS.take 4 ++
    ((ROUND_CONSTANTS.drop 4).take 56 ++ ((ROUND_CONSTANTS.drop 60).take 4 ++ [])) := rfl
  rw [h1, e, h2]

theorem round_full (c s : St) :
    Spec.Poseidon.round (Matrix.of MDS) true c s = fullRound c s := by
  funext i
  unfold Spec.Poseidon.round fullRound applyMds sbox
  generalize MDS = m
  simp [Matrix.mulVec, dotProduct, Fin.sum_univ_three]

theorem round_partial (c s : St) :
    Spec.Poseidon.round (Matrix.of MDS) false c s = partialRound c s := by
  funext i
  unfold Spec.Poseidon.round partialRound applyMds sbox
  generalize MDS = m
  simp [Matrix.mulVec, dotProduct, Fin.sum_univ_three]

theorem foldl_after (m : Matrix (Fin 3) (Fin 3) Fr) (c : ℕ → St) (b : Bool) (f : St → St → St)
    (hf : ∀ c s, Spec.Poseidon.round m b c s = f c s) (s : St) :
    ∀ (n k : ℕ), (∀ i, k ≤ i → i < k + n → decide (i < 8 / 2 ∨ 8 / 2 + 56 ≤ i) = b) →
      Spec.Poseidon.after m 8 56 c (k + n) s =
        ((List.range n).map fun i => c (k + i)).foldl (fun s rc => f rc s)
          (Spec.Poseidon.after m 8 56 c k s)
  | 0, _, _ => rfl
  | n + 1, k, h => by
    rw [List.range_succ, List.map_append, List.foldl_append,
      ← foldl_after m c b f hf s n k (fun i h1 h2 => h i h1 (by omega)), ← add_assoc]
    show Spec.Poseidon.round m _ _ _ = f _ _
    rw [h (k + n) (by omega) (by omega), hf]

theorem permute_eq_after (s : St) : permute ROUND_CONSTANTS s =
    Spec.Poseidon.after (Matrix.of MDS) 8 56 (fun k => ROUND_CONSTANTS.getD k 0) 64 s := by
  have hs := permute_split (ROUND_CONSTANTS.take 4) ((ROUND_CONSTANTS.drop 4).take 56)
    ((ROUND_CONSTANTS.drop 60).take 4) (ROUND_CONSTANTS.drop 64) rfl rfl rfl s
  rw [← rcs_split] at hs
  rw [hs]
  have a1 := foldl_after (Matrix.of MDS) (fun k => ROUND_CONSTANTS.getD k 0) true fullRound
    round_full s 4 0 (by decide)
  have a2 := foldl_after (Matrix.of MDS) (fun k => ROUND_CONSTANTS.getD k 0) false partialRound
    round_partial s 56 4 (by intro i h1 h2; simp; omega)
  have a3 := foldl_after (Matrix.of MDS) (fun k => ROUND_CONSTANTS.getD k 0) true fullRound
    round_full s 4 60 (by intro i h1 h2; simp; omega)
  have e1 : ((List.range 4).map fun i => ROUND_CONSTANTS.getD (0 + i) 0) =
    ROUND_CONSTANTS.take 4 := rfl
  have e2 : ((List.range 56).map fun i => ROUND_CONSTANTS.getD (4 + i) 0) =
    (ROUND_CONSTANTS.drop 4).take 56 := rfl
  have e3 : ((List.range 4).map fun i => ROUND_CONSTANTS.getD (60 + i) 0) =
    (ROUND_CONSTANTS.drop 60).take 4 := rfl
  rw [e1] at a1
  rw [e2] at a2
  rw [e3] at a3
  rw [show (64 : ℕ) = 60 + 4 from rfl, a3, show (60 : ℕ) = 4 + 56 from rfl, a2,
    show (4 : ℕ) = 0 + 4 from rfl, a1]
  rfl

end Verif.Poseidon
