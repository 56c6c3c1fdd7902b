import Verif.Lemmas.FixedPointOps
import Verif.Lemmas.Pairing

namespace Verif.FixedPoint
open Verif Spec MainGate GrumpkinChip

theorem order_g1 {P : G1} (h : P ≠ 0) : addOrderOf P = r := addOrderOf_eq_prime (r_nsmul P) h

theorem order_g2 {P : G2} (hr : r • P = 0) (h : P ≠ 0) : addOrderOf P = r := addOrderOf_eq_prime hr h

theorem smul2_cast {P : G2} (hr : r • P = 0) (K : ℕ) : smul2 ((K : ℕ) : Fr) P = K • P := by
  unfold smul2
  have hd := Nat.mod_add_div K r
  rw [ZMod.val_natCast]
  conv_rhs => rw [← hd, add_nsmul, mul_nsmul, hr, nsmul_zero, add_zero]

theorem avoid_three {G : Type} (a b c : G) :
    ∃ bad : Finset G, bad.card ≤ 3 ∧ ∀ x, x ∉ bad → x ≠ a ∧ x ≠ b ∧ x ≠ c := by
  classical
  refine ⟨{a, b, c}, Finset.card_le_three, fun x h => ?_⟩
  simpa [not_or] using h

theorem exists_few_bad {w K : ℕ} {P : G1} (hK : K • P ≠ 0) :
    ∃ bad : Finset G1, bad.card ≤ 3 ∧ ∀ aux, aux ∉ bad → AuxFits w K P aux := by
  unfold AuxFits
  simp only
  generalize (∑ i ∈ Finset.range ((254 + w - 1) / w - 2), (digit w K i + 2) * 2 ^ (w * i)) • P = L
  generalize ((digit w K ((254 + w - 1) / w - 2) + 2) * 2 ^ (w * ((254 + w - 1) / w - 2))) • P = M
  generalize ((digit w K ((254 + w - 1) / w - 1) + 2) * 2 ^ (w * ((254 + w - 1) / w - 1))) • P = N
  generalize (∑ i ∈ Finset.range ((254 + w - 1) / w), 2 * 2 ^ (w * i)) • P = C
  obtain ⟨bad, h1, h2⟩ := avoid_three (L - M) (-L - M) ((2 : Fr)⁻¹ • (N - C - L - M))
  refine ⟨bad, h1, fun aux h => ⟨(h2 aux h).1, (h2 aux h).2.1, fun e => (h2 aux h).2.2 ?_, hK⟩⟩
  rw [← e, ← two_smul Fr aux, smul_smul, inv_mul_cancel₀ two_ne_zero_r, one_smul Fr aux]

theorem sum_nsmul' {G : Type} [AddCommGroup G] (P : G) (f : ℕ → ℕ) (s : Finset ℕ) :
    (∑ i ∈ s, f i) • P = ∑ i ∈ s, f i • P := by
  classical
  induction s using Finset.induction_on with
  | empty => simp
  | insert a s ha ih => rw [Finset.sum_insert ha, Finset.sum_insert ha, add_nsmul, ih]

theorem table_sum {G : Type} [AddCommGroup G] {w : ℕ} (hw : validWindow w) (P aux : G) {K : ℕ}
    (hK : K < 2 ^ 254) :
    ∑ i ∈ Finset.range ((254 + w - 1) / w), ((table w P aux).getD i []).getD (digit w K i) 0 = K • P := by
  obtain ⟨hn, h2, h3, h4, h5, h6⟩ := window_facts w hw.2 hw.1
  obtain ⟨m, hm⟩ : ∃ m, numberOfWindows w = m + 2 := ⟨numberOfWindows w - 2, by omega⟩
  obtain ⟨bs, hl, rfl⟩ := exists_binary 254 K hK
  have hj : ∀ j < numberOfWindows w, j * w ≤ bs.length := fun j hj => by
    have : j * w ≤ (numberOfWindows w - 1) * w := Nat.mul_le_mul_right _ (by omega)
    omega
  have hS := S_eq bs w (numberOfWindows w) (.inr (hj _ (by omega)))
  rw [List.take_of_length_le (by rw [hl]; exact h3)] at hS
  have hent : ∀ i < numberOfWindows w, ((table w P aux).getD i []).getD (digit w (binary bs) i) 0 =
      entry w P aux i (digit w (binary bs) i) := by
    intro i hi
    rw [table_row hw P aux hi]
    have hlt : digit w (binary bs) i < rowLen w i := by
      rw [← binary_win bs w i (hj i hi)]
      have := binary_lt (win bs w i)
      rw [win_length_eq hw hl hi] at this
      unfold rowLen
      split at this <;> simp_all
    rw [getD_lt _ _ (by simpa using hlt)]
    simp
  show ∑ i ∈ Finset.range (numberOfWindows w), _ = _
  rw [Finset.sum_congr rfl fun i hi => hent i (Finset.mem_range.1 hi)]
  rw [S_eq_sum bs w _ hj] at hS
  rw [hm] at hS ⊢
  rw [Finset.sum_range_succ, Finset.sum_range_succ]
  have h0 : ∀ i ∈ Finset.range m, entry w P aux i (digit w (binary bs) i) =
      ((digit w (binary bs) i + 2) * 2 ^ (w * i)) • P := by
    intro i hi
    have := Finset.mem_range.1 hi
    unfold entry
    rw [hm, if_neg (by omega), if_neg (by omega)]
  rw [Finset.sum_congr rfl h0]
  unfold entry
  rw [hm]
  rw [if_pos (by omega), if_neg (by omega), if_pos (by omega), ← sum_nsmul']
  rw [Finset.sum_range_succ, Finset.sum_range_succ] at hS
  generalize (∑ i ∈ Finset.range m, (digit w (binary bs) i + 2) * 2 ^ (w * i)) = L at *
  generalize (digit w (binary bs) m + 2) * 2 ^ (w * m) = M at *
  generalize (digit w (binary bs) (m + 1) + 2) * 2 ^ (w * (m + 1)) = N at *
  generalize C2 w (m + 2) = C at *
  have : binary bs • P + C • P = L • P + M • P + N • P := by
    rw [← add_nsmul, ← add_nsmul, ← add_nsmul, hS]
  rw [eq_sub_of_add_eq this]
  abel

/-! ### Assigning the table -/

theorem forall₂_exists {α β : Type} {R : α → β → Prop} {p : α → Prop} (h : ∀ a, (∃ b, R a b) ↔ p a)
    (l : List α) : (∃ l', List.Forall₂ R l l') ↔ ∀ a ∈ l, p a := by
  induction l with
  | nil => simp
  | cons a l ih =>
    rw [List.forall_mem_cons, ← ih, ← h]
    constructor
    · rintro ⟨l', hl⟩
      cases hl with
      | cons h1 h2 => exact ⟨⟨_, h1⟩, _, h2⟩
    · rintro ⟨⟨b, hb⟩, l', hl⟩
      exact ⟨b :: l', .cons hb hl⟩

theorem assignTable_iff {G Pt : Type} [AddCommGroup G] [Inhabited Pt] {O : Ops G Pt} {adm : G → Prop}
    {w : ℕ} (hw : validWindow w) (hO : ∀ P, (∃ p, O.assignConstant P p) ↔ adm P) {P aux : G} :
    (∃ t, assignTable O w P aux t) ↔
      ∀ i < numberOfWindows w, ∀ k < rowLen w i, adm (entry w P aux i k) := by
  unfold assignTable
  rw [exists_and_left, forall₂_exists (forall₂_exists hO)]
  constructor
  · rintro ⟨-, h⟩ i hi k hk
    apply h ((table w P aux).getD i [])
    · rw [getD_lt _ _ (by rwa [table_length])]; exact List.getElem_mem _
    · rw [table_row hw P aux hi]
      exact List.mem_map.2 ⟨k, List.mem_range.2 hk, rfl⟩
  · intro h
    refine ⟨hw, fun row hr a ha => ?_⟩
    obtain ⟨i, hi, rfl⟩ := List.getElem_of_mem hr
    have hi' : i < numberOfWindows w := by rwa [table_length] at hi
    rw [← getD_lt _ [] hi, table_row hw P aux hi'] at ha
    obtain ⟨k, hk, rfl⟩ := List.mem_map.1 ha
    exact h i hi' k (List.mem_range.1 hk)

theorem assignConstant1_iff (P : G1) : (∃ p, ops1.assignConstant P p) ↔ P ≠ 0 :=
  ⟨fun ⟨_, h⟩ => h.1, fun h => ⟨coords P, h, rfl, rfl⟩⟩

theorem assignConstant2_iff (P : G2) : (∃ p, ops2.assignConstant P p) ↔ r • P = 0 ∧ P ≠ 0 :=
  ⟨fun ⟨_, h⟩ => ⟨h.1, h.2.1⟩,
    fun h => ⟨(splitBase (coords P).1, splitBase (coords P).2), h.1, h.2, ⟨rfl, rfl⟩, ⟨rfl, rfl⟩⟩⟩

section
variable {G : Type} [AddCommGroup G]

theorem plain_ne_zero {w : ℕ} (hw : validWindow w) {P : G} (hP : addOrderOf P = r) {i k : ℕ}
    (hi : i < numberOfWindows w - 2) (hk : k < 2 ^ w) : ((k + 2) * 2 ^ (w * i)) • P ≠ 0 := by
  obtain ⟨hn, -, -, -, -, hle⟩ := window_facts w hw.2 hw.1
  intro e
  have hd := addOrderOf_dvd_of_nsmul_eq_zero e
  rw [hP] at hd
  have h1 : (k + 2) * 2 ^ (w * i) ≤ 2 * 2 ^ 251 := by
    have hk2 : k + 2 ≤ 2 * 2 ^ w := by
      have : 2 ^ 1 ≤ 2 ^ w := Nat.pow_le_pow_right (by norm_num) (by have := hw.1; omega)
      omega
    calc (k + 2) * 2 ^ (w * i) ≤ 2 * 2 ^ w * 2 ^ (w * i) := Nat.mul_le_mul_right _ hk2
      _ = 2 * 2 ^ (w * (i + 1)) := by rw [mul_assoc, ← pow_add]; ring_nf
      _ ≤ 2 * 2 ^ 251 := by
        apply Nat.mul_le_mul_left
        apply Nat.pow_le_pow_right (by norm_num)
        exact le_trans (Nat.mul_le_mul_left _ (by omega)) hle
  have h2 : 2 * 2 ^ 251 < r := by decide +kernel
  have h3 : 0 < (k + 2) * 2 ^ (w * i) := Nat.mul_pos (by omega) (by positivity)
  exact absurd (Nat.le_of_dvd h3 hd) (by omega)

theorem tableFits_iff {w : ℕ} (hw : validWindow w) {P aux : G} (hP : addOrderOf P = r) :
    (∀ i < numberOfWindows w, ∀ k < rowLen w i, entry w P aux i k ≠ 0) ↔ TableFits w P aux := by
  obtain ⟨hn, h2, h3, h4, h5, h6⟩ := window_facts w hw.2 hw.1
  obtain ⟨m, hm⟩ : ∃ m, numberOfWindows w = m + 2 := ⟨numberOfWindows w - 2, by omega⟩
  have hm' : (254 + w - 1) / w = m + 2 := hm
  have hl : lastBits w = 254 - w * (m + 1) := by rw [h4, hm, Nat.mul_comm]; rfl
  unfold TableFits
  rw [hm', hm]
  simp only [Nat.add_sub_cancel, show m + 2 - 1 = m + 1 from rfl]
  have e1 : ∀ k, entry w P aux m k ≠ 0 ↔ aux ≠ -(((k + 2) * 2 ^ (w * m)) • P) := by
    intro k
    unfold entry
    rw [hm, if_pos (by omega), not_iff_not, add_comm]
    exact ⟨eq_neg_of_add_eq_zero_left, fun h => by rw [h, neg_add_cancel]⟩
  have e2 : ∀ k, entry w P aux (m + 1) k ≠ 0 ↔ aux ≠ ((k + 2) * 2 ^ (w * (m + 1))) • P -
      (∑ j ∈ Finset.range (m + 2), 2 * 2 ^ (w * j)) • P := by
    intro k
    unfold entry
    rw [hm, if_neg (by omega), if_pos (by omega), not_iff_not, C2_eq_sum]
    generalize (∑ j ∈ Finset.range (m + 2), 2 * 2 ^ (w * j)) • P = C
    generalize ((k + 2) * 2 ^ (w * (m + 1))) • P = A
    constructor
    · intro h
      have : aux = A - C - (A - (C + aux)) := by abel
      rw [this, h, sub_zero]
    · rintro rfl; abel
  constructor
  · intro h
    refine ⟨fun k hk => (e1 k).1 (h m (by omega) k ?_), fun k hk => (e2 k).1 (h (m + 1) (by omega) k ?_)⟩
    · unfold rowLen; rw [hm, if_neg (by omega)]; exact hk
    · unfold rowLen; rw [hm, if_pos (by omega), hl]; exact hk
  · rintro ⟨ha, hb⟩ i hi k hk
    have hk' := lt_of_lt_of_le hk (rowLen_le hw i)
    by_cases c1 : i = m
    · subst c1; exact (e1 k).2 (ha k hk')
    · by_cases c2 : i = m + 1
      · subst c2
        unfold rowLen at hk; rw [hm, if_pos (by omega), hl] at hk
        exact (e2 k).2 (hb k hk)
      · have := plain_ne_zero hw hP (i := i) (k := k) (by omega) hk'
        unfold entry
        rw [hm, if_neg (by omega), if_neg (by omega)]
        exact this

end

theorem tableFits2_iff {w : ℕ} (hw : validWindow w) {P aux : G2} (hP : P ≠ 0) (hr : r • P = 0) :
    (∀ i < numberOfWindows w, ∀ k < rowLen w i, r • entry w P aux i k = 0 ∧ entry w P aux i k ≠ 0) ↔
      r • aux = 0 ∧ TableFits w P aux := by
  obtain ⟨hn, h2, h3, h4, h5, h6⟩ := window_facts w hw.2 hw.1
  rw [← tableFits_iff hw (order_g2 hr hP)]
  have hn' : ∀ a : ℕ, r • (a • P) = 0 := fun a => by rw [← mul_nsmul', Nat.mul_comm, mul_nsmul', hr, nsmul_zero]
  constructor
  · intro h
    refine ⟨?_, fun i hi k hk => (h i hi k hk).2⟩
    have := (h (numberOfWindows w - 2) (by omega) 0 (by unfold rowLen; split <;> positivity)).1
    unfold entry at this
    rw [if_pos rfl, nsmul_add, hn', zero_add] at this
    exact this
  · rintro ⟨ha, h⟩ i hi k hk
    refine ⟨?_, h i hi k hk⟩
    unfold entry
    split
    · rw [nsmul_add, hn', ha, zero_add]
    · split
      · rw [nsmul_sub, nsmul_add, hn', hn', ha]; simp
      · exact hn' _

end Verif.FixedPoint
