import Verif.Lemmas.AuxFits
import Verif.Spec.Dealing

/-! For every auxiliary point all but a few scalars can be handled by the windowed multiplication. -/

namespace Verif.FixedPoint
open Verif Spec

theorem digit_sum (w K m : ℕ) :
    ∑ i ∈ Finset.range m, digit w K i * 2 ^ (w * i) = K % 2 ^ (w * m) := by
  induction m with
  | zero => simp [Nat.mod_one]
  | succ m ih =>
    rw [Finset.sum_range_succ, ih, digit, Nat.mul_succ, pow_add, Nat.mod_mul, mul_comm (K / _ % _)]

theorem lowSum_split (w K m : ℕ) :
    ∑ i ∈ Finset.range m, (digit w K i + 2) * 2 ^ (w * i) =
      K % 2 ^ (w * m) + ∑ i ∈ Finset.range m, 2 * 2 ^ (w * i) := by
  rw [← digit_sum, ← Finset.sum_add_distrib]
  exact Finset.sum_congr rfl fun i _ => by ring

theorem nsmul_inj {G : Type} [AddCommGroup G] {P : G} (hP : addOrderOf P = r) {a b c : ℕ}
    (ha : a + c < r) (hb : b + c < r) (h : (a + c) • P = (b + c) • P) : a = b := by
  rw [nsmul_eq_nsmul_iff_modEq, hP] at h
  have := Nat.ModEq.eq_of_lt_of_lt h ha hb
  omega

def off (m : ℕ) : ℕ := ∑ i ∈ Finset.range m, 2 * 2 ^ (3 * i)

theorem off83 : 2 ^ 249 + off 83 < r := by rw [off, offSum_eq]; decide +kernel
theorem off84 : 2 ^ 252 + off 84 < r := by rw [off, offSum_eq]; decide +kernel
theorem r_lt_254 : r < 2 ^ 254 := by decide +kernel

theorem split_249 (K : ℕ) (hK : K < 2 ^ 254) :
    K = K % 2 ^ 249 + 2 ^ 249 * (digit 3 K 83) + 2 ^ 252 * (digit 3 K 84) := by
  unfold digit
  have e1 : (2 : ℕ) ^ (3 * 83) = 2 ^ 249 := by norm_num
  have e2 : (2 : ℕ) ^ (3 * 84) = 2 ^ 252 := by norm_num
  rw [e1, e2]
  omega

theorem digit84 (K : ℕ) (hK : K < 2 ^ 254) : digit 3 K 84 < 4 := by
  unfold digit
  have e2 : (2 : ℕ) ^ (3 * 84) = 2 ^ 252 := by norm_num
  rw [e2]
  omega

theorem digit83 (K : ℕ) : digit 3 K 83 < 8 := Nat.mod_lt _ (by norm_num)

theorem auxFits_iff85 {G : Type} [AddCommGroup G] (K : ℕ) (P aux : G) :
    AuxFits 3 K P aux ↔
      aux ≠ (K % 2 ^ 249 + off 83) • P - ((digit 3 K 83 + 2) * 2 ^ 249) • P ∧
      aux ≠ -((K % 2 ^ 249 + off 83) • P) - ((digit 3 K 83 + 2) * 2 ^ 249) • P ∧
      aux + aux ≠ ((digit 3 K 84 + 2) * 2 ^ 252) • P - off 85 • P - (K % 2 ^ 249 + off 83) • P
        - ((digit 3 K 83 + 2) * 2 ^ 249) • P ∧ K • P ≠ 0 := by
  unfold AuxFits
  have e : (254 + 3 - 1) / 3 = 85 := rfl
  simp only [e, lowSum_split]
  rfl

theorem low_252 (K : ℕ) : K % 2 ^ 249 + off 83 + (digit 3 K 83 + 2) * 2 ^ 249 =
    K % 2 ^ 252 + off 84 := by
  have h := lowSum_split 3 K 84
  rw [Finset.sum_range_succ, lowSum_split] at h
  exact h

open Classical in
theorem few_bad_val {G : Type} [AddCommGroup G] {P : G} (hP : addOrderOf P = r) (aux : G) :
    ∃ bad : Finset Fr, bad.card ≤ 69 ∧ ∀ s ∉ bad, AuxFits 3 s.val P aux := by
  have hlt : ∀ s : Fr, s.val < 2 ^ 254 := fun s => lt_trans (ZMod.val_lt s) r_lt_254
  let f : Fr → ℕ × ℕ := fun s => (digit 3 s.val 83, digit 3 s.val 84)
  have hf : ∀ s, f s ∈ Finset.range 8 ×ˢ Finset.range 4 := fun s =>
    Finset.mem_product.2 ⟨Finset.mem_range.2 (digit83 _), Finset.mem_range.2 (digit84 _ (hlt s))⟩
  have hinj : ∀ s s' : Fr, f s = f s' → s.val % 2 ^ 249 = s'.val % 2 ^ 249 → s = s' := by
    intro s s' h1 h2
    have e1 : digit 3 s.val 83 = digit 3 s'.val 83 := congrArg Prod.fst h1
    have e2 : digit 3 s.val 84 = digit 3 s'.val 84 := congrArg Prod.snd h1
    apply ZMod.val_injective
    rw [split_249 s.val (hlt s), split_249 s'.val (hlt s'), e1, e2, h2]
  have hlow : ∀ s s' : Fr, (s.val % 2 ^ 249 + off 83) • P = (s'.val % 2 ^ 249 + off 83) • P →
      s.val % 2 ^ 249 = s'.val % 2 ^ 249 := by
    intro s s' h
    have hb : ∀ K : ℕ, K % 2 ^ 249 + off 83 < r := fun K =>
      lt_trans (Nat.add_lt_add_right (Nat.mod_lt _ (by positivity)) _) off83
    exact nsmul_inj hP (hb _) (hb _) h
  have hlow2 : ∀ s s' : Fr, (s.val % 2 ^ 252 + off 84) • P = (s'.val % 2 ^ 252 + off 84) • P →
      s.val % 2 ^ 252 = s'.val % 2 ^ 252 := by
    intro s s' h
    have hb : ∀ K : ℕ, K % 2 ^ 252 + off 84 < r := fun K =>
      lt_trans (Nat.add_lt_add_right (Nat.mod_lt _ (by positivity)) _) off84
    exact nsmul_inj hP (hb _) (hb _) h
  let B1 : Finset Fr := Finset.univ.filter fun s =>
    aux = (s.val % 2 ^ 249 + off 83) • P - ((digit 3 s.val 83 + 2) * 2 ^ 249) • P
  let B2 : Finset Fr := Finset.univ.filter fun s =>
    aux = -((s.val % 2 ^ 249 + off 83) • P) - ((digit 3 s.val 83 + 2) * 2 ^ 249) • P
  let B3 : Finset Fr := Finset.univ.filter fun s =>
    aux + aux = ((digit 3 s.val 84 + 2) * 2 ^ 252) • P - off 85 • P -
      (s.val % 2 ^ 249 + off 83) • P - ((digit 3 s.val 83 + 2) * 2 ^ 249) • P
  have c1 : B1.card ≤ 32 := by
    have := Finset.card_le_card_of_injOn (s := B1) (t := Finset.range 8 ×ˢ Finset.range 4) f
      (fun s _ => hf s) (by
        intro s hs s' hs' e
        have h1 := (Finset.mem_filter.1 hs).2
        have h2 := (Finset.mem_filter.1 hs').2
        have e1 : digit 3 s.val 83 = digit 3 s'.val 83 := congrArg Prod.fst e
        rw [e1] at h1
        refine hinj s s' e (hlow s s' ?_)
        exact sub_left_injective (h1.symm.trans h2))
    simpa using this
  have c2 : B2.card ≤ 32 := by
    have := Finset.card_le_card_of_injOn (s := B2) (t := Finset.range 8 ×ˢ Finset.range 4) f
      (fun s _ => hf s) (by
        intro s hs s' hs' e
        have h1 := (Finset.mem_filter.1 hs).2
        have h2 := (Finset.mem_filter.1 hs').2
        have e1 : digit 3 s.val 83 = digit 3 s'.val 83 := congrArg Prod.fst e
        rw [e1] at h1
        refine hinj s s' e (hlow s s' ?_)
        exact neg_injective (sub_left_injective (h1.symm.trans h2)))
    simpa using this
  have c3 : B3.card ≤ 4 := by
    have := Finset.card_le_card_of_injOn (s := B3) (t := Finset.range 4) (fun s => digit 3 s.val 84)
      (fun s _ => Finset.mem_coe.2 (Finset.mem_range.2 (digit84 _ (hlt s)))) (by
        intro s hs s' hs' e
        have h1 := (Finset.mem_filter.1 hs).2
        have h2 := (Finset.mem_filter.1 hs').2
        have e2 : digit 3 s.val 84 = digit 3 s'.val 84 := e
        rw [e2] at h1
        rw [sub_sub _ ((s.val % 2 ^ 249 + off 83) • P), ← add_nsmul, low_252] at h1
        rw [sub_sub _ ((s'.val % 2 ^ 249 + off 83) • P), ← add_nsmul, low_252] at h2
        have h3 := hlow2 s s' (sub_right_injective (h1.symm.trans h2))
        apply ZMod.val_injective
        have e3 : (2 : ℕ) ^ (3 * 84) = 2 ^ 252 := by norm_num
        have a1 := hlt s
        have a2 := hlt s'
        unfold digit at e2
        rw [e3] at e2
        generalize s.val = A at *
        generalize s'.val = B at *
        omega)
    simpa using this
  refine ⟨B1 ∪ B2 ∪ B3 ∪ {0}, ?_, ?_⟩
  · refine le_trans (Finset.card_union_le _ _) ?_
    have h1 := Finset.card_union_le (B1 ∪ B2) B3
    have h2 := Finset.card_union_le B1 B2
    rw [Finset.card_singleton]
    omega
  · intro s hs
    simp only [Finset.mem_union, Finset.mem_singleton, not_or] at hs
    obtain ⟨⟨⟨h1, h2⟩, h3⟩, h4⟩ := hs
    refine (auxFits_iff85 _ _ _).2 ⟨?_, ?_, ?_, ?_⟩
    · exact fun e => h1 (Finset.mem_filter.2 ⟨Finset.mem_univ _, e⟩)
    · exact fun e => h2 (Finset.mem_filter.2 ⟨Finset.mem_univ _, e⟩)
    · exact fun e => h3 (Finset.mem_filter.2 ⟨Finset.mem_univ _, e⟩)
    · apply nsmul_ne_zero' hP
      rw [Nat.mod_eq_of_lt (ZMod.val_lt s)]
      exact fun e => h4 ((ZMod.val_eq_zero s).1 e)

theorem usable_of_val {G : Type} [AddCommGroup G] {P aux : G} {s : Fr} (h : AuxFits 3 s.val P aux) : Usable P aux s :=
  ⟨s.val, lt_trans (ZMod.val_lt s) r_lt_254, ZMod.natCast_zmod_val s, h⟩

theorem few_bad {G : Type} [AddCommGroup G] {P : G} (hP : addOrderOf P = r) (aux : G) :
    ∃ bad : Finset Fr, bad.card ≤ 69 ∧ ∀ s ∉ bad, Usable P aux s := by
  obtain ⟨bad, h1, h2⟩ := few_bad_val hP aux
  exact ⟨bad, h1, fun s hs => usable_of_val (h2 s hs)⟩

end Verif.FixedPoint
