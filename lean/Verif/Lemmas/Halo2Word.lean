import Verif.Lemmas.Evm
import Verif.Model.Halo2Verifier

/-! Helper lemmas about the word arithmetic, the memory and `batch_invert` of the on-chain proof
verifier. -/

namespace Verif.Halo2

/-- Field element denoted by a word. -/
def fr (w : Word) : Fr := ((w.toNat : ℕ) : Fr)

theorem toNat_rWord : rWord.toNat = r := by decide +kernel
theorem toNat_qWord : qWord.toNat = q := by decide +kernel

theorem mulmod_toNat {a b m : Word} (h : 0 < m.toNat) :
    (mulmod a b m).toNat = a.toNat * b.toNat % m.toNat := by
  unfold mulmod
  rw [if_neg (by rintro rfl; simp at h), BitVec.toNat_ofNat, Nat.mod_eq_of_lt]
  exact lt_trans (Nat.mod_lt _ h) m.isLt

theorem addmod_toNat {a b m : Word} (h : 0 < m.toNat) :
    (addmod a b m).toNat = (a.toNat + b.toNat) % m.toNat := by
  unfold addmod
  rw [if_neg (by rintro rfl; simp at h), BitVec.toNat_ofNat, Nat.mod_eq_of_lt]
  exact lt_trans (Nat.mod_lt _ h) m.isLt

theorem r_pos : 0 < rWord.toNat := by decide +kernel
theorem q_pos : 0 < qWord.toNat := by decide +kernel

theorem mulr_lt (a b : Word) : (mulr a b).toNat < r := by
  unfold mulr
  rw [mulmod_toNat r_pos, ← toNat_rWord]
  exact Nat.mod_lt _ r_pos

theorem addr_lt (a b : Word) : (addr a b).toNat < r := by
  unfold addr
  rw [addmod_toNat r_pos, ← toNat_rWord]
  exact Nat.mod_lt _ r_pos

theorem fr_mulr (a b : Word) : fr (mulr a b) = fr a * fr b := by
  unfold fr mulr
  rw [mulmod_toNat r_pos, toNat_rWord, ZMod.natCast_mod, Nat.cast_mul]

theorem fr_addr (a b : Word) : fr (addr a b) = fr a + fr b := by
  unfold fr addr
  rw [addmod_toNat r_pos, toNat_rWord, ZMod.natCast_mod, Nat.cast_add]

theorem fr_subr {a : Word} (h : a.toNat < r) : fr (subr a) = - fr a := by
  unfold fr subr
  have hle : a ≤ rWord := by rw [BitVec.le_def, toNat_rWord]; exact h.le
  rw [BitVec.toNat_sub_of_le hle, toNat_rWord, Nat.cast_sub h.le, ZMod.natCast_self, zero_sub]

theorem modr_lt (w : Word) : (modr w).toNat < r := by
  unfold modr
  have h : w.toNat % rWord.toNat < r := by rw [← toNat_rWord]; exact Nat.mod_lt _ r_pos
  rw [BitVec.toNat_ofNat, Nat.mod_eq_of_lt (lt_trans h r_lt_256)]
  exact h

theorem fr_modr (w : Word) : fr (modr w) = fr w := by
  unfold fr modr
  have h : w.toNat % rWord.toNat < r := by rw [← toNat_rWord]; exact Nat.mod_lt _ r_pos
  rw [BitVec.toNat_ofNat, Nat.mod_eq_of_lt (lt_trans h r_lt_256), toNat_rWord, ZMod.natCast_mod]

theorem fr_inj {a b : Word} (ha : a.toNat < r) (hb : b.toNat < r) (h : fr a = fr b) : a = b := by
  rw [← wordOf_of_lt_r ha, ← wordOf_of_lt_r hb]
  exact congrArg wordOf h

theorem fr_wordOf (x : Fr) : fr (wordOf x) = x := cast_wordOf_r x

theorem modexp_inv (a : Word) : fr (modexp a (rWord - 2) rWord) = (fr a)⁻¹ := by
  have he : (rWord - 2).toNat = r - 2 := by decide +kernel
  have hm : rWord ≠ 0 := by decide +kernel
  unfold modexp
  rw [if_neg hm, he, toNat_rWord]
  unfold fr
  have hlt : a.toNat ^ (r - 2) % r < 2 ^ 256 := lt_trans (Nat.mod_lt _ (by decide +kernel : 0 < r)) r_lt_256
  rw [BitVec.toNat_ofNat, Nat.mod_eq_of_lt hlt, ZMod.natCast_mod, Nat.cast_pow]
  generalize ((a.toNat : ℕ) : Fr) = x
  by_cases hx : x = 0
  · subst hx
    rw [inv_zero, zero_pow]
    have : 2 < r := by decide +kernel
    omega
  · have h1 := ZMod.pow_card_sub_one_eq_one hx
    apply eq_inv_of_mul_eq_one_left
    rw [← pow_succ]
    have : r - 2 + 1 = r - 1 := by
      have : 2 < r := by decide +kernel
      omega
    rw [this]; exact h1

theorem modexp_lt (a e : Word) : (modexp a e rWord).toNat < r := by
  have hm : rWord ≠ 0 := by decide +kernel
  unfold modexp
  rw [if_neg hm, toNat_rWord]
  have h : a.toNat ^ e.toNat % r < r := Nat.mod_lt _ (by decide +kernel : 0 < r)
  rw [BitVec.toNat_ofNat, Nat.mod_eq_of_lt (lt_trans h r_lt_256)]
  exact h

/-! ### Memory -/

@[simp] theorem store_same (m : Mem) (a : ℕ) (v : Word) : m.store a v a = v := by
  simp [Mem.store]

theorem store_ne {m : Mem} {a b : ℕ} {v : Word} (h : b ≠ a) : m.store a v b = m b := by
  simp [Mem.store, h]

theorem store_apply (m : Mem) (a b : ℕ) (v : Word) : m.store a v b = if b = a then v else m b := rfl

/-! ### `batch_invert` -/

/-- Product of the first `k` values of an array. -/
def prodTo (v : ℕ → Fr) (k : ℕ) : Fr := ∏ i ∈ Finset.range k, v i

theorem prodTo_succ (v : ℕ → Fr) (k : ℕ) : prodTo v (k + 1) = prodTo v k * v k :=
  Finset.prod_range_succ ..

theorem batchProducts_spec (start n : ℕ) (m : Mem) (k : ℕ) (hk : k + 2 ≤ n) :
    fr (batchProducts start n m k).2 = prodTo (fun i => fr (m (start + 0x20 * i))) (k + 1) ∧
    (∀ a, (∀ i < k, a ≠ start + 0x20 * n + 0x20 * i) → (batchProducts start n m k).1 a = m a) ∧
    ∀ i < k, fr ((batchProducts start n m k).1 (start + 0x20 * n + 0x20 * i)) =
      prodTo (fun i => fr (m (start + 0x20 * i))) (i + 2) := by
  induction k with
  | zero =>
    refine ⟨?_, fun a _ => rfl, fun i hi => absurd hi (by omega)⟩
    simp [batchProducts, prodTo]
  | succ k ih =>
    obtain ⟨h1, h2, h3⟩ := ih (by omega)
    have hread : (batchProducts start n m k).1 (start + 0x20 * (k + 1)) =
        m (start + 0x20 * (k + 1)) := h2 _ (fun i hi => by omega)
    have hgp : fr (mulr (batchProducts start n m k).2
        ((batchProducts start n m k).1 (start + 0x20 * (k + 1)))) =
        prodTo (fun i => fr (m (start + 0x20 * i))) (k + 1 + 1) := by
      rw [fr_mulr, h1, hread, prodTo_succ _ (k + 1)]
    refine ⟨hgp, ?_, ?_⟩
    · intro a ha
      simp only [batchProducts]
      rw [store_ne (ha k (by omega))]
      exact h2 a (fun i hi => ha i (by omega))
    · intro i hi
      simp only [batchProducts]
      by_cases hik : i = k
      · subst hik
        rw [store_same]
        exact hgp
      · rw [store_ne (by omega)]
        exact h3 i (by omega)

/-- What the second loop does, for values `v` of which the product of the first `j` is stored. -/
theorem batchBack_spec (start n : ℕ) (v : ℕ → Fr) (k : ℕ) (hk : k + 2 ≤ n) (m : Mem) (a : Word)
    (hv : ∀ i < k + 2, fr (m (start + 0x20 * i)) = v i)
    (hp : ∀ i < k, fr (m (start + 0x20 * n + 0x20 * i)) = prodTo v (i + 2))
    (ha : fr a = (prodTo v (k + 2))⁻¹) :
    (∀ b, (∀ i, 2 ≤ i → i < k + 2 → b ≠ start + 0x20 * i) →
      (batchBack start n k (m, a)).1 b = m b) ∧
    (∀ i, 2 ≤ i → i < k + 2 → fr ((batchBack start n k (m, a)).1 (start + 0x20 * i)) =
      if prodTo v (k + 2) = 0 then 0 else (v i)⁻¹) ∧
    fr (batchBack start n k (m, a)).2 = (if prodTo v (k + 2) = 0 then 0 else (prodTo v 2)⁻¹) := by
  induction k generalizing m a with
  | zero =>
    refine ⟨fun b _ => rfl, fun i h1 h2 => absurd h2 (by omega), ?_⟩
    simp only [batchBack]
    rw [ha]
    split
    · rename_i h; rw [h, inv_zero]
    · rfl
  | succ k ih =>
    have hprod : prodTo v (k + 1 + 2) = prodTo v (k + 2) * v (k + 2) := prodTo_succ v (k + 2)
    have hinv : fr (mulr a (m (start + 0x20 * n + 0x20 * k))) =
        if prodTo v (k + 1 + 2) = 0 then 0 else (v (k + 2))⁻¹ := by
      rw [fr_mulr, ha, hp k (by omega), hprod]
      split
      · rename_i h; rw [h, inv_zero, zero_mul]
      · rename_i h
        obtain ⟨h1, h2⟩ := mul_ne_zero_iff.1 h
        field_simp
    have hnext : fr (mulr a (m (start + 0x20 * (k + 2)))) =
        if prodTo v (k + 1 + 2) = 0 then 0 else (prodTo v (k + 2))⁻¹ := by
      rw [fr_mulr, ha, hv (k + 2) (by omega), hprod]
      split
      · rename_i h; rw [h, inv_zero, zero_mul]
      · rename_i h
        obtain ⟨h1, h2⟩ := mul_ne_zero_iff.1 h
        field_simp
    by_cases h0 : prodTo v (k + 1 + 2) = 0
    · -- everything is zero from here on
      rw [if_pos h0] at hinv hnext
      simp only [if_pos h0]
      have hz : ∀ (k : ℕ) (m : Mem) (a : Word), fr a = 0 →
          (∀ b, (∀ i, 2 ≤ i → i < k + 2 → b ≠ start + 0x20 * i) →
            (batchBack start n k (m, a)).1 b = m b) ∧
          (∀ i, 2 ≤ i → i < k + 2 → fr ((batchBack start n k (m, a)).1 (start + 0x20 * i)) = 0) ∧
          fr (batchBack start n k (m, a)).2 = 0 := by
        intro k
        induction k with
        | zero => exact fun m a h => ⟨fun b _ => rfl, fun i h1 h2 => absurd h2 (by omega), h⟩
        | succ k ih2 =>
          intro m a h
          obtain ⟨i1, i2, i3⟩ := ih2 (m.store (start + 0x20 * (k + 2))
            (mulr a (m (start + 0x20 * n + 0x20 * k)))) (mulr a (m (start + 0x20 * (k + 2))))
            (by rw [fr_mulr, h, zero_mul])
          refine ⟨?_, ?_, i3⟩
          · intro b hb
            simp only [batchBack]
            rw [i1 b (fun i h1 h2 => hb i h1 (by omega)), store_ne (hb (k + 2) (by omega) (by omega))]
          · intro i h1 h2
            simp only [batchBack]
            by_cases hi : i = k + 2
            · subst hi
              rw [i1 _ (fun i h1 h2 => by omega), store_same, fr_mulr, h, zero_mul]
            · exact i2 i h1 (by omega)
      have ha0 : fr a = 0 := by rw [ha, h0, inv_zero]
      exact hz (k + 1) m a ha0
    · rw [if_neg h0] at hinv hnext
      have hne : prodTo v (k + 2) ≠ 0 := fun h => h0 (by rw [hprod, h, zero_mul])
      obtain ⟨i1, i2, i3⟩ := ih (by omega) (m.store (start + 0x20 * (k + 2))
        (mulr a (m (start + 0x20 * n + 0x20 * k)))) (mulr a (m (start + 0x20 * (k + 2))))
        (fun i hi => by rw [store_ne (by omega)]; exact hv i (by omega))
        (fun i hi => by rw [store_ne (by omega)]; exact hp i (by omega)) hnext
      rw [if_neg hne] at i3
      refine ⟨?_, ?_, ?_⟩
      · intro b hb
        simp only [batchBack]
        rw [i1 b (fun i h1 h2 => hb i h1 (by omega)), store_ne (hb (k + 2) (by omega) (by omega))]
      · intro i h1 h2
        simp only [batchBack]
        rw [if_neg h0]
        by_cases hi : i = k + 2
        · subst hi
          rw [i1 _ (fun i h1 h2 => by omega), store_same]
          exact hinv
        · have := i2 i h1 (by omega)
          rw [if_neg hne] at this
          exact this
      · simp only [batchBack]
        rw [if_neg h0]
        exact i3

theorem batchBack_frame (start n k : ℕ) (m : Mem) (a : Word) (b : ℕ)
    (hb : ∀ i, 2 ≤ i → i < k + 2 → b ≠ start + 0x20 * i) :
    (batchBack start n k (m, a)).1 b = m b := by
  induction k generalizing m a with
  | zero => rfl
  | succ k ih =>
    simp only [batchBack]
    rw [ih _ _ (fun i h1 h2 => hb i h1 (by omega)), store_ne (hb (k + 2) (by omega) (by omega))]

theorem batchBack_lt (start n k : ℕ) (m : Mem) (a : Word) (i : ℕ) (h1 : 2 ≤ i) (h2 : i < k + 2) :
    ((batchBack start n k (m, a)).1 (start + 0x20 * i)).toNat < r := by
  induction k generalizing m a with
  | zero => omega
  | succ k ih =>
    simp only [batchBack]
    by_cases hi : i = k + 2
    · subst hi
      rw [batchBack_frame _ _ _ _ _ _ (fun i h1 h2 => by omega), store_same]
      exact mulr_lt _ _
    · exact ih _ _ (by omega)

/-- `batch_invert` replaces `n ≥ 2` values by their inverses if none of them is zero, and by zeros
otherwise; it changes only these words and a scratch area behind them. -/
theorem batchInvert_spec (s : St) (start n : ℕ) (hn : 2 ≤ n) :
    (s.batchInvert start n).ok = s.ok ∧
    (∀ i < n, fr ((s.batchInvert start n).mem (start + 0x20 * i)) =
      if ∀ j < n, fr (s.mem (start + 0x20 * j)) ≠ 0 then (fr (s.mem (start + 0x20 * i)))⁻¹ else 0) ∧
    (∀ a, a < start ∨ start + 0x20 * n + 0x20 * (n - 2) + 0xc0 ≤ a →
      (s.batchInvert start n).mem a = s.mem a) ∧
    ∀ i < n, ((s.batchInvert start n).mem (start + 0x20 * i)).toNat < r := by
  obtain ⟨p1, p2, p3⟩ := batchProducts_spec start n s.mem (n - 2) (by omega)
  have e1 : n - 2 + 1 = n - 1 := by omega
  have e2 : n - 2 + 2 = n := by omega
  unfold St.batchInvert
  simp only
  generalize hP : batchProducts start n s.mem (n - 2) = P at p1 p2 p3 ⊢
  set v : ℕ → Fr := fun i => fr (s.mem (start + 0x20 * i)) with hv
  have hlast : P.1 (start + 0x20 * (n - 1)) = s.mem (start + 0x20 * (n - 1)) :=
    p2 _ (fun i hi => by omega)
  have hgp : fr (mulr P.2 (P.1 (start + 0x20 * (n - 1)))) = prodTo v n := by
    rw [fr_mulr, p1, hlast, e1]
    have := prodTo_succ v (n - 1)
    rw [show n - 1 + 1 = n by omega] at this
    rw [this]
  generalize mulr P.2 (P.1 (start + 0x20 * (n - 1))) = gp at hgp
  generalize hinvw : modexp gp (rWord - 2) rWord = iw
  have hiw : fr iw = (prodTo v n)⁻¹ := by rw [← hinvw, modexp_inv, hgp]
  generalize hM : ((((((P.1.store (start + 0x20 * n + 0x20 * (n - 2)) 0x20).store
    (start + 0x20 * n + 0x20 * (n - 2) + 0x20) 0x20).store
    (start + 0x20 * n + 0x20 * (n - 2) + 0x40) 0x20).store
    (start + 0x20 * n + 0x20 * (n - 2) + 0x60) gp).store
    (start + 0x20 * n + 0x20 * (n - 2) + 0x80) (rWord - 2)).store
    (start + 0x20 * n + 0x20 * (n - 2) + 0xa0) rWord).store
    (start + 0x20 * n + 0x20 * (n - 2)) iw = M
  have hMat : M (start + 0x20 * n + 0x20 * (n - 2)) = iw := by rw [← hM, store_same]
  have hMne : ∀ a, a < start + 0x20 * n + 0x20 * (n - 2) ∨
      start + 0x20 * n + 0x20 * (n - 2) + 0xc0 ≤ a → M a = P.1 a := by
    intro a ha
    rw [← hM]
    repeat rw [store_ne (by omega)]
  rw [hMat]
  obtain ⟨b1, b2, b3⟩ := batchBack_spec start n v (n - 2) (by omega) M iw
    (fun i hi => by
      rw [hMne _ (Or.inl (by omega)), p2 _ (fun j hj => by omega)])
    (fun i hi => by
      rw [hMne _ (Or.inl (by omega)), p3 i hi])
    (by rw [e2, hiw])
  have blt := batchBack_lt start n (n - 2) M iw
  generalize batchBack start n (n - 2) (M, iw) = B at b1 b2 b3 blt ⊢
  rw [e2] at b1 b2 b3 blt
  have hzero : (∀ j < n, v j ≠ 0) ↔ prodTo v n ≠ 0 := by
    unfold prodTo
    rw [Finset.prod_ne_zero_iff]
    simp
  have hBv : ∀ i < 2, fr (B.1 (start + 0x20 * i)) = v i := by
    intro i hi
    rw [b1 _ (fun j h1 h2 => by omega), hMne _ (Or.inl (by omega)), p2 _ (fun j hj => by omega)]
  have hB0 : fr (B.1 start) = v 0 := by have := hBv 0 (by omega); simpa using this
  have hB1 : fr (B.1 (start + 0x20)) = v 1 := by have := hBv 1 (by omega); simpa using this
  have hp2 : prodTo v 2 = v 0 * v 1 := by simp [prodTo, Finset.prod_range_succ]
  refine ⟨trivial, ?_, ?_, ?_⟩
  · intro i hi
    rw [if_congr hzero rfl rfl]
    by_cases h0 : prodTo v n = 0
    · simp only [h0, if_true] at b2 b3
      rw [if_neg (not_not.2 h0)]
      by_cases hi1 : i = 1
      · subst hi1
        rw [mul_one, store_same, fr_mulr, b3, zero_mul]
      · rw [store_ne (by omega)]
        by_cases hi0 : i = 0
        · subst hi0
          rw [mul_zero, add_zero, store_same, fr_mulr, b3, zero_mul]
        · rw [store_ne (by omega)]
          exact b2 i (by omega) hi
    · simp only [h0, if_false] at b2 b3
      rw [if_pos h0]
      have hall := hzero.2 h0
      have hv0 := hall 0 (by omega)
      have hv1 := hall 1 (by omega)
      by_cases hi1 : i = 1
      · subst hi1
        rw [mul_one, store_same, fr_mulr, b3, hp2, hB0]
        have : fr (s.mem (start + 0x20)) = v 1 := by rw [hv]
        rw [this]
        field_simp
      · rw [store_ne (by omega)]
        by_cases hi0 : i = 0
        · subst hi0
          rw [mul_zero, add_zero, store_same, fr_mulr, b3, hp2, hB1]
          have : fr (s.mem start) = v 0 := by rw [hv]; rfl
          rw [this]
          field_simp
        · rw [store_ne (by omega)]
          exact b2 i (by omega) hi
  · intro a ha
    rw [store_ne (by omega), store_ne (by omega), b1 a (fun j h1 h2 => by omega),
      hMne _ (by omega), p2 _ (fun j hj => by omega)]
  · intro i hi
    by_cases hi1 : i = 1
    · subst hi1
      rw [mul_one, store_same]
      exact mulr_lt _ _
    · rw [store_ne (by omega)]
      by_cases hi0 : i = 0
      · subst hi0
        rw [mul_zero, add_zero, store_same]
        exact mulr_lt _ _
      · rw [store_ne (by omega)]
        exact blt i (by omega) hi

end Verif.Halo2
