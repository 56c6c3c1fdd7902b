import Verif.Lemmas.CurveOrder

/-!
`#G1 = r`, `#Gk = q`, and the resulting scalar-field module structures.
-/

namespace Verif
open WeierstrassCurve WeierstrassCurve.Affine

theorem two_ne_zero_q : (2 : Fq) ≠ 0 := by
  have : ((2 : ℕ) : Fq) ≠ 0 := cast_ne_zero_of (by decide +kernel)
  exact_mod_cast this

theorem three_ne_zero_q : (3 : Fq) ≠ 0 := by
  have : ((3 : ℕ) : Fq) ≠ 0 := cast_ne_zero_of (by decide +kernel)
  exact_mod_cast this

theorem two_ne_zero_r : (2 : Fr) ≠ 0 := by
  have : ((2 : ℕ) : Fr) ≠ 0 := cast_ne_zero_of (by decide +kernel)
  exact_mod_cast this

theorem three_ne_zero_r : (3 : Fr) ≠ 0 := by
  have : ((3 : ℕ) : Fr) ≠ 0 := cast_ne_zero_of (by decide +kernel)
  exact_mod_cast this

theorem neg_seventeen_ne_zero_r : (-17 : Fr) ≠ 0 := by
  have : ((17 : ℕ) : Fr) ≠ 0 := cast_ne_zero_of (by decide +kernel)
  rw [neg_ne_zero]
  exact_mod_cast this

/-- `(x, y)` is a nonsingular point of BN254 iff it satisfies the curve equation. -/
theorem bn_nonsingular_iff (x y : Fq) : bnCurve.Nonsingular x y ↔ y ^ 2 = x ^ 3 + 3 :=
  shortW_nonsingular_iff two_ne_zero_q three_ne_zero_q three_ne_zero_q x y

/-- `(x, y)` is a nonsingular point of Grumpkin iff it satisfies the curve equation. -/
theorem gk_nonsingular_iff (x y : Fr) : gkCurve.Nonsingular x y ↔ y ^ 2 = x ^ 3 + -17 :=
  shortW_nonsingular_iff two_ne_zero_r three_ne_zero_r neg_seventeen_ne_zero_r x y

/-- The generator `(1, 2)` of BN254 G1 (`BnG1::generator()` in src/dkg.rs:126;
contracts/libs/Pairing.sol:21-23). -/
def g1 : G1 := Point.some 1 2 ((bn_nonsingular_iff _ _).2 (by norm_num))

/-- The `y` coordinate of the Grumpkin generator, a square root of `-16`
(`GkG1::generator()` in src/lib.rs:66, from the external halo2curves). -/
def gkY : ℕ := 17631683881184975370165255887551781615748388533673675138860

theorem gkY_sq : (gkY : Fr) ^ 2 = -16 := by
  have h : ((gkY ^ 2 + 16 : ℕ) : Fr) = 0 := by
    rw [ZMod.natCast_eq_zero_iff]
    exact Nat.dvd_of_mod_eq_zero (by decide +kernel)
  push_cast at h
  linear_combination h

/-- The Grumpkin generator `(1, √-16)` (`GkG1::generator()` in src/lib.rs:66, external). -/
def gk : Gk := Point.some 1 (gkY : Fr) ((gk_nonsingular_iff _ _).2 (by rw [gkY_sq]; norm_num))

theorem g1_rep : Rep (p := q) g1 (1, 2) := by
  refine ⟨?_, ?_⟩
  · simpa using (bn_nonsingular_iff 1 2).2 (by norm_num)
  · simp [g1]

theorem gk_rep : Rep (p := r) gk (1, gkY) := by
  refine ⟨?_, ?_⟩
  · simpa using (gk_nonsingular_iff 1 gkY).2 (by rw [gkY_sq]; norm_num)
  · simp [gk]

theorem ladder_bn : ladderN q (1, 2) (msb (r - 1) 253) (1, 2) = some (1, q - 2) := by
  decide +kernel

theorem ladder_gk : ladderN r (1, gkY) (msb (q - 1) 253) (1, gkY) = some (1, r - gkY) := by
  decide +kernel

theorem r_nsmul_g1 : r • g1 = 0 := by
  have hv : bitsVal (msb (r - 1) 253) 1 = r - 1 := by decide +kernel
  have h := ladderN_rep g1_rep (msb (r - 1) 253) 1 (1, 2) _ (by simpa using g1_rep) ladder_bn
  rw [hv] at h
  obtain ⟨hns, h⟩ := h
  obtain ⟨h', hneg⟩ := shortW_neg_some ((bn_nonsingular_iff 1 2).2 (by norm_num))
  have e : (r - 1) • g1 = -g1 := by
    rw [h]
    change _ = -(Point.some 1 2 _)
    rw [hneg]
    have : ((q - 2 : ℕ) : Fq) = -2 := by
      rw [cast_sub_le (by decide +kernel)]; simp
    simp [this]
  have : r = (r - 1) + 1 := by decide +kernel
  rw [this, succ_nsmul, e, neg_add_cancel]

theorem q_nsmul_gk : q • gk = 0 := by
  have hv : bitsVal (msb (q - 1) 253) 1 = q - 1 := by decide +kernel
  have h := ladderN_rep gk_rep (msb (q - 1) 253) 1 (1, gkY) _ (by simpa using gk_rep) ladder_gk
  rw [hv] at h
  obtain ⟨hns, h⟩ := h
  obtain ⟨h', hneg⟩ := shortW_neg_some ((gk_nonsingular_iff 1 gkY).2 (by rw [gkY_sq]; norm_num))
  have e : (q - 1) • gk = -gk := by
    rw [h]
    change _ = -(Point.some 1 (gkY : Fr) _)
    rw [hneg]
    have : ((r - gkY : ℕ) : Fr) = -(gkY : Fr) := by
      rw [cast_sub_le (by decide +kernel)]
    simp [this]
  have : q = (q - 1) + 1 := by decide +kernel
  rw [this, succ_nsmul, e, neg_add_cancel]

theorem g1_ne_zero : g1 ≠ 0 := Point.some_ne_zero _
theorem gk_ne_zero : gk ≠ 0 := Point.some_ne_zero _

theorem addOrderOf_g1 : addOrderOf g1 = r := addOrderOf_eq_prime r_nsmul_g1 g1_ne_zero
theorem addOrderOf_gk : addOrderOf gk = q := addOrderOf_eq_prime q_nsmul_gk gk_ne_zero

/-- `-3` is not a cube in `Fq`. -/
theorem neg_three_not_cube (x : Fq) : x ^ 3 ≠ -3 := by
  intro h
  have hx : x ≠ 0 := by
    rintro rfl
    apply three_ne_zero_q
    linear_combination h
  have h1 : x ^ (q - 1) = 1 := ZMod.pow_card_sub_one_eq_one hx
  have hq : q - 1 = 3 * ((q - 1) / 3) := by decide +kernel
  rw [hq, pow_mul, h] at h1
  have hm : ((q - 3 : ℕ) : Fq) = -3 := by rw [cast_sub_le (by decide +kernel)]; simp
  rw [← hm, ← powMod_cast _ _ _ (by decide +kernel)] at h1
  have h2 : ((1 : ℕ) : Fq) = 1 := by simp
  rw [← h2, ZMod.natCast_eq_natCast_iff'] at h1
  revert h1
  decide +kernel

theorem card_G1 : Nat.card G1 = r := by
  have hd : r ∣ Nat.card G1 := addOrderOf_g1 ▸ addOrderOf_dvd_natCard g1
  have hle : Nat.card G1 ≤ 2 * q + 1 := card_le
  have hpos : 0 < Nat.card G1 := Nat.card_pos
  obtain ⟨k, hk⟩ := hd
  have hbound : 2 * q + 1 < r * 3 := by decide +kernel
  have hk3 : k < 3 := by
    by_contra hc
    have : r * 3 ≤ r * k := Nat.mul_le_mul_left _ (by omega)
    omega
  have hk0 : k ≠ 0 := by rintro rfl; omega
  have hk2 : k ≠ 2 := by
    rintro rfl
    have h2 : 2 ∣ Nat.card G1 := ⟨r, by rw [hk]; ring⟩
    have : Fact (Nat.Prime 2) := ⟨Nat.prime_two⟩
    obtain ⟨P, hP⟩ := exists_prime_addOrderOf_dvd_card' 2 h2
    have hPP : P + P = 0 := by
      rw [← two_nsmul, ← hP]; exact addOrderOf_nsmul_eq_zero P
    cases P with
    | zero =>
      have : addOrderOf (0 : G1) = 2 := hP
      simp at this
    | some x y h =>
      have hy := shortW_two_torsion two_ne_zero_q h hPP
      have := (bn_nonsingular_iff x y).1 h
      apply neg_three_not_cube x
      rw [hy] at this
      linear_combination -this
  have : k = 1 := by omega
  rw [hk, this, mul_one]

theorem card_Gk : Nat.card Gk = q := by
  have hd : q ∣ Nat.card Gk := addOrderOf_gk ▸ addOrderOf_dvd_natCard gk
  have hle : Nat.card Gk ≤ 2 * r + 1 := card_le
  have hpos : 0 < Nat.card Gk := Nat.card_pos
  obtain ⟨k, hk⟩ := hd
  have hbound : 2 * r + 1 < q * 2 := by decide +kernel
  have hk2 : k < 2 := by
    by_contra hc
    have : q * 2 ≤ q * k := Nat.mul_le_mul_left _ (by omega)
    omega
  have hk0 : k ≠ 0 := by rintro rfl; omega
  have : k = 1 := by omega
  rw [hk, this, mul_one]

theorem r_nsmul (P : G1) : r • P = 0 := card_G1 ▸ card_nsmul_eq_zero' (x := P)
theorem q_nsmul (P : Gk) : q • P = 0 := card_Gk ▸ card_nsmul_eq_zero' (x := P)

/-- Scalars of `bn256::Fr` act on G1 (`BnG1 * BnScalar`, e.g. src/dkg.rs:124). -/
noncomputable instance : Module Fr G1 := AddCommGroup.zmodModule r_nsmul

/-- Scalars of `grumpkin::Fr = bn256::Fq` act on Grumpkin (`GkG1 * GkScalar`, e.g. src/lib.rs:68). -/
noncomputable instance : Module Fq Gk := AddCommGroup.zmodModule q_nsmul

theorem g1_generates (P : G1) : ∃ k : Fr, P = k • g1 := by
  have hc : Nat.card (AddSubgroup.zmultiples g1) = Nat.card G1 := by
    rw [Nat.card_zmultiples, addOrderOf_g1, card_G1]
  have htop : AddSubgroup.zmultiples g1 = ⊤ := AddSubgroup.eq_top_of_card_eq _ hc
  have : P ∈ AddSubgroup.zmultiples g1 := htop ▸ AddSubgroup.mem_top P
  obtain ⟨k, hk⟩ := AddSubgroup.mem_zmultiples_iff.1 this
  exact ⟨(k : Fr), by rw [← hk]; exact (Int.cast_smul_eq_zsmul Fr k g1).symm⟩

theorem gk_generates (P : Gk) : ∃ k : Fq, P = k • gk := by
  have hc : Nat.card (AddSubgroup.zmultiples gk) = Nat.card Gk := by
    rw [Nat.card_zmultiples, addOrderOf_gk, card_Gk]
  have htop : AddSubgroup.zmultiples gk = ⊤ := AddSubgroup.eq_top_of_card_eq _ hc
  have : P ∈ AddSubgroup.zmultiples gk := htop ▸ AddSubgroup.mem_top P
  obtain ⟨k, hk⟩ := AddSubgroup.mem_zmultiples_iff.1 this
  exact ⟨(k : Fq), by rw [← hk]; exact (Int.cast_smul_eq_zsmul Fq k gk).symm⟩

theorem smul_G1_eq_zero {k : Fr} {P : G1} (h : k • P = 0) : k = 0 ∨ P = 0 := by
  by_cases hk : k = 0
  · exact Or.inl hk
  · right
    have := congrArg (fun X => k⁻¹ • X) h
    simpa [smul_smul, inv_mul_cancel₀ hk] using this

theorem smul_Gk_eq_zero {k : Fq} {P : Gk} (h : k • P = 0) : k = 0 ∨ P = 0 := by
  by_cases hk : k = 0
  · exact Or.inl hk
  · right
    have := congrArg (fun X => k⁻¹ • X) h
    simpa [smul_smul, inv_mul_cancel₀ hk] using this

/-- No finite Grumpkin point has `y = 0`. -/
theorem gk_y_ne_zero {x y : Fr} (h : y ^ 2 = x ^ 3 + -17) : y ≠ 0 := by
  rintro rfl
  have hns := (gk_nonsingular_iff x 0).2 h
  have h2 : (2 : ℕ) • (Point.some x 0 hns : Gk) = 0 := by
    rw [two_nsmul]
    exact Point.add_self_of_Y_eq (by simp [negY])
  have h3 : (2 : Fq) • (Point.some x 0 hns : Gk) = 0 := by
    rw [← h2, ← Nat.cast_smul_eq_nsmul Fq]; norm_num
  rcases smul_Gk_eq_zero h3 with h | h
  · exact two_ne_zero_q h
  · exact Point.some_ne_zero _ h

/-- No finite BN254 point has `y = 0`. -/
theorem bn_y_ne_zero {x y : Fq} (h : y ^ 2 = x ^ 3 + 3) : y ≠ 0 := by
  rintro rfl
  apply neg_three_not_cube x
  linear_combination -h

end Verif
