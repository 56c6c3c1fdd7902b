import Verif.Model.Dkg

/-! Helper lemmas about the pairing parameter, and a concrete instance of it. -/

namespace Verif
open WeierstrassCurve.Affine

theorem val_smul_G1 (k : Fr) (P : G1) : k • P = k.val • P := by
  conv_lhs => rw [← ZMod.natCast_zmod_val k]
  exact Nat.cast_smul_eq_nsmul Fr k.val P

theorem val_smul_Gk (k : Fq) (P : Gk) : k • P = k.val • P := by
  conv_lhs => rw [← ZMod.natCast_zmod_val k]
  exact Nat.cast_smul_eq_nsmul Fq k.val P

theorem torsion_nsmul {Q : G2} (h : r • Q = 0) (n : ℕ) : r • (n • Q) = 0 := by
  rw [smul_comm, h, nsmul_zero]

theorem smul2_torsion (k : Fr) : r • smul2 k g2 = 0 := torsion_nsmul r_nsmul_g2 _

namespace BnPairing
variable (E : BnPairing)

/-- The pairing with a fixed torsion point, as a homomorphism. -/
def homL (Q : G2) (hQ : r • Q = 0) : G1 →+ E.GT :=
  AddMonoidHom.mk' (fun P => E.e P Q) (fun P P' => E.add_left P P' Q hQ)

theorem e_nsmul_left (n : ℕ) (P : G1) {Q : G2} (hQ : r • Q = 0) : E.e (n • P) Q = n • E.e P Q :=
  map_nsmul (E.homL Q hQ) n P

theorem e_neg_left (P : G1) {Q : G2} (hQ : r • Q = 0) : E.e (-P) Q = - E.e P Q :=
  map_neg (E.homL Q hQ) P

theorem e_zero_left {Q : G2} (hQ : r • Q = 0) : E.e 0 Q = 0 := map_zero (E.homL Q hQ)

theorem e_zero_right (P : G1) : E.e P 0 = 0 := by
  have := E.add_right P 0 0 (by simp) (by simp)
  rw [add_zero] at this
  simpa using this

theorem e_nsmul_right (P : G1) {Q : G2} (hQ : r • Q = 0) : ∀ n : ℕ, E.e P (n • Q) = n • E.e P Q
  | 0 => by simp [e_zero_right]
  | n + 1 => by
      rw [add_smul, one_smul, E.add_right P _ _ (torsion_nsmul hQ n) hQ, e_nsmul_right P hQ n,
        add_smul, one_smul]

theorem r_nsmul_T : r • E.e g1 g2 = 0 := by
  rw [← E.e_nsmul_left r g1 r_nsmul_g2, r_nsmul_g1, E.e_zero_left r_nsmul_g2]

/-- Exponents in the target group. -/
def T : Fr →+ E.GT :=
  ZMod.lift r ⟨zmultiplesHom E.GT (E.e g1 g2), by
    simpa using E.r_nsmul_T⟩

theorem T_natCast (n : ℕ) : E.T (n : Fr) = n • E.e g1 g2 := by
  have h := ZMod.lift_coe r (A := E.GT) ⟨zmultiplesHom E.GT (E.e g1 g2), by
    simpa using E.r_nsmul_T⟩ (n : ℤ)
  simpa [T] using h

theorem T_eq_zero_iff (a : Fr) : E.T a = 0 ↔ a = 0 := by
  constructor
  · intro h
    rw [← ZMod.natCast_zmod_val a, T_natCast] at h
    have ho : addOrderOf (E.e g1 g2) = r := addOrderOf_eq_prime E.r_nsmul_T E.nondeg
    have hd := addOrderOf_dvd_of_nsmul_eq_zero h
    rw [ho] at hd
    rw [← ZMod.natCast_zmod_val a]
    exact (ZMod.natCast_eq_zero_iff _ _).2 hd
  · rintro rfl; exact map_zero _

/-- The pairing multiplies exponents. -/
theorem e_smul (a k : Fr) : E.e (a • g1) (smul2 k g2) = E.T (a * k) := by
  rw [smul2, E.e_nsmul_right _ r_nsmul_g2, val_smul_G1, E.e_nsmul_left _ _ r_nsmul_g2, smul_smul,
    ← T_natCast]
  congr 1
  push_cast
  rw [ZMod.natCast_zmod_val, ZMod.natCast_zmod_val, mul_comm]

theorem e_smul_g2 (a : Fr) : E.e (a • g1) g2 = E.T a := by
  have h := E.e_smul a 1
  rw [mul_one] at h
  rw [← h, smul2]
  rw [ZMod.val_one, one_smul]

/-- The product check of two pairings compares exponents. -/
theorem check2_iff (h p : G1) (k : Fr) :
    E.check2 (-h) (smul2 k g2) p g2 = true ↔ p = k • h := by
  obtain ⟨a, rfl⟩ := g1_generates h
  obtain ⟨b, rfl⟩ := g1_generates p
  rw [check2, decide_eq_true_eq, ← neg_smul, E.e_smul, E.e_smul_g2, ← map_add, T_eq_zero_iff,
    smul_smul]
  constructor
  · intro h
    congr 1
    linear_combination h
  · intro h
    have h2 : (b - k * a) • g1 = 0 := by rw [sub_smul, h, sub_self]
    rcases smul_G1_eq_zero h2 with h3 | h3
    · linear_combination h3
    · exact absurd h3 g1_ne_zero

end BnPairing

/-! ### Scalars of the order-`r` subgroup of the twist -/

theorem torsion_eq_smul2 {Q : G2} (h : r • Q = 0) : ∃ k : Fr, Q = smul2 k g2 := by
  obtain ⟨k, rfl⟩ := AddSubgroup.mem_zmultiples_iff.1 (r_torsion h)
  refine ⟨(k : Fr), ?_⟩
  rw [smul2, ← natCast_zsmul, ZMod.val_intCast]
  have hr : (r : ℤ) • g2 = 0 := by rw [natCast_zsmul]; exact r_nsmul_g2
  conv_lhs => rw [← Int.emod_add_mul_ediv k r]
  rw [add_zsmul, mul_comm, mul_zsmul, hr, zsmul_zero, add_zero]

theorem smul2_add (a b : Fr) : smul2 (a + b) g2 = smul2 a g2 + smul2 b g2 := by
  have h : ∀ m n : ℕ, ((m : Fr) = (n : Fr)) → m • g2 = n • g2 := by
    intro m n h
    rw [ZMod.natCast_eq_natCast_iff] at h
    exact (nsmul_eq_nsmul_iff_modEq).2 (by rw [addOrderOf_g2]; exact h)
  rw [smul2, smul2, smul2, ← add_smul]
  apply h
  push_cast
  simp

theorem smul2_inj {a b : Fr} (h : smul2 a g2 = smul2 b g2) : a = b := by
  have h1 := (nsmul_eq_nsmul_iff_modEq).1 h
  rw [addOrderOf_g2] at h1
  have h2 := (ZMod.natCast_eq_natCast_iff _ _ _).2 h1
  simpa using h2

theorem smul_g1_inj {a b : Fr} (h : a • g1 = b • g1) : a = b := by
  have h2 : (a - b) • g1 = 0 := by rw [sub_smul, h, sub_self]
  rcases smul_G1_eq_zero h2 with h3 | h3
  · linear_combination h3
  · exact absurd h3 g1_ne_zero

theorem smul2_zero' : smul2 0 g2 = 0 := by simp [smul2]

/-! ### A concrete pairing, to show that the structure is inhabited -/

open Classical in
/-- Discrete logarithm on the order-`r` subgroup, zero elsewhere. -/
noncomputable def dlog2 (Q : G2) : Fr :=
  if h : r • Q = 0 then (torsion_eq_smul2 h).choose else 0

theorem dlog2_smul2 (k : Fr) : dlog2 (smul2 k g2) = k := by
  have h := smul2_torsion k
  rw [dlog2, dif_pos h]
  exact smul2_inj (torsion_eq_smul2 h).choose_spec.symm

/-- Discrete logarithm on G1. -/
noncomputable def dlog1 (P : G1) : Fr := (g1_generates P).choose

theorem dlog1_smul (k : Fr) : dlog1 (k • g1) = k :=
  smul_g1_inj (g1_generates (k • g1)).choose_spec.symm

/-- The pairing that multiplies discrete logarithms: witnesses that `BnPairing` is inhabited. -/
noncomputable def toyPairing : BnPairing where
  GT := Fr
  e P Q := dlog1 P * dlog2 Q
  add_left P P' Q _ := by
    obtain ⟨a, rfl⟩ := g1_generates P
    obtain ⟨b, rfl⟩ := g1_generates P'
    rw [← add_smul, dlog1_smul, dlog1_smul, dlog1_smul, add_mul]
  add_right P Q Q' hQ hQ' := by
    obtain ⟨a, rfl⟩ := torsion_eq_smul2 hQ
    obtain ⟨b, rfl⟩ := torsion_eq_smul2 hQ'
    rw [← smul2_add, dlog2_smul2, dlog2_smul2, dlog2_smul2, mul_add]
  nondeg := by
    have h1 : dlog1 g1 = 1 := by
      have := dlog1_smul 1
      rwa [one_smul] at this
    have h2 : dlog2 g2 = 1 := by
      have := dlog2_smul2 1
      rwa [smul2, ZMod.val_one, one_smul] at this
    rw [h1, h2, mul_one]
    exact one_ne_zero

end Verif
