import Verif.Lemmas.Halo2Comm

/-! The point computed by the on-chain proof verifier is the one of the equation of the opening. -/

namespace Verif.Halo2
attribute [local irreducible] fr
open Spec.Halo2 (Evals OpenSet Proof Key Challenges openSets totalClaim)

theorem powSum_smul {M : Type} [AddCommGroup M] [Module Fr M] (z k : Fr) (l : List M) :
    k • powSum z l = powSum z (l.map (k • ·)) := by
  induction l with
  | nil => exact smul_zero k
  | cons a l ih =>
    change k • (z • powSum z l + a) = z • powSum z (l.map (k • ·)) + k • a
    rw [← ih, smul_add, smul_smul, smul_smul, mul_comm]

theorem totalClaim_eq (sets : List OpenSet) (g : G1) (zeta nu mu : Fr) :
    totalClaim sets g zeta nu mu =
      powSum nu (sets.map fun S => (S.vanish mu)⁻¹ • S.claim g zeta mu) := by
  unfold totalClaim
  simp only [mul_smul]
  exact powSum_range nu (fun S : OpenSet => (S.vanish mu)⁻¹ • S.claim g zeta mu) ⟨0, 0, []⟩ sets

theorem scale1 (s v f : Fr) (h : s * v⁻¹ = f) (A : G1) : s • (v⁻¹ • A) = f • A := by
  rw [smul_smul, h]

theorem vanish1 (a t : Fr) (q) : OpenSet.vanish ⟨1, ![a], q⟩ t = t - a := by
  simp only [OpenSet.vanish, Fin.prod_univ_one, Matrix.cons_val]
theorem vanish2 (a b t : Fr) (q) : OpenSet.vanish ⟨2, ![a, b], q⟩ t = (t - a) * (t - b) := by
  simp only [OpenSet.vanish, Fin.prod_univ_two, Matrix.cons_val]
theorem vanish3 (a b c t : Fr) (q) :
    OpenSet.vanish ⟨3, ![a, b, c], q⟩ t = (t - a) * (t - b) * (t - c) := by
  simp only [OpenSet.vanish, Fin.prod_univ_three, Matrix.cons_val]

theorem rearrange (A B g w W : G1) (y t : Fr) (h : A - y • g = B) :
    A + (-y) • g + (-t) • w + W = B - t • w + W := by
  rw [← h, neg_smul, neg_smul, ← sub_eq_add_neg, ← sub_eq_add_neg]

theorem ratio1 (a b c : Fr) (hb : b ≠ 0) : a * b * c * b⁻¹ = a * c := by field_simp
theorem ratio2 (a b c : Fr) (hb : b ≠ 0) (hc : c ≠ 0) : a * b * c * (b * c)⁻¹ = a := by field_simp
theorem ratio3 (a b c d : Fr) (hb : b ≠ 0) (hc : c ≠ 0) (hd : d ≠ 0) :
    a * b * c * (d * b * c)⁻¹ = a / d := by field_simp
theorem ratio4 (a b c : Fr) (ha : a ≠ 0) (hb : b ≠ 0) : a * b * c * (a * b)⁻¹ = c := by field_simp

theorem lhs_eq (V : Key) (C : Challenges) (inst : List Fr) (P : Proof)
    (m0 : C.mu - C.x * V.omega⁻¹ ^ 6 ≠ 0) (m1 : C.mu - C.x * V.omega⁻¹ ≠ 0) (m2 : C.mu - C.x ≠ 0)
    (m3 : C.mu - C.x * V.omega ≠ 0) :
    lhsPoint V P (Spec.Halo2.quotientComm V C P) C.zeta C.nu C.mu
      (horn C.nu (List.zipWith (· * ·)
        (setEvals P.evals (Spec.Halo2.quotientEval V C inst P.evals) C.x V.omega C.zeta C.mu)
        (setFactors C.x V.omega C.mu)))
      ((C.mu - C.x * V.omega⁻¹) * (C.mu - C.x) * (C.mu - C.x * V.omega))
      (setFactors C.x V.omega C.mu) =
    ((openSets V C inst P).getD 0 ⟨0, 0, []⟩).vanish C.mu •
      (totalClaim (openSets V C inst P) V.g1 C.zeta C.nu C.mu - P.w) + C.mu • P.w' := by
  unfold lhsPoint
  have hzip : List.zipWith (fun (k : Fr) l => k • powSum C.zeta l) (setFactors C.x V.omega C.mu)
      (setComms V P (Spec.Halo2.quotientComm V C P)) =
      List.zipWith (fun (a : Fr) (b : G1) => a • b) (setFactors C.x V.omega C.mu)
        ((setComms V P (Spec.Halo2.quotientComm V C P)).map (powSum C.zeta)) := by
    rw [List.zipWith_map_right]
  rw [smul_sub, totalClaim_eq, powSum_smul, List.map_map, hzip]
  have hz := horn_zip C.nu V.g1
    ((setComms V P (Spec.Halo2.quotientComm V C P)).map (powSum C.zeta))
    (setEvals P.evals (Spec.Halo2.quotientEval V C inst P.evals) C.x V.omega C.zeta C.mu)
    (setFactors C.x V.omega C.mu)
    (by simp only [setComms, setEvals, List.map_cons, List.map_nil, List.length_cons, List.length_nil])
    (by simp only [setFactors, setEvals, List.length_cons, List.length_nil])
  have hv : ((openSets V C inst P).getD 0 ⟨0, 0, []⟩).vanish C.mu =
      (C.mu - C.x * V.omega⁻¹) * (C.mu - C.x) * (C.mu - C.x * V.omega) := vanish3 _ _ _ _ _
  rw [hv]
  refine rearrange _ _ _ _ _ _ _ ?_
  rw [hz.symm]
  refine congrArg (powSum C.nu) ?_
  clear hz hzip hv
  simp only [openSets, setComms, setEvals, setFactors, List.map_cons, List.map_nil, List.zipWith_cons_cons,
    List.zipWith_nil_right, Function.comp]
  rw [scale1 _ _ 1 (by rw [vanish3]; exact mul_inv_cancel₀ (mul_ne_zero (mul_ne_zero m1 m2) m3)),
    scale1 _ _ ((C.mu - C.x * V.omega⁻¹) * (C.mu - C.x * V.omega)) (by rw [vanish1]; exact ratio1 _ _ _ m2),
    scale1 _ _ (C.mu - C.x * V.omega⁻¹) (by rw [vanish2]; exact ratio2 _ _ _ m2 m3),
    scale1 _ _ ((C.mu - C.x * V.omega⁻¹) / (C.mu - C.x * V.omega⁻¹ ^ 6))
      (by rw [vanish3]; exact ratio3 _ _ _ _ m2 m3 m0),
    scale1 _ _ (C.mu - C.x * V.omega) (by rw [vanish2]; exact ratio4 _ _ _ m1 m2)]
  simp only [claim_eq, List.map_cons, List.map_nil, OpenSet.interpolant]
  simp only [interpolate1, interpolate2, interpolate3, setVals1, Matrix.cons_val]

end Verif.Halo2
