import Verif.Lemmas.Halo2Open

/-! The scalars of the opening as interpolation. -/

namespace Verif.Halo2
attribute [local irreducible] fr
open Spec.Halo2 (Evals OpenSet)

/-- Interpolation at two points. -/
def lag2 (a b t : Fr) (v : Fin 2 → Fr) : Fr := v 0 * ((t - b) / (a - b)) + v 1 * ((t - a) / (b - a))

/-- Interpolation at three points. -/
def lag3 (a b c t : Fr) (v : Fin 3 → Fr) : Fr :=
  v 0 * ((t - b) * (t - c) / ((a - b) * (a - c))) + v 1 * ((t - a) * (t - c) / ((b - a) * (b - c))) +
    v 2 * ((t - a) * (t - b) / ((c - a) * (c - b)))

theorem interpolate1 (a t : Fr) (v : Fin 1 → Fr) :
    (Lagrange.interpolate Finset.univ ![a] v).eval t = v 0 := by
  rw [Lagrange.interpolate_apply]
  simp [Lagrange.basis]

theorem interpolate2 (a b t : Fr) (v : Fin 2 → Fr) :
    (Lagrange.interpolate Finset.univ ![a, b] v).eval t = lag2 a b t v := by
  rw [Lagrange.interpolate_apply, Polynomial.eval_finsetSum, Fin.sum_univ_two]
  have u0 : (Finset.univ : Finset (Fin 2)).erase 0 = {1} := by decide
  have u1 : (Finset.univ : Finset (Fin 2)).erase 1 = {0} := by decide
  simp only [Lagrange.basis, Lagrange.basisDivisor, u0, u1, Finset.prod_singleton, Matrix.cons_val,
    Polynomial.eval_mul, Polynomial.eval_C, Polynomial.eval_sub, Polynomial.eval_X, lag2, div_eq_mul_inv]
  ring

theorem interpolate3 (a b c t : Fr) (v : Fin 3 → Fr) :
    (Lagrange.interpolate Finset.univ ![a, b, c] v).eval t = lag3 a b c t v := by
  rw [Lagrange.interpolate_apply, Polynomial.eval_finsetSum, Fin.sum_univ_three]
  have u0 : (Finset.univ : Finset (Fin 3)).erase 0 = {1, 2} := by decide
  have u1 : (Finset.univ : Finset (Fin 3)).erase 1 = {0, 2} := by decide
  have u2 : (Finset.univ : Finset (Fin 3)).erase 2 = {0, 1} := by decide
  simp only [Lagrange.basis, Lagrange.basisDivisor, u0, u1, u2]
  rw [Finset.prod_pair (by decide), Finset.prod_pair (by decide), Finset.prod_pair (by decide)]
  simp only [Matrix.cons_val, Polynomial.eval_mul, Polynomial.eval_C, Polynomial.eval_sub,
    Polynomial.eval_X, lag3, div_eq_mul_inv, mul_inv]
  ring

theorem horn_mul (z k : Fr) (l : List Fr) : horn z l * k = horn z (l.map (· * k)) := by
  induction l with
  | nil => exact zero_mul k
  | cons a l ih =>
    change (horn z l * z + a) * k = horn z (l.map (· * k)) * z + a * k
    rw [← ih]
    ring

theorem horn_map (z k : Fr) (l : List Fr) : horn z (l.map (k * ·)) = k * horn z l := by
  rw [mul_comm, horn_mul]
  simp only [mul_comm]

theorem horn_scale (z t f : Fr) (l : List Fr) :
    t * (horn z l * f) = horn z (l.map (· * t)) * f := by
  rw [← horn_mul]
  ring

theorem horn_scale0 (z t : Fr) (l : List Fr) : t * horn z l = horn z (l.map (· * t)) := by
  rw [← horn_mul, mul_comm]

/-- The blocks computing the values of the sets. -/
def openEvals (c : ℕ → Word) (s : St) : St := open12 c (open11 c (open10 c (open9 c (open8 c s))))

/-- All blocks but the last. -/
def openScalars (c : ℕ → Word) (s : St) : St :=
  open18 (openSums (openEvals c (open7 (openCoeffs (open1 (open0 s))))))

theorem batchOpen_eq (c : ℕ → Word) (s : St) : batchOpen c s = open19 c (openScalars c s) := rfl

theorem openCoeffs_ok (s : St) : (openCoeffs s).ok = s.ok := rfl
theorem openEvals_ok (c : ℕ → Word) (s : St) : (openEvals c s).ok = s.ok := rfl
theorem openSums_ok (s : St) : (openSums s).ok = s.ok := rfl

theorem openEvals_frame (c : ℕ → Word) (s : St) (a : ℕ) (h : a < 0x580 ∨ 0x620 ≤ a) :
    (openEvals c s).mem a = s.mem a := by
  unfold openEvals
  rw [open12_frame _ _ _ (by omega), open11_frame _ _ _ (by omega), open10_frame _ _ _ (by omega),
    open9_frame _ _ _ (by omega), open8_frame _ _ _ (by omega)]

/-- The combined values of the sets. -/
def setEvals (e : Evals) (q x w z mu : Fr) : List Fr :=
  [horn z
    [lag3 (x * w⁻¹) x (x * w) mu ![e.aPrev 0, e.a 0, e.aNext 0],
     lag3 (x * w⁻¹) x (x * w) mu ![e.aPrev 1, e.a 1, e.aNext 1],
     lag3 (x * w⁻¹) x (x * w) mu ![e.aPrev 2, e.a 2, e.aNext 2]],
   horn z (setVals1 e q),
   horn z
    [lag2 x (x * w) mu ![e.a 4, e.a4Next], lag2 x (x * w) mu ![e.z 2, e.zNext 2],
     lag2 x (x * w) mu ![e.lz 0, e.lzNext 0], lag2 x (x * w) mu ![e.lz 1, e.lzNext 1],
     lag2 x (x * w) mu ![e.lz 2, e.lzNext 2], lag2 x (x * w) mu ![e.lz 3, e.lzNext 3],
     lag2 x (x * w) mu ![e.lz 4, e.lzNext 4]],
   horn z
    [lag3 (x * w⁻¹ ^ 6) x (x * w) mu ![e.zLast 0, e.z 0, e.zNext 0],
     lag3 (x * w⁻¹ ^ 6) x (x * w) mu ![e.zLast 1, e.z 1, e.zNext 1]],
   horn z
    [lag2 (x * w⁻¹) x mu ![e.liPrev 0, e.li 0], lag2 (x * w⁻¹) x mu ![e.liPrev 1, e.li 1],
     lag2 (x * w⁻¹) x mu ![e.liPrev 2, e.li 2], lag2 (x * w⁻¹) x mu ![e.liPrev 3, e.li 3],
     lag2 (x * w⁻¹) x mu ![e.liPrev 4, e.li 4]]]

/-- The factors of the sets: quotient of the vanishing polynomials of the first set and of the set. -/
def setFactors (x w mu : Fr) : List Fr :=
  [1, (mu - x * w⁻¹) * (mu - x * w), mu - x * w⁻¹, (mu - x * w⁻¹) / (mu - x * w⁻¹ ^ 6), mu - x * w]

theorem sum3 (a b c t : Fr) (hab : a - b ≠ 0) (hac : a - c ≠ 0) (hbc : b - c ≠ 0) (ta : t - a ≠ 0)
    (tb : t - b ≠ 0) (tc : t - c ≠ 0) :
    ((a - b) * (a - c) * (t - a))⁻¹ + ((b - a) * (b - c) * (t - b))⁻¹ + ((c - a) * (c - b) * (t - c))⁻¹ =
      ((t - a) * (t - b) * (t - c))⁻¹ := by
  have hba : b - a ≠ 0 := by rw [← neg_sub]; exact neg_ne_zero.2 hab
  have hca : c - a ≠ 0 := by rw [← neg_sub]; exact neg_ne_zero.2 hac
  have hcb : c - b ≠ 0 := by rw [← neg_sub]; exact neg_ne_zero.2 hbc
  rw [show b - a = -(a - b) by ring, show c - a = -(a - c) by ring, show c - b = -(b - c) by ring]
  field_simp
  ring

theorem sum2 (a b t : Fr) (hab : a - b ≠ 0) (ta : t - a ≠ 0) (tb : t - b ≠ 0) :
    ((a - b) * (t - a))⁻¹ + ((b - a) * (t - b))⁻¹ = ((t - a) * (t - b))⁻¹ := by
  rw [show b - a = -(a - b) by ring]
  field_simp
  ring

theorem scale3 (a b c t u v w : Fr) (hab : a - b ≠ 0) (hac : a - c ≠ 0) (hbc : b - c ≠ 0)
    (ta : t - a ≠ 0) (tb : t - b ≠ 0) (tc : t - c ≠ 0) :
    (((a - b) * (a - c) * (t - a))⁻¹ * u + ((b - a) * (b - c) * (t - b))⁻¹ * v +
      ((c - a) * (c - b) * (t - c))⁻¹ * w) * ((t - a) * (t - b) * (t - c)) = lag3 a b c t ![u, v, w] := by
  simp only [lag3, Matrix.cons_val]
  rw [show b - a = -(a - b) by ring, show c - a = -(a - c) by ring, show c - b = -(b - c) by ring]
  field_simp

theorem scale2 (a b t u v : Fr) (hab : a - b ≠ 0) (ta : t - a ≠ 0) (tb : t - b ≠ 0) :
    (((a - b) * (t - a))⁻¹ * u + ((b - a) * (t - b))⁻¹ * v) * ((t - a) * (t - b)) =
      lag2 a b t ![u, v] := by
  simp only [lag2, Matrix.cons_val]
  rw [show b - a = -(a - b) by ring]
  field_simp

/-- What the scalar part of the opening leaves in memory. -/
structure Scalars (c : ℕ → Word) (m : Mem) (x w z nu mu q : Fr) : Prop where
  zs : fr (m 0x4c0) = (mu - x * w⁻¹) * (mu - x) * (mu - x * w)
  zsl : (m 0x4c0).toNat < r
  s1 : fr (m 0x500) = (mu - x * w⁻¹) * (mu - x * w)
  s2 : fr (m 0x520) = mu - x * w⁻¹
  s3 : fr (m 0x540) = (mu - x * w⁻¹) / (mu - x * w⁻¹ ^ 6)
  s4 : fr (m 0x560) = mu - x * w
  re : fr (m R_EVAL_MPTR) = horn nu
    (List.zipWith (· * ·) (setEvals (evalsOf c) q x w z mu) (setFactors x w mu))
  rel : (m R_EVAL_MPTR).toNat < r

theorem openScalars_spec (c : ℕ → Word) (s : St) (x w z nu mu q : Fr)
    (hx : fr (s.mem X_MPTR) = x) (hxl : (s.mem X_MPTR).toNat < r)
    (hw : fr (s.mem OMEGA_MPTR) = w) (hwi : fr (s.mem OMEGA_INV_MPTR) = w⁻¹)
    (hmu : fr (s.mem MU_MPTR) = mu) (hz : fr (s.mem ZETA_MPTR) = z) (hnu : fr (s.mem NU_MPTR) = nu)
    (hq : fr (s.mem QUOTIENT_EVAL_MPTR) = q)
    (hn : Nondeg (x * w⁻¹ ^ 6) (x * w⁻¹) x (x * w) mu) :
    Scalars c (openScalars c s).mem x w z nu mu q ∧ (openScalars c s).ok = s.ok ∧
    ∀ a, 0x6c0 ≤ a → a ≠ R_EVAL_MPTR → (openScalars c s).mem a = s.mem a := by
  obtain ⟨pts, ok0, f0⟩ := open0_spec s x w hx hxl hw hwi
  unfold openScalars
  obtain ⟨pts, di, di', z0, ok1, f1⟩ := open1_spec (open0 s) _ _ _ _ mu pts
    (by rw [f0 _ (by decide)]; exact hmu)
  have co := openCoeffs_spec (open1 (open0 s)) _ _ _ _ mu pts di
  have f2 := openCoeffs_frame (open1 (open0 s))
  have ok2 : (openCoeffs (open1 (open0 s))).ok = s.ok := by
    rw [openCoeffs_ok, ok1, ok0]
  have hF : ∀ a, 0x6c0 ≤ a → (openCoeffs (open1 (open0 s))).mem a = s.mem a := by
    intro a ha
    rw [f2 a (by omega), f1 a ha, f0 a (by omega)]
  have z0' : fr ((openCoeffs (open1 (open0 s))).mem 0) = mu - x * w⁻¹ ^ 6 := by
    rw [f2 0 (by omega)]; exact z0
  have di2 : Diffs' (openCoeffs (open1 (open0 s))).mem (x * w⁻¹ ^ 6) (x * w⁻¹) x (x * w) mu := by
    obtain ⟨a1, a2, a3, a4, a5, a6⟩ := di'
    refine ⟨?_, ?_, ?_, ?_, ?_, ?_⟩ <;> (rw [f2 _ (by decide)]; with_reducible assumption)
  generalize openCoeffs (open1 (open0 s)) = s2 at co ok2 hF z0' di2 ⊢
  clear pts di di' z0 f0 f1 f2 ok0 ok1
  obtain ⟨ic, fa, ok3, f3⟩ := open7_spec s2 _ _ _ _ mu hn z0' co di2
  rw [ok2] at ok3
  have hF3 : ∀ a, 0x6c0 ≤ a → (open7 s2).mem a = s.mem a := fun a ha => by rw [f3 a ha, hF a ha]
  generalize open7 s2 = s3 at ic fa ok3 hF3 ⊢
  clear co hF z0' di2 ok2 f3 s2
  obtain ⟨h02, h03, h12, h13, h23, m0, m1, m2, m3⟩ := hn
  have E0 := open8_spec c s3 z _ _ _ (by rw [hF3 _ (by decide)]; exact hz) ic.c1 ic.c2 ic.c3
  have E1 := open9_spec c (open8 c s3) z _ _ q
    (by rw [open8_frame _ _ _ (by decide), hF3 _ (by decide)]; exact hz)
    ((congrArg fr (by rw [open8_frame _ _ _ (by decide)])).trans ic.c4)
    ((congrArg fr (by rw [open8_frame _ _ _ (by decide)])).trans fa.s1)
    (by rw [open8_frame _ _ _ (by decide), hF3 _ (by decide)]; exact hq)
  have E2 := open10_spec c (open9 c (open8 c s3)) z _ _ _
    (by rw [open9_frame _ _ _ (by decide), open8_frame _ _ _ (by decide), hF3 _ (by decide)]; exact hz)
    ((congrArg fr (by rw [open9_frame _ _ _ (by decide), open8_frame _ _ _ (by decide)])).trans ic.c5)
    ((congrArg fr (by rw [open9_frame _ _ _ (by decide), open8_frame _ _ _ (by decide)])).trans ic.c6)
    ((congrArg fr (by rw [open9_frame _ _ _ (by decide), open8_frame _ _ _ (by decide)])).trans fa.s2)
  have E3 := open11_spec c (open10 c (open9 c (open8 c s3))) z _ _ _ _
    (by rw [open10_frame _ _ _ (by decide), open9_frame _ _ _ (by decide), open8_frame _ _ _ (by decide),
      hF3 _ (by decide)]; exact hz)
    ((congrArg fr (by rw [open10_frame _ _ _ (by decide), open9_frame _ _ _ (by decide), open8_frame _ _ _ (by decide)])).trans ic.c7)
    ((congrArg fr (by rw [open10_frame _ _ _ (by decide), open9_frame _ _ _ (by decide), open8_frame _ _ _ (by decide)])).trans ic.c8)
    ((congrArg fr (by rw [open10_frame _ _ _ (by decide), open9_frame _ _ _ (by decide), open8_frame _ _ _ (by decide)])).trans ic.c9)
    ((congrArg fr (by rw [open10_frame _ _ _ (by decide), open9_frame _ _ _ (by decide), open8_frame _ _ _ (by decide)])).trans fa.s3)
  have E4 := open12_spec c (open11 c (open10 c (open9 c (open8 c s3)))) z _ _ _
    (by rw [open11_frame _ _ _ (by decide), open10_frame _ _ _ (by decide), open9_frame _ _ _ (by decide),
      open8_frame _ _ _ (by decide), hF3 _ (by decide)]; exact hz)
    ((congrArg fr (by rw [open11_frame _ _ _ (by decide), open10_frame _ _ _ (by decide), open9_frame _ _ _ (by decide), open8_frame _ _ _ (by decide)])).trans ic.c10)
    ((congrArg fr (by rw [open11_frame _ _ _ (by decide), open10_frame _ _ _ (by decide), open9_frame _ _ _ (by decide), open8_frame _ _ _ (by decide)])).trans ic.c11)
    ((congrArg fr (by rw [open11_frame _ _ _ (by decide), open10_frame _ _ _ (by decide), open9_frame _ _ _ (by decide), open8_frame _ _ _ (by decide)])).trans fa.s4)
  have F0 : fr ((openEvals c s3).mem 0x580) = fr ((open8 c s3).mem 0x580) := by
    unfold openEvals
    rw [open12_frame _ _ _ (by decide), open11_frame _ _ _ (by decide), open10_frame _ _ _ (by decide),
      open9_frame _ _ _ (by decide)]
  have F1 : fr ((openEvals c s3).mem 0x5a0) = fr ((open9 c (open8 c s3)).mem 0x5a0) := by
    unfold openEvals
    rw [open12_frame _ _ _ (by decide), open11_frame _ _ _ (by decide), open10_frame _ _ _ (by decide)]
  have F2 : fr ((openEvals c s3).mem 0x5c0) = fr ((open10 c (open9 c (open8 c s3))).mem 0x5c0) := by
    unfold openEvals
    rw [open12_frame _ _ _ (by decide), open11_frame _ _ _ (by decide)]
  have F3 : fr ((openEvals c s3).mem 0x5e0) =
      fr ((open11 c (open10 c (open9 c (open8 c s3)))).mem 0x5e0) := by
    unfold openEvals
    rw [open12_frame _ _ _ (by decide)]
  have F4 : fr ((openEvals c s3).mem 0x600) =
      fr ((open12 c (open11 c (open10 c (open9 c (open8 c s3))))).mem 0x600) := by
    unfold openEvals
    rfl
  rw [E0] at F0
  rw [E1] at F1
  rw [E2] at F2
  rw [E3] at F3
  rw [E4] at F4
  clear E0 E1 E2 E3 E4
  have hf4 := openEvals_frame c s3
  have ok4 := openEvals_ok c s3
  generalize openEvals c s3 = s4 at F0 F1 F2 F3 F4 hf4 ok4 ⊢
  have hf5 := openSums_frame s4
  obtain ⟨S0, S1, S2, S3, S4⟩ := openSums_spec s4
  have ok5 := openSums_ok s4
  generalize openSums s4 = s5 at hf5 S0 S1 S2 S3 S4 ok5 ⊢
  rw [hf4 _ (by decide), hf4 _ (by decide), hf4 _ (by decide), ic.c1, ic.c2, ic.c3,
    sum3 _ _ _ _ h12 h13 h23 m1 m2 m3] at S0
  rw [hf4 _ (by decide), ic.c4] at S1
  rw [hf4 _ (by decide), hf4 _ (by decide), ic.c5, ic.c6, sum2 _ _ _ h23 m2 m3] at S2
  rw [hf4 _ (by decide), hf4 _ (by decide), hf4 _ (by decide), ic.c7, ic.c8, ic.c9,
    sum3 _ _ _ _ h02 h03 h23 m0 m2 m3] at S3
  rw [hf4 _ (by decide), hf4 _ (by decide), ic.c10, ic.c11, sum2 _ _ _ h12 m1 m2] at S4
  obtain ⟨R, Rl, ok6, f6⟩ := open18_spec s5 nu _ _ _ _ _
    (by rw [hf5 _ (by decide), hf4 _ (by decide), hF3 _ (by decide)]; exact hnu) S0 S1 S2 S3 S4
    (inv_ne_zero (mul_ne_zero (mul_ne_zero m1 m2) m3)) (inv_ne_zero m2)
    (inv_ne_zero (mul_ne_zero m2 m3)) (inv_ne_zero (mul_ne_zero (mul_ne_zero m0 m2) m3))
    (inv_ne_zero (mul_ne_zero m1 m2))
  rw [hf5 _ (by decide), hf5 _ (by decide), hf5 _ (by decide), hf5 _ (by decide), hf5 _ (by decide),
    F0, F1, F2, F3, F4] at R
  refine ⟨⟨?_, ?_, ?_, ?_, ?_, ?_, ?_, Rl⟩, ?_, ?_⟩
  · rw [f6 _ (by decide) (by decide), hf5 _ (by decide), hf4 _ (by decide)]; exact fa.zs
  · rw [f6 _ (by decide) (by decide), hf5 _ (by decide), hf4 _ (by decide)]; exact fa.zsl
  · rw [f6 _ (by decide) (by decide), hf5 _ (by decide), hf4 _ (by decide)]; exact fa.s1
  · rw [f6 _ (by decide) (by decide), hf5 _ (by decide), hf4 _ (by decide)]; exact fa.s2
  · rw [f6 _ (by decide) (by decide), hf5 _ (by decide), hf4 _ (by decide)]; exact fa.s3
  · rw [f6 _ (by decide) (by decide), hf5 _ (by decide), hf4 _ (by decide)]; exact fa.s4
  · rw [R]
    have g : ∀ f : Fr, (mu - x)⁻¹⁻¹ * (horn z (List.map ((mu - x)⁻¹ * ·) (setVals1 (evalsOf c) q)) * f) =
        horn z (setVals1 (evalsOf c) q) * f := by
      intro f
      rw [horn_map, mul_assoc, ← mul_assoc, inv_inv, mul_inv_cancel₀ m2, one_mul]
    rw [g]
    clear g
    simp only [setEvals, setFactors, List.zipWith_cons_cons, List.zipWith_nil_right, inv_inv, mul_one]
    rw [horn_scale0 _ ((mu - x * w⁻¹) * (mu - x) * (mu - x * w)), horn_scale _ ((mu - x) * (mu - x * w)),
      horn_scale _ ((mu - x * w⁻¹ ^ 6) * (mu - x) * (mu - x * w)), horn_scale _ ((mu - x * w⁻¹) * (mu - x))]
    simp only [List.map_cons, List.map_nil, scale3 _ _ _ _ _ _ _ h12 h13 h23 m1 m2 m3,
      scale3 _ _ _ _ _ _ _ h02 h03 h23 m0 m2 m3, scale2 _ _ _ _ _ h23 m2 m3,
      scale2 _ _ _ _ _ h12 m1 m2]
  · rw [ok6, ok5, ok4, ok3]
  · intro a h1 h2
    rw [f6 a (by omega) h2, hf5 a (by omega), hf4 a (by omega), hF3 a h1]

end Verif.Halo2
