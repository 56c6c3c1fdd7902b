import Verif.Lemmas.Halo2Quot
import Verif.Lemmas.Halo2Ec

/-! Helper lemmas about the scalars of the opening computed by the on-chain proof verifier. -/

namespace Verif.Halo2
attribute [local irreducible] fr

/-- Evaluates a memory read at a fixed address. -/
macro "mem_simp" : tactic => `(tactic|
  simp only [St.store, store_apply, X_MPTR, OMEGA_MPTR, OMEGA_INV_MPTR, MU_MPTR, ZETA_MPTR, NU_MPTR,
    R_EVAL_MPTR, QUOTIENT_EVAL_MPTR, Nat.reduceEqDiff, reduceIte, Nat.reduceAdd])

/-- Rewrites a computed word into the field, using `h` for the sizes of words in memory. -/
macro "fr_mem" : tactic => `(tactic|
  simp (disch := first | exact mulr_lt _ _ | exact addr_lt _ _ | (with_reducible assumption)) only
    [fr_mulr, fr_addr, fr_subr, fr_one, fr_zero])

/-- The four points `x / w^6`, `x / w`, `x`, `x w`. -/
structure Pts (m : Mem) (p0 p1 p2 p3 : Fr) : Prop where
  e0 : fr (m 0x3c0) = p0
  e1 : fr (m 0x3e0) = p1
  e2 : fr (m 0x400) = p2
  e3 : fr (m 0x420) = p3
  l0 : (m 0x3c0).toNat < r
  l1 : (m 0x3e0).toNat < r
  l2 : (m 0x400).toNat < r
  l3 : (m 0x420).toNat < r

theorem open0_spec (s : St) (x w : Fr) (hx : fr (s.mem X_MPTR) = x) (hxl : (s.mem X_MPTR).toNat < r)
    (hw : fr (s.mem OMEGA_MPTR) = w) (hwi : fr (s.mem OMEGA_INV_MPTR) = w⁻¹) :
    Pts (open0 s).mem (x * w⁻¹ ^ 6) (x * w⁻¹) x (x * w) ∧ (open0 s).ok = s.ok ∧
    ∀ a, 0x440 ≤ a → (open0 s).mem a = s.mem a := by
  refine ⟨⟨?_, ?_, ?_, ?_, ?_, ?_, ?_, ?_⟩, rfl, ?_⟩
  · simp only [open0]; mem_simp; simp only [fr_mulr, hx, hwi]; ring
  · simp only [open0]; mem_simp; simp only [fr_mulr, hx, hwi]
  · simp only [open0]; mem_simp; exact hx
  · simp only [open0]; mem_simp; simp only [fr_mulr, hx, hw]
  · simp only [open0]; mem_simp; exact mulr_lt _ _
  · simp only [open0]; mem_simp; exact mulr_lt _ _
  · simp only [open0]; mem_simp; exact hxl
  · simp only [open0]; mem_simp; exact mulr_lt _ _
  · intro a ha
    simp only [open0, St.store]
    rw [store_ne (by omega), store_ne (by omega), store_ne (by omega), store_ne (by omega)]

/-- After the products of differences. -/
structure Diffs (m : Mem) (p0 p1 p2 p3 mu : Fr) : Prop where
  d0 : fr (m 0x440) = mu - p0
  d1 : fr (m 0x460) = mu - p1
  d2 : fr (m 0x480) = mu - p2
  d3 : fr (m 0x4a0) = mu - p3

structure Diffs' (m : Mem) (p0 p1 p2 p3 mu : Fr) : Prop where
  zs : fr (m 0x4c0) = (mu - p1) * (mu - p2) * (mu - p3)
  zsl : (m 0x4c0).toNat < r
  s1 : fr (m 0x500) = (mu - p0) * (mu - p1) * (mu - p3)
  s2 : fr (m 0x520) = (mu - p0) * (mu - p1)
  s3 : fr (m 0x540) = mu - p1
  s4 : fr (m 0x560) = (mu - p0) * (mu - p3)

theorem open1_spec (s : St) (p0 p1 p2 p3 mu : Fr) (hp : Pts s.mem p0 p1 p2 p3)
    (hmu : fr (s.mem MU_MPTR) = mu) :
    Pts (open1 s).mem p0 p1 p2 p3 ∧ Diffs (open1 s).mem p0 p1 p2 p3 mu ∧
    Diffs' (open1 s).mem p0 p1 p2 p3 mu ∧ fr ((open1 s).mem 0) = mu - p0 ∧ (open1 s).ok = s.ok ∧
    ∀ a, 0x6c0 ≤ a → (open1 s).mem a = s.mem a := by
  obtain ⟨e0, e1, e2, e3, l0, l1, l2, l3⟩ := hp
  have u1 : (upFrom 0x0440 0x20 4).zip (upFrom 0x03c0 0x20 4) =
    [(0x440, 0x3c0), (0x460, 0x3e0), (0x480, 0x400), (0x4a0, 0x420)] := by decide
  refine ⟨⟨?_, ?_, ?_, ?_, ?_, ?_, ?_, ?_⟩, ⟨?_, ?_, ?_, ?_⟩, ⟨?_, ?_, ?_, ?_, ?_, ?_⟩, ?_, ?_, ?_⟩ <;>
    try (simp only [open1, u1, List.foldl_cons, List.foldl_nil]; mem_simp; first | (with_reducible assumption) | skip)
  · fr_mem; rw [hmu, e0]; ring
  · fr_mem; rw [hmu, e1]; ring
  · fr_mem; rw [hmu, e2]; ring
  · fr_mem; rw [hmu, e3]; ring
  · fr_mem; rw [hmu, e1, e2, e3]; ring
  · exact mulr_lt _ _
  · fr_mem; rw [hmu, e0, e1, e3]; ring
  · fr_mem; rw [hmu, e0, e1]; ring
  · fr_mem; rw [hmu, e1]; ring
  · fr_mem; rw [hmu, e0, e3]; ring
  · fr_mem; rw [hmu, e0]; ring
  · intro a ha
    repeat rw [if_neg (by omega)]

/-- The coefficients of the Lagrange interpolation, before inversion. -/
structure Coeffs (m : Mem) (p0 p1 p2 p3 mu : Fr) : Prop where
  c1 : fr (m 0x20) = (p1 - p2) * (p1 - p3) * (mu - p1)
  c2 : fr (m 0x40) = (p2 - p1) * (p2 - p3) * (mu - p2)
  c3 : fr (m 0x60) = (p3 - p1) * (p3 - p2) * (mu - p3)
  c4 : fr (m 0x80) = mu - p2
  c5 : fr (m 0xa0) = (p2 - p3) * (mu - p2)
  c6 : fr (m 0xc0) = (p3 - p2) * (mu - p3)
  c7 : fr (m 0xe0) = (p0 - p2) * (p0 - p3) * (mu - p0)
  c8 : fr (m 0x100) = (p2 - p0) * (p2 - p3) * (mu - p2)
  c9 : fr (m 0x120) = (p3 - p0) * (p3 - p2) * (mu - p3)
  c10 : fr (m 0x140) = (p1 - p2) * (mu - p1)
  c11 : fr (m 0x160) = (p2 - p1) * (mu - p2)

/-- The blocks computing the coefficients. -/
def openCoeffs (s : St) : St := open6 (open5 (open4 (open3 (open2 s))))

theorem openCoeffs_frame (s : St) (a : ℕ) (ha : a = 0 ∨ 0x180 ≤ a) :
    (openCoeffs s).mem a = s.mem a := by
  simp only [openCoeffs, open2, open3, open4, open5, open6, St.store]
  repeat rw [store_ne (by omega)]

theorem openCoeffs_spec (s : St) (p0 p1 p2 p3 mu : Fr) (hp : Pts s.mem p0 p1 p2 p3)
    (hd : Diffs s.mem p0 p1 p2 p3 mu) : Coeffs (openCoeffs s).mem p0 p1 p2 p3 mu := by
  obtain ⟨e0, e1, e2, e3, l0, l1, l2, l3⟩ := hp
  obtain ⟨d0, d1, d2, d3⟩ := hd
  constructor <;>
  · simp only [openCoeffs, open2, open3, open4, open5, open6]
    mem_simp
    fr_mem
    simp only [e0, e1, e2, e3, d0, d1, d2, d3]
    ring


/-- The points are distinct where it matters and `mu` is none of them. -/
structure Nondeg (p0 p1 p2 p3 mu : Fr) : Prop where
  h02 : p0 - p2 ≠ 0
  h03 : p0 - p3 ≠ 0
  h12 : p1 - p2 ≠ 0
  h13 : p1 - p3 ≠ 0
  h23 : p2 - p3 ≠ 0
  m0 : mu - p0 ≠ 0
  m1 : mu - p1 ≠ 0
  m2 : mu - p2 ≠ 0
  m3 : mu - p3 ≠ 0

/-- The inverted coefficients. -/
structure InvCoeffs (m : Mem) (p0 p1 p2 p3 mu : Fr) : Prop where
  c1 : fr (m 0x20) = ((p1 - p2) * (p1 - p3) * (mu - p1))⁻¹
  c2 : fr (m 0x40) = ((p2 - p1) * (p2 - p3) * (mu - p2))⁻¹
  c3 : fr (m 0x60) = ((p3 - p1) * (p3 - p2) * (mu - p3))⁻¹
  c4 : fr (m 0x80) = (mu - p2)⁻¹
  c5 : fr (m 0xa0) = ((p2 - p3) * (mu - p2))⁻¹
  c6 : fr (m 0xc0) = ((p3 - p2) * (mu - p3))⁻¹
  c7 : fr (m 0xe0) = ((p0 - p2) * (p0 - p3) * (mu - p0))⁻¹
  c8 : fr (m 0x100) = ((p2 - p0) * (p2 - p3) * (mu - p2))⁻¹
  c9 : fr (m 0x120) = ((p3 - p0) * (p3 - p2) * (mu - p3))⁻¹
  c10 : fr (m 0x140) = ((p1 - p2) * (mu - p1))⁻¹
  c11 : fr (m 0x160) = ((p2 - p1) * (mu - p2))⁻¹

/-- The factors of the sets relative to the first set. -/
structure Factors (m : Mem) (p0 p1 p2 p3 mu : Fr) : Prop where
  zs : fr (m 0x4c0) = (mu - p1) * (mu - p2) * (mu - p3)
  zsl : (m 0x4c0).toNat < r
  s1 : fr (m 0x500) = (mu - p1) * (mu - p3)
  s2 : fr (m 0x520) = mu - p1
  s3 : fr (m 0x540) = (mu - p1) / (mu - p0)
  s4 : fr (m 0x560) = mu - p3

theorem open7_spec (s : St) (p0 p1 p2 p3 mu : Fr) (hn : Nondeg p0 p1 p2 p3 mu)
    (h0 : fr (s.mem 0) = mu - p0) (hc : Coeffs s.mem p0 p1 p2 p3 mu)
    (hd : Diffs' s.mem p0 p1 p2 p3 mu) :
    InvCoeffs (open7 s).mem p0 p1 p2 p3 mu ∧ Factors (open7 s).mem p0 p1 p2 p3 mu ∧
    (open7 s).ok = s.ok ∧ ∀ a, 0x6c0 ≤ a → (open7 s).mem a = s.mem a := by
  obtain ⟨c1, c2, c3, c4, c5, c6, c7, c8, c9, c10, c11⟩ := hc
  obtain ⟨zs, zsl, s1, s2, s3, s4⟩ := hd
  obtain ⟨h02, h03, h12, h13, h23, m0, m1, m2, m3⟩ := hn
  have h20 : p2 - p0 ≠ 0 := by rw [← neg_sub]; exact neg_ne_zero.2 h02
  have h30 : p3 - p0 ≠ 0 := by rw [← neg_sub]; exact neg_ne_zero.2 h03
  have h21 : p2 - p1 ≠ 0 := by rw [← neg_sub]; exact neg_ne_zero.2 h12
  have h31 : p3 - p1 ≠ 0 := by rw [← neg_sub]; exact neg_ne_zero.2 h13
  have h32 : p3 - p2 ≠ 0 := by rw [← neg_sub]; exact neg_ne_zero.2 h23
  obtain ⟨b1, b2, b3, -⟩ := batchInvert_spec s 0 12 (by norm_num)
  have all : ∀ j < 12, fr (s.mem (0 + 0x20 * j)) ≠ 0 := by
    intro j hj
    interval_cases j
    · simp only [Nat.reduceMul, Nat.reduceAdd, h0]; exact m0
    · simp only [Nat.reduceMul, Nat.reduceAdd, c1]; exact mul_ne_zero (mul_ne_zero h12 h13) m1
    · simp only [Nat.reduceMul, Nat.reduceAdd, c2]; exact mul_ne_zero (mul_ne_zero h21 h23) m2
    · simp only [Nat.reduceMul, Nat.reduceAdd, c3]; exact mul_ne_zero (mul_ne_zero h31 h32) m3
    · simp only [Nat.reduceMul, Nat.reduceAdd, c4]; exact m2
    · simp only [Nat.reduceMul, Nat.reduceAdd, c5]; exact mul_ne_zero h23 m2
    · simp only [Nat.reduceMul, Nat.reduceAdd, c6]; exact mul_ne_zero h32 m3
    · simp only [Nat.reduceMul, Nat.reduceAdd, c7]; exact mul_ne_zero (mul_ne_zero h02 h03) m0
    · simp only [Nat.reduceMul, Nat.reduceAdd, c8]; exact mul_ne_zero (mul_ne_zero h20 h23) m2
    · simp only [Nat.reduceMul, Nat.reduceAdd, c9]; exact mul_ne_zero (mul_ne_zero h30 h32) m3
    · simp only [Nat.reduceMul, Nat.reduceAdd, c10]; exact mul_ne_zero h12 m1
    · simp only [Nat.reduceMul, Nat.reduceAdd, c11]; exact mul_ne_zero h21 m2
  have b2' : ∀ i < 12, fr ((s.batchInvert 0 12).mem (0 + 0x20 * i)) =
      (fr (s.mem (0 + 0x20 * i)))⁻¹ := by
    intro i hi
    rw [b2 i hi, if_pos all]
  clear b2
  have u : upFrom 0x0500 0x20 4 = [0x500, 0x520, 0x540, 0x560] := by decide
  have e7 : open7 s = (([0x500, 0x520, 0x540, 0x560] : List ℕ).foldl (init := (s.batchInvert 0 12).store
      0x04e0 ((s.batchInvert 0 12).mem 0)) fun s' mptr =>
      s'.store mptr (mulr (s'.mem mptr) ((s.batchInvert 0 12).mem 0))) := by
    unfold open7
    rw [u]
  generalize s.batchInvert 0 12 = t at b1 b2' b3 e7
  have i0 : fr (t.mem 0) = (mu - p0)⁻¹ := by rw [← h0]; exact b2' 0 (by norm_num)
  have e7 : open7 s = ((((t.store 0x04e0 (t.mem 0)).store 0x500 (mulr (t.mem 0x500) (t.mem 0))).store
      0x520 (mulr (t.mem 0x520) (t.mem 0))).store 0x540 (mulr (t.mem 0x540) (t.mem 0))).store
      0x560 (mulr (t.mem 0x560) (t.mem 0)) := by
    rw [e7]
    simp only [List.foldl_cons, List.foldl_nil]
    mem_simp
  have f (a : ℕ) (ha : a < 0x4e0) : (open7 s).mem a = t.mem a := by
    rw [e7]
    simp only [St.store]
    repeat rw [store_ne (by omega)]
  refine ⟨⟨?_, ?_, ?_, ?_, ?_, ?_, ?_, ?_, ?_, ?_, ?_⟩, ⟨?_, ?_, ?_, ?_, ?_, ?_⟩, ?_, ?_⟩
  · rw [f _ (by norm_num), ← c1]; exact b2' 1 (by norm_num)
  · rw [f _ (by norm_num), ← c2]; exact b2' 2 (by norm_num)
  · rw [f _ (by norm_num), ← c3]; exact b2' 3 (by norm_num)
  · rw [f _ (by norm_num), ← c4]; exact b2' 4 (by norm_num)
  · rw [f _ (by norm_num), ← c5]; exact b2' 5 (by norm_num)
  · rw [f _ (by norm_num), ← c6]; exact b2' 6 (by norm_num)
  · rw [f _ (by norm_num), ← c7]; exact b2' 7 (by norm_num)
  · rw [f _ (by norm_num), ← c8]; exact b2' 8 (by norm_num)
  · rw [f _ (by norm_num), ← c9]; exact b2' 9 (by norm_num)
  · rw [f _ (by norm_num), ← c10]; exact b2' 10 (by norm_num)
  · rw [f _ (by norm_num), ← c11]; exact b2' 11 (by norm_num)
  · rw [f _ (by norm_num), b3 _ (by norm_num)]; exact zs
  · rw [f _ (by norm_num), b3 _ (by norm_num)]; exact zsl
  · rw [e7]
    mem_simp
    rw [fr_mulr, b3 _ (by norm_num), s1, i0]
    field_simp
  · rw [e7]
    mem_simp
    rw [fr_mulr, b3 _ (by norm_num), s2, i0]
    field_simp
  · rw [e7]
    mem_simp
    rw [fr_mulr, b3 _ (by norm_num), s3, i0]
    field_simp
  · rw [e7]
    mem_simp
    rw [fr_mulr, b3 _ (by norm_num), s4, i0]
    field_simp
  · rw [e7]; exact b1
  · intro a ha
    rw [e7]
    simp only [St.store]
    repeat rw [store_ne (by omega)]
    exact b3 a (by norm_num; omega)


/-- Horner's rule in the field. -/
def horn (z : Fr) (l : List Fr) : Fr := l.foldr (fun t acc => acc * z + t) 0

theorem horn_eq (z : Fr) (l : List Fr) : horn z l = powSum z l := by
  unfold horn powSum
  congr 1
  funext t acc
  rw [smul_eq_mul, mul_comm]

open Spec.Halo2 (Evals)

/-- The values of the polynomials of each set, in order; the second set with the value `q` of the
quotient. -/
def setVals1 (e : Evals) (q : Fr) : List Fr :=
  [e.a 3, e.lt 0, e.lt 1, e.lt 2, e.lt 3, e.lt 4,
   e.f 0, e.f 1, e.f 2, e.f 3, e.f 4, e.f 7, e.f 5, e.f 6, e.f 8, e.f 9, e.f 10, e.f 11, e.f 15,
   e.f 16, e.f 17, e.f 12, e.f 13, e.f 14, e.f 18, e.f 19, e.f 20, e.f 21, e.f 22,
   e.s 0, e.s 1, e.s 2, e.s 3, e.s 4, e.s 5, e.s 6, e.s 7, e.s 8, q, e.random]

theorem open8_spec (c : ℕ → Word) (s : St) (z k1 k2 k3 : Fr) (hz : fr (s.mem ZETA_MPTR) = z)
    (h1 : fr (s.mem 0x20) = k1) (h2 : fr (s.mem 0x40) = k2) (h3 : fr (s.mem 0x60) = k3) :
    fr ((open8 c s).mem 0x580) = horn z
      [k1 * (evalsOf c).aPrev 0 + k2 * (evalsOf c).a 0 + k3 * (evalsOf c).aNext 0,
       k1 * (evalsOf c).aPrev 1 + k2 * (evalsOf c).a 1 + k3 * (evalsOf c).aNext 1,
       k1 * (evalsOf c).aPrev 2 + k2 * (evalsOf c).a 2 + k3 * (evalsOf c).aNext 2] := by
  simp only [open8, St.store, store_same]
  simp only [fr_mulr, fr_addr, fr_zero, hz, h1, h2, h3, horn, List.foldr_cons, List.foldr_nil, evalsOf,
    Matrix.cons_val]
  ring

theorem open9_spec (c : ℕ → Word) (s : St) (z k f q : Fr) (hz : fr (s.mem ZETA_MPTR) = z)
    (hk : fr (s.mem 0x80) = k) (hf : fr (s.mem 0x500) = f) (hq : fr (s.mem QUOTIENT_EVAL_MPTR) = q) :
    fr ((open9 c s).mem 0x5a0) = horn z ((setVals1 (evalsOf c) q).map (k * ·)) * f := by
  have u1 : downFrom 0x0d44 0x20 9 = [0xd44, 0xd24, 0xd04, 0xce4, 0xcc4, 0xca4, 0xc84, 0xc64, 0xc44] := by
    decide
  have u2 : downFrom 0x0c04 0x20 23 = [0xc04, 0xbe4, 0xbc4, 0xba4, 0xb84, 0xb64, 0xb44, 0xb24, 0xb04,
    0xae4, 0xac4, 0xaa4, 0xa84, 0xa64, 0xa44, 0xa24, 0xa04, 0x9e4, 0x9c4, 0x9a4, 0x984, 0x964,
    0x944] := by decide
  simp only [open9, St.store, store_same, u1, u2, List.foldl_cons, List.foldl_nil]
  simp only [fr_mulr, fr_addr, fr_zero, hz, hk, hf, hq, horn, setVals1, List.map_cons, List.map_nil,
    List.foldr_cons, List.foldr_nil, evalsOf, Matrix.cons_val, zero_add, zero_mul]

theorem open10_spec (c : ℕ → Word) (s : St) (z k1 k2 f : Fr) (hz : fr (s.mem ZETA_MPTR) = z)
    (h1 : fr (s.mem 0xa0) = k1) (h2 : fr (s.mem 0xc0) = k2) (hf : fr (s.mem 0x520) = f) :
    fr ((open10 c s).mem 0x5c0) = horn z
      [k1 * (evalsOf c).a 4 + k2 * (evalsOf c).a4Next,
       k1 * (evalsOf c).z 2 + k2 * (evalsOf c).zNext 2,
       k1 * (evalsOf c).lz 0 + k2 * (evalsOf c).lzNext 0,
       k1 * (evalsOf c).lz 1 + k2 * (evalsOf c).lzNext 1,
       k1 * (evalsOf c).lz 2 + k2 * (evalsOf c).lzNext 2,
       k1 * (evalsOf c).lz 3 + k2 * (evalsOf c).lzNext 3,
       k1 * (evalsOf c).lz 4 + k2 * (evalsOf c).lzNext 4] * f := by
  simp only [open10, St.store, store_same]
  simp only [fr_mulr, fr_addr, fr_zero, hz, h1, h2, hf, horn, List.foldr_cons, List.foldr_nil, evalsOf,
    Matrix.cons_val]
  ring

theorem open11_spec (c : ℕ → Word) (s : St) (z k1 k2 k3 f : Fr) (hz : fr (s.mem ZETA_MPTR) = z)
    (h1 : fr (s.mem 0xe0) = k1) (h2 : fr (s.mem 0x100) = k2) (h3 : fr (s.mem 0x120) = k3)
    (hf : fr (s.mem 0x540) = f) :
    fr ((open11 c s).mem 0x5e0) = horn z
      [k1 * (evalsOf c).zLast 0 + k2 * (evalsOf c).z 0 + k3 * (evalsOf c).zNext 0,
       k1 * (evalsOf c).zLast 1 + k2 * (evalsOf c).z 1 + k3 * (evalsOf c).zNext 1] * f := by
  simp only [open11, St.store, store_same]
  simp only [fr_mulr, fr_addr, fr_zero, hz, h1, h2, h3, hf, horn, List.foldr_cons, List.foldr_nil,
    evalsOf, Matrix.cons_val]
  ring

theorem open12_spec (c : ℕ → Word) (s : St) (z k1 k2 f : Fr) (hz : fr (s.mem ZETA_MPTR) = z)
    (h1 : fr (s.mem 0x140) = k1) (h2 : fr (s.mem 0x160) = k2) (hf : fr (s.mem 0x560) = f) :
    fr ((open12 c s).mem 0x600) = horn z
      [k1 * (evalsOf c).liPrev 0 + k2 * (evalsOf c).li 0,
       k1 * (evalsOf c).liPrev 1 + k2 * (evalsOf c).li 1,
       k1 * (evalsOf c).liPrev 2 + k2 * (evalsOf c).li 2,
       k1 * (evalsOf c).liPrev 3 + k2 * (evalsOf c).li 3,
       k1 * (evalsOf c).liPrev 4 + k2 * (evalsOf c).li 4] * f := by
  simp only [open12, St.store, store_same]
  simp only [fr_mulr, fr_addr, fr_zero, hz, h1, h2, hf, horn, List.foldr_cons, List.foldr_nil, evalsOf,
    Matrix.cons_val]
  ring

theorem open8_frame (c : ℕ → Word) (s : St) (a : ℕ) (h : a ≠ 0x580) : (open8 c s).mem a = s.mem a := by
  simp only [open8, St.store]; exact store_ne h
theorem open9_frame (c : ℕ → Word) (s : St) (a : ℕ) (h : a ≠ 0x5a0) : (open9 c s).mem a = s.mem a := by
  simp only [open9, St.store]; exact store_ne h
theorem open10_frame (c : ℕ → Word) (s : St) (a : ℕ) (h : a ≠ 0x5c0) : (open10 c s).mem a = s.mem a := by
  simp only [open10, St.store]; exact store_ne h
theorem open11_frame (c : ℕ → Word) (s : St) (a : ℕ) (h : a ≠ 0x5e0) : (open11 c s).mem a = s.mem a := by
  simp only [open11, St.store]; exact store_ne h
theorem open12_frame (c : ℕ → Word) (s : St) (a : ℕ) (h : a ≠ 0x600) : (open12 c s).mem a = s.mem a := by
  simp only [open12, St.store]; exact store_ne h

/-- The blocks summing the coefficients. -/
def openSums (s : St) : St := open17 (open16 (open15 (open14 (open13 s))))

theorem openSums_frame (s : St) (a : ℕ) (h : a < 0x620 ∨ 0x6c0 ≤ a) :
    (openSums s).mem a = s.mem a := by
  simp only [openSums, open13, open14, open15, open16, open17, St.store]
  repeat rw [store_ne (by omega)]

theorem openSums_spec (s : St) :
    fr ((openSums s).mem 0x620) = fr (s.mem 0x20) + fr (s.mem 0x40) + fr (s.mem 0x60) ∧
    fr ((openSums s).mem 0x640) = fr (s.mem 0x80) ∧
    fr ((openSums s).mem 0x660) = fr (s.mem 0xa0) + fr (s.mem 0xc0) ∧
    fr ((openSums s).mem 0x680) = fr (s.mem 0xe0) + fr (s.mem 0x100) + fr (s.mem 0x120) ∧
    fr ((openSums s).mem 0x6a0) = fr (s.mem 0x140) + fr (s.mem 0x160) := by
  refine ⟨?_, ?_, ?_, ?_, ?_⟩ <;>
  · simp only [openSums, open13, open14, open15, open16, open17]
    mem_simp
    try simp only [fr_addr]

theorem open18_spec (s : St) (nu t0 t1 t2 t3 t4 : Fr) (hnu : fr (s.mem NU_MPTR) = nu)
    (h0 : fr (s.mem 0x620) = t0) (h1 : fr (s.mem 0x640) = t1) (h2 : fr (s.mem 0x660) = t2)
    (h3 : fr (s.mem 0x680) = t3) (h4 : fr (s.mem 0x6a0) = t4)
    (n0 : t0 ≠ 0) (n1 : t1 ≠ 0) (n2 : t2 ≠ 0) (n3 : t3 ≠ 0) (n4 : t4 ≠ 0) :
    fr ((open18 s).mem R_EVAL_MPTR) = horn nu [t0⁻¹ * fr (s.mem 0x580), t1⁻¹ * fr (s.mem 0x5a0),
      t2⁻¹ * fr (s.mem 0x5c0), t3⁻¹ * fr (s.mem 0x5e0), t4⁻¹ * fr (s.mem 0x600)] ∧
    ((open18 s).mem R_EVAL_MPTR).toNat < r ∧ (open18 s).ok = s.ok ∧
    ∀ a, 0x380 ≤ a → a ≠ R_EVAL_MPTR → (open18 s).mem a = s.mem a := by
  have u : (upFrom 0x00 0x20 5).zip (upFrom 0x0620 0x20 5) =
    [(0, 0x620), (0x20, 0x640), (0x40, 0x660), (0x60, 0x680), (0x80, 0x6a0)] := by decide
  obtain ⟨s1, hs1⟩ : ∃ s1 : St, s1 = ((((s.store 0 (s.mem 0x620)).store 0x20 (s.mem 0x640)).store 0x40
    (s.mem 0x660)).store 0x60 (s.mem 0x680)).store 0x80 (s.mem 0x6a0) := ⟨_, rfl⟩
  have e1 : (((upFrom 0x00 0x20 5).zip (upFrom 0x0620 0x20 5)).foldl (init := s) fun s p =>
      s.store p.1 (s.mem p.2)) = s1 := by
    rw [u, hs1]
    simp only [List.foldl_cons, List.foldl_nil]
    mem_simp
  obtain ⟨b1, b2, b3, -⟩ := batchInvert_spec s1 0 5 (by norm_num)
  have v0 : fr (s1.mem 0) = t0 := by rw [hs1]; mem_simp; exact h0
  have v1 : fr (s1.mem 0x20) = t1 := by rw [hs1]; mem_simp; exact h1
  have v2 : fr (s1.mem 0x40) = t2 := by rw [hs1]; mem_simp; exact h2
  have v3 : fr (s1.mem 0x60) = t3 := by rw [hs1]; mem_simp; exact h3
  have v4 : fr (s1.mem 0x80) = t4 := by rw [hs1]; mem_simp; exact h4
  have all : ∀ j < 5, fr (s1.mem (0 + 0x20 * j)) ≠ 0 := by
    intro j hj
    interval_cases j
    · simp only [Nat.reduceMul, Nat.reduceAdd, v0]; exact n0
    · simp only [Nat.reduceMul, Nat.reduceAdd, v1]; exact n1
    · simp only [Nat.reduceMul, Nat.reduceAdd, v2]; exact n2
    · simp only [Nat.reduceMul, Nat.reduceAdd, v3]; exact n3
    · simp only [Nat.reduceMul, Nat.reduceAdd, v4]; exact n4
  have b2' : ∀ i < 5, fr ((s1.batchInvert 0 5).mem (0 + 0x20 * i)) =
      (fr (s1.mem (0 + 0x20 * i)))⁻¹ := by
    intro i hi
    rw [b2 i hi, if_pos all]
  have b3' : ∀ a, 0x380 ≤ a → (s1.batchInvert 0 5).mem a = s.mem a := by
    intro a ha
    rw [b3 a (by norm_num; omega), hs1]
    simp only [St.store]
    repeat rw [store_ne (by omega)]
  have b1' : (s1.batchInvert 0 5).ok = s.ok := by rw [b1, hs1]; rfl
  have e2 : open18 s = (s1.batchInvert 0 5).store R_EVAL_MPTR
    (([(0x60, 0x05e0), (0x40, 0x05c0), (0x20, 0x05a0), (0x00, 0x0580)] : List (ℕ × ℕ)).foldl
      (init := mulr ((s1.batchInvert 0 5).mem 0x80) ((s1.batchInvert 0 5).mem 0x600)) fun r_eval p =>
      addr (mulr r_eval ((s1.batchInvert 0 5).mem NU_MPTR))
        (mulr ((s1.batchInvert 0 5).mem p.1) ((s1.batchInvert 0 5).mem p.2))) := by
    unfold open18
    simp only
    rw [e1]
  have i0 : fr ((s1.batchInvert 0 5).mem 0) = t0⁻¹ := by rw [← v0]; exact b2' 0 (by norm_num)
  have i1 : fr ((s1.batchInvert 0 5).mem 0x20) = t1⁻¹ := by rw [← v1]; exact b2' 1 (by norm_num)
  have i2 : fr ((s1.batchInvert 0 5).mem 0x40) = t2⁻¹ := by rw [← v2]; exact b2' 2 (by norm_num)
  have i3 : fr ((s1.batchInvert 0 5).mem 0x60) = t3⁻¹ := by rw [← v3]; exact b2' 3 (by norm_num)
  have i4 : fr ((s1.batchInvert 0 5).mem 0x80) = t4⁻¹ := by rw [← v4]; exact b2' 4 (by norm_num)
  generalize s1.batchInvert 0 5 = t at *
  rw [e2]
  refine ⟨?_, ?_, ?_, ?_⟩
  · simp only [St.store, store_same, List.foldl_cons, List.foldl_nil, fr_addr, fr_mulr, i0, i1, i2, i3, i4,
      horn, List.foldr_cons, List.foldr_nil]
    rw [b3' NU_MPTR (by norm_num), b3' 0x600 (by norm_num), b3' 0x5e0 (by norm_num),
      b3' 0x5c0 (by norm_num), b3' 0x5a0 (by norm_num), b3' 0x580 (by norm_num), hnu]
    ring
  · simp only [St.store, store_same, List.foldl_cons, List.foldl_nil]
    exact addr_lt _ _
  · exact b1'
  · intro a h1 h2
    simp only [St.store]
    rw [store_ne h2]
    exact b3' a h1


end Verif.Halo2
