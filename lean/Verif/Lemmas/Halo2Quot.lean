import Verif.Lemmas.Halo2Lagrange
import Verif.Spec.Halo2

/-! Helper lemmas about the quotient numerator computed by the on-chain proof verifier. -/

namespace Verif.Halo2
open Spec.Halo2 (Evals Row Challenges)

/-- Addresses of evaluations in the call data. -/
def isEval (a : ℕ) : Bool := decide (0x7c4 ≤ a) && decide (a ≤ 0x1164) && decide ((a - 0x7c4) % 0x20 = 0)

/-- All evaluations are canonical. -/
abbrev EvalsLt (c : ℕ → Word) : Prop := ∀ a, isEval a = true → (c a).toNat < r

/-- The evaluations in the call data. -/
def evalsOf (c : ℕ → Word) : Evals where
  a := ![fr (c 0x7c4), fr (c 0x7e4), fr (c 0x804), fr (c 0x824), fr (c 0x844)]
  a4Next := fr (c 0x864)
  aNext := ![fr (c 0x884), fr (c 0x8a4), fr (c 0x8c4)]
  aPrev := ![fr (c 0x904), fr (c 0x924), fr (c 0x8e4)]
  f := ![fr (c 0x944), fr (c 0x964), fr (c 0x984), fr (c 0x9a4), fr (c 0x9c4), fr (c 0xa04),
    fr (c 0xa24), fr (c 0x9e4), fr (c 0xa44), fr (c 0xa64), fr (c 0xa84), fr (c 0xaa4), fr (c 0xb24),
    fr (c 0xb44), fr (c 0xb64), fr (c 0xac4), fr (c 0xae4), fr (c 0xb04), fr (c 0xb84), fr (c 0xba4),
    fr (c 0xbc4), fr (c 0xbe4), fr (c 0xc04)]
  random := fr (c 0xc24)
  s := ![fr (c 0xc44), fr (c 0xc64), fr (c 0xc84), fr (c 0xca4), fr (c 0xcc4), fr (c 0xce4),
    fr (c 0xd04), fr (c 0xd24), fr (c 0xd44)]
  z := ![fr (c 0xd64), fr (c 0xdc4), fr (c 0xe24)]
  zNext := ![fr (c 0xd84), fr (c 0xde4), fr (c 0xe44)]
  zLast := ![fr (c 0xda4), fr (c 0xe04)]
  lz := ![fr (c 0xe64), fr (c 0xf04), fr (c 0xfa4), fr (c 0x1044), fr (c 0x10e4)]
  lzNext := ![fr (c 0xe84), fr (c 0xf24), fr (c 0xfc4), fr (c 0x1064), fr (c 0x1104)]
  li := ![fr (c 0xea4), fr (c 0xf44), fr (c 0xfe4), fr (c 0x1084), fr (c 0x1124)]
  liPrev := ![fr (c 0xec4), fr (c 0xf64), fr (c 0x1004), fr (c 0x10a4), fr (c 0x1144)]
  lt := ![fr (c 0xee4), fr (c 0xf84), fr (c 0x1024), fr (c 0x10c4), fr (c 0x1164)]

/-- Values in memory used by the constraints. -/
structure MemRow (m : Mem) (C : Challenges) (R : Row) : Prop where
  theta : fr (m THETA_MPTR) = C.theta
  beta : fr (m BETA_MPTR) = C.beta
  gamma : fr (m GAMMA_MPTR) = C.gamma
  y : fr (m Y_MPTR) = C.y
  x : fr (m X_MPTR) = C.x
  inst : fr (m INSTANCE_EVAL_MPTR) = R.inst
  l0 : fr (m L_0_MPTR) = R.l0
  lLast : fr (m L_LAST_MPTR) = R.lLast
  lBlind : fr (m L_BLIND_MPTR) = R.lBlind

theorem mds_words :
    fr 0x109b7f411ba0e4c9b2b70caf5c36a7b194be7c11ad24378bfedb68592ba8118b = Poseidon.MDS 0 0 ∧
    fr 0x16ed41e13bb9c0c66ae119424fddbcbc9314dc9fdbdeea55d6c64543dc4903e0 = Poseidon.MDS 0 1 ∧
    fr 0x2b90bba00fca0589f617e7dcbfe82e0df706ab640ceb247b791a93b74e36736d = Poseidon.MDS 0 2 ∧
    fr 0x2969f27eed31a480b9c36c764379dbca2cc8fdd1415c3dded62940bcde0bd771 = Poseidon.MDS 1 0 ∧
    fr 0x2e2419f9ec02ec394c9871c832963dc1b89d743c8c7b964029b2311687b1fe23 = Poseidon.MDS 1 1 ∧
    fr 0x101071f0032379b697315876690f053d148d4e109f5fb065c8aacc55a0f89bfa = Poseidon.MDS 1 2 ∧
    fr 0x143021ec686a3f330d5f9e654638065ce6cd79e28c5b3753326244ee65a1b1a7 = Poseidon.MDS 2 0 ∧
    fr 0x176cc029695ad02582a70eff08a6fd99d057e12e58e7d7b6b16cdfabc8ee2911 = Poseidon.MDS 2 1 ∧
    fr 0x19a3fc0a56702bf417ba7fee3802593fa644470307043f7773279cd71d25d5e0 = Poseidon.MDS 2 2 := by
  decide +kernel

theorem mdsInv_entry {v : Fr} (i j : Fin 3)
    (h : v * (Poseidon.detItems Poseidon.MDS 0 + Poseidon.detItems Poseidon.MDS 1 +
      Poseidon.detItems Poseidon.MDS 2) = Poseidon.ci Poseidon.MDS j i) :
    v = Poseidon.MDS_INV i j := by
  have hd : Poseidon.detItems Poseidon.MDS 0 + Poseidon.detItems Poseidon.MDS 1 +
      Poseidon.detItems Poseidon.MDS 2 ≠ 0 := by decide +kernel
  have : Poseidon.MDS_INV i j = Poseidon.ci Poseidon.MDS j i * Poseidon.detInv Poseidon.MDS := by
    fin_cases i <;> fin_cases j <;> rfl
  rw [this, ← h, Poseidon.detInv, mul_inv_cancel_right₀ hd]

theorem mdsInv_words :
    fr 0x203d1d351372bf15b6465d69d3e12806879a5f36b4ba6dd17dfea07d03f82f26 = Poseidon.MDS_INV 0 0 ∧
    fr 0x29b6537218615bcb4b6ad7fe4620063d48e42ce2096b3a1d6e320628bb032c22 = Poseidon.MDS_INV 0 1 ∧
    fr 0x11551257de3d4b5ab51bd377d7bb55c054f51f711623515b1e2a35a958b93a6a = Poseidon.MDS_INV 0 2 ∧
    fr 0x29dedb1bbf80c8863d569912c20f1f82bf0dc3bc4fb62798dd1319814f833b54 = Poseidon.MDS_INV 1 0 ∧
    fr 0x130b59143f4e340cd66c7251dc8f56fbbe0367fec1575cb124ca8a66304e3849 = Poseidon.MDS_INV 1 1 ∧
    fr 0x0c2808c9533e2c526087842fb62521a3248c8d6d3b16d4b4108476d2eeda95f9 = Poseidon.MDS_INV 1 2 ∧
    fr 0x0173249a1c9eac2591706fe09af22cfd29e1387e706cf0ded2889dc145c61609 = Poseidon.MDS_INV 2 0 ∧
    fr 0x0abc7f158780841ec82e03ec3cee0cf1d16270b0238f3063d2e5fb5138e59350 = Poseidon.MDS_INV 2 1 ∧
    fr 0x1738a318c8631b6e8305505aaf3b497fe9f2478c2f28ee945413af26963b4700 = Poseidon.MDS_INV 2 2 := by
  refine ⟨?_, ?_, ?_, ?_, ?_, ?_, ?_, ?_, ?_⟩ <;> apply mdsInv_entry <;> decide +kernel

theorem fr_delta : fr delta = Spec.Halo2.delta := by decide +kernel
theorem fr_five : fr 5 = 5 := by decide +kernel

attribute [local irreducible] fr


/-- Rewrites a computed word into the field. -/
macro "fr_simp" hc:ident : tactic => `(tactic|
  simp (disch := first | exact mulr_lt _ _ | exact addr_lt _ _ | exact $hc _ (by decide)) only
    [fr_mulr, fr_addr, fr_subr, fr_one, fr_zero, fr_five, fr_delta])

variable {c : ℕ → Word} {m : Mem} {C : Challenges} {R : Row}

theorem fr_term0 : fr (term0 c) = Spec.Halo2.mainGate (evalsOf c) := by
  simp only [term0, fr_mulr, fr_addr, Spec.Halo2.mainGate, evalsOf, Matrix.cons_val]

open Spec.Halo2 in
theorem fr_full (hc : EvalsLt c) : fr (term1 c) = fullRound (evalsOf c) 0 ∧
    fr (term2 c) = fullRound (evalsOf c) 1 ∧ fr (term3 c) = fullRound (evalsOf c) 2 := by
  obtain ⟨m00, m01, m02, m10, m11, m12, m20, m21, m22⟩ := mds_words
  refine ⟨?_, ?_, ?_⟩
  · simp only [term1]
    fr_simp hc
    rw [m00, m01, m02]
    simp only [fullRound, dot, rcA, evalsOf, Matrix.cons_val]
    ring
  · simp only [term2]
    fr_simp hc
    rw [m10, m11, m12]
    simp only [fullRound, dot, rcA, evalsOf, Matrix.cons_val]
    ring
  · simp only [term3]
    fr_simp hc
    rw [m20, m21, m22]
    simp only [fullRound, dot, rcA, evalsOf, Matrix.cons_val]
    ring

open Spec.Halo2 in
theorem fr_partial (hc : EvalsLt c) :
    [fr (term4 c), fr (term5 c), fr (term6 c), fr (term7 c)] = partialRounds (evalsOf c) := by
  obtain ⟨m00, m01, m02, m10, m11, m12, m20, m21, m22⟩ := mds_words
  obtain ⟨n00, n01, n02, n10, n11, n12, n20, n21, n22⟩ := mdsInv_words
  have h4 : fr (term4 c) = (evalsOf c).f 21 * (((evalsOf c).a 0 + rcA (evalsOf c) 0) ^ 5 -
      (evalsOf c).a 3) := by
    simp only [term4]
    fr_simp hc
    simp only [rcA, evalsOf, Matrix.cons_val]
    ring
  have h5 : fr (term5 c) = (evalsOf c).f 21 * ((mid (evalsOf c) 0 + rcB (evalsOf c) 0) ^ 5 -
      dot (Poseidon.MDS_INV 0) (evalsOf c).aNext) := by
    simp only [term5]
    fr_simp hc
    rw [m00, m01, m02, n00, n01, n02]
    simp only [mid, dot, rcA, rcB, evalsOf, Matrix.cons_val]
    ring
  have h6 : fr (term6 c) = (evalsOf c).f 21 * (mid (evalsOf c) 1 + rcB (evalsOf c) 1 -
      dot (Poseidon.MDS_INV 1) (evalsOf c).aNext) := by
    simp only [term6]
    fr_simp hc
    rw [m10, m11, m12, n10, n11, n12]
    simp only [mid, dot, rcA, rcB, evalsOf, Matrix.cons_val]
    ring
  have h7 : fr (term7 c) = (evalsOf c).f 21 * (mid (evalsOf c) 2 + rcB (evalsOf c) 2 -
      dot (Poseidon.MDS_INV 2) (evalsOf c).aNext) := by
    simp only [term7]
    fr_simp hc
    rw [m20, m21, m22, n20, n21, n22]
    simp only [mid, dot, rcA, rcB, evalsOf, Matrix.cons_val]
    ring
  rw [h4, h5, h6, h7, partialRounds]

open Spec.Halo2 in
theorem fr_pad (hc : EvalsLt c) :
    [fr (term8 c), fr (term9 c), fr (term10 c)] = padAndAdd (evalsOf c) := by
  have h8 : fr (term8 c) = (evalsOf c).f 22 * ((evalsOf c).aPrev 0 + (evalsOf c).a 0 -
      (evalsOf c).aNext 0) := by
    simp only [term8]
    fr_simp hc
    simp only [evalsOf, Matrix.cons_val]
    ring
  have h9 : fr (term9 c) = (evalsOf c).f 22 * ((evalsOf c).aPrev 1 + (evalsOf c).a 1 -
      (evalsOf c).aNext 1) := by
    simp only [term9]
    fr_simp hc
    simp only [evalsOf, Matrix.cons_val]
    ring
  have h10 : fr (term10 c) = (evalsOf c).f 22 * ((evalsOf c).aPrev 2 - (evalsOf c).aNext 2) := by
    simp only [term10]
    fr_simp hc
    simp only [evalsOf, Matrix.cons_val]
    ring
  rw [h8, h9, h10, padAndAdd]

/-- `term15` and `term16` only change the word at 0. -/
theorem term15_frame (a : ℕ) (h : a ≠ 0) : (term15 c m).1 a = m a := by
  simp only [term15, store_ne h]

theorem term16_frame (a : ℕ) (h : a ≠ 0) : (term16 c m).1 a = m a := by
  simp only [term16, store_ne h]

theorem term15_zero : fr ((term15 c m).1 0) =
    fr (m BETA_MPTR) * fr (m X_MPTR) * Spec.Halo2.delta ^ 4 := by
  simp only [term15, store_same, fr_mulr, fr_delta]
  ring

theorem term16_zero : fr ((term16 c m).1 0) = fr (m 0) * Spec.Halo2.delta ^ 4 := by
  simp only [term16, store_same, store_ne (show INSTANCE_EVAL_MPTR ≠ 0 by decide), fr_mulr, fr_delta]
  ring

open Spec.Halo2 in
theorem fr_perm (hm : MemRow m C R) (hR : R.e = evalsOf c) (hc : EvalsLt c) :
    [fr (term11 c m), fr (term12 c m), fr (term13 c m), fr (term14 c m), fr (term15 c m).2,
      fr (term16 c (term15 c m).1).2, fr (term17 c (term16 c (term15 c m).1).1)] =
    permutation C R := by
  have f15 : ∀ a, a ≠ 0 → (term15 c m).1 a = m a := fun a h => term15_frame a h
  have f16 : ∀ a, a ≠ 0 → (term16 c (term15 c m).1).1 a = m a := fun a h => by
    rw [term16_frame a h, f15 a h]
  have h11 : fr (term11 c m) = R.l0 * (1 - R.e.z 0) := by
    simp only [term11]
    fr_simp hc
    rw [hm.l0, hR]
    simp only [evalsOf, Matrix.cons_val]
    ring
  have h12 : fr (term12 c m) = R.lLast * (R.e.z 2 ^ 2 - R.e.z 2) := by
    simp only [term12]
    fr_simp hc
    rw [hm.lLast, hR]
    simp only [evalsOf, Matrix.cons_val]
    ring
  have h13 : fr (term13 c m) = R.l0 * (R.e.z 1 - R.e.zLast 0) := by
    simp only [term13]
    fr_simp hc
    rw [hm.l0, hR]
    simp only [evalsOf, Matrix.cons_val]
    ring
  have h14 : fr (term14 c m) = R.l0 * (R.e.z 2 - R.e.zLast 1) := by
    simp only [term14]
    fr_simp hc
    rw [hm.l0, hR]
    simp only [evalsOf, Matrix.cons_val]
    ring
  have h15 : fr (term15 c m).2 = permStep C R 0 [0, 1, 2, 3] := by
    simp only [term15, store_same, store_ne (show L_LAST_MPTR ≠ 0 by decide),
      store_ne (show L_BLIND_MPTR ≠ 0 by decide)]
    fr_simp hc
    rw [hm.gamma, hm.beta, hm.x, hm.lLast, hm.lBlind]
    simp only [permStep, active, permColumn, hR, List.map_cons, List.map_nil, List.prod_cons,
      List.prod_nil, evalsOf, Matrix.cons_val]
    norm_num
    ring
  have z15 := term15_zero (c := c) (m := m)
  rw [hm.beta, hm.x] at z15
  have h16 : fr (term16 c (term15 c m).1).2 = permStep C R 1 [4, 5, 6, 7] := by
    simp only [term16, store_same, store_ne (show L_LAST_MPTR ≠ 0 by decide),
      store_ne (show L_BLIND_MPTR ≠ 0 by decide), store_ne (show INSTANCE_EVAL_MPTR ≠ 0 by decide)]
    fr_simp hc
    rw [z15]
    simp only [f15 GAMMA_MPTR (by decide), f15 BETA_MPTR (by decide), f15 L_LAST_MPTR (by decide),
      f15 L_BLIND_MPTR (by decide), f15 INSTANCE_EVAL_MPTR (by decide), hm.gamma, hm.beta, hm.inst,
      hm.lLast, hm.lBlind]
    simp only [permStep, active, permColumn, hR, List.map_cons, List.map_nil, List.prod_cons,
      List.prod_nil, evalsOf, Matrix.cons_val]
    norm_num
    ring
  have z16 := term16_zero (c := c) (m := (term15 c m).1)
  rw [z15] at z16
  have h17 : fr (term17 c (term16 c (term15 c m).1).1) = permStep C R 2 [8] := by
    simp only [term17]
    fr_simp hc
    rw [z16]
    simp only [f16 GAMMA_MPTR (by decide), f16 BETA_MPTR (by decide), f16 L_LAST_MPTR (by decide),
      f16 L_BLIND_MPTR (by decide), hm.gamma, hm.beta, hm.lLast, hm.lBlind]
    simp only [permStep, active, permColumn, hR, List.map_cons, List.map_nil, List.prod_cons,
      List.prod_nil, evalsOf, Matrix.cons_val]
    norm_num
    ring
  rw [h11, h12, h13, h14, h15, h16, h17, permutation]

open Spec.Halo2 in
theorem fr_lookup0 (hm : MemRow m C R) (hR : R.e = evalsOf c) (hc : EvalsLt c) :
    [fr (term18 c m), fr (term19 c m), fr (term20 c m), fr (term21 c m), fr (term22 c m)] =
    lookup C R 0 := by
  have h0 : fr (term18 c m) = R.l0 * (1 - R.e.lz 0) := by
    simp only [term18]
    fr_simp hc
    rw [hm.l0, hR]
    simp only [evalsOf, Matrix.cons_val]
    ring
  have h1 : fr (term19 c m) = R.lLast * (R.e.lz 0 ^ 2 - R.e.lz 0) := by
    simp only [term19]
    fr_simp hc
    rw [hm.lLast, hR]
    simp only [evalsOf, Matrix.cons_val]
    ring
  have h2 : fr (term20 c m) = active R * (R.e.lzNext 0 * ((R.e.li 0 + C.beta) *
      (R.e.lt 0 + C.gamma)) - R.e.lz 0 * ((lookupInput C R.e 0 + C.beta) *
        (lookupTable C R.e + C.gamma))) := by
    simp only [term20]
    fr_simp hc
    rw [hm.theta, hm.beta, hm.gamma, hm.lLast, hm.lBlind, hR]
    simp only [lookupInput, lookupTable, active, evalsOf, Matrix.cons_val]
    ring
  have h3 : fr (term21 c m) = R.l0 * (R.e.li 0 - R.e.lt 0) := by
    simp only [term21]
    fr_simp hc
    rw [hm.l0, hR]
    simp only [evalsOf, Matrix.cons_val]
    ring
  have h4 : fr (term22 c m) = active R * ((R.e.li 0 - R.e.lt 0) *
      (R.e.li 0 - R.e.liPrev 0)) := by
    simp only [term22]
    fr_simp hc
    rw [hm.lLast, hm.lBlind, hR]
    simp only [active, evalsOf, Matrix.cons_val]
    ring
  rw [h0, h1, h2, h3, h4, lookup]

open Spec.Halo2 in
theorem fr_lookup1 (hm : MemRow m C R) (hR : R.e = evalsOf c) (hc : EvalsLt c) :
    [fr (term23 c m), fr (term24 c m), fr (term25 c m), fr (term26 c m), fr (term27 c m)] =
    lookup C R 1 := by
  have h0 : fr (term23 c m) = R.l0 * (1 - R.e.lz 1) := by
    simp only [term23]
    fr_simp hc
    rw [hm.l0, hR]
    simp only [evalsOf, Matrix.cons_val]
    ring
  have h1 : fr (term24 c m) = R.lLast * (R.e.lz 1 ^ 2 - R.e.lz 1) := by
    simp only [term24]
    fr_simp hc
    rw [hm.lLast, hR]
    simp only [evalsOf, Matrix.cons_val]
    ring
  have h2 : fr (term25 c m) = active R * (R.e.lzNext 1 * ((R.e.li 1 + C.beta) *
      (R.e.lt 1 + C.gamma)) - R.e.lz 1 * ((lookupInput C R.e 1 + C.beta) *
        (lookupTable C R.e + C.gamma))) := by
    simp only [term25]
    fr_simp hc
    rw [hm.theta, hm.beta, hm.gamma, hm.lLast, hm.lBlind, hR]
    simp only [lookupInput, lookupTable, active, evalsOf, Matrix.cons_val]
    ring
  have h3 : fr (term26 c m) = R.l0 * (R.e.li 1 - R.e.lt 1) := by
    simp only [term26]
    fr_simp hc
    rw [hm.l0, hR]
    simp only [evalsOf, Matrix.cons_val]
    ring
  have h4 : fr (term27 c m) = active R * ((R.e.li 1 - R.e.lt 1) *
      (R.e.li 1 - R.e.liPrev 1)) := by
    simp only [term27]
    fr_simp hc
    rw [hm.lLast, hm.lBlind, hR]
    simp only [active, evalsOf, Matrix.cons_val]
    ring
  rw [h0, h1, h2, h3, h4, lookup]

open Spec.Halo2 in
theorem fr_lookup2 (hm : MemRow m C R) (hR : R.e = evalsOf c) (hc : EvalsLt c) :
    [fr (term28 c m), fr (term29 c m), fr (term30 c m), fr (term31 c m), fr (term32 c m)] =
    lookup C R 2 := by
  have h0 : fr (term28 c m) = R.l0 * (1 - R.e.lz 2) := by
    simp only [term28]
    fr_simp hc
    rw [hm.l0, hR]
    simp only [evalsOf, Matrix.cons_val]
    ring
  have h1 : fr (term29 c m) = R.lLast * (R.e.lz 2 ^ 2 - R.e.lz 2) := by
    simp only [term29]
    fr_simp hc
    rw [hm.lLast, hR]
    simp only [evalsOf, Matrix.cons_val]
    ring
  have h2 : fr (term30 c m) = active R * (R.e.lzNext 2 * ((R.e.li 2 + C.beta) *
      (R.e.lt 2 + C.gamma)) - R.e.lz 2 * ((lookupInput C R.e 2 + C.beta) *
        (lookupTable C R.e + C.gamma))) := by
    simp only [term30]
    fr_simp hc
    rw [hm.theta, hm.beta, hm.gamma, hm.lLast, hm.lBlind, hR]
    simp only [lookupInput, lookupTable, active, evalsOf, Matrix.cons_val]
    ring
  have h3 : fr (term31 c m) = R.l0 * (R.e.li 2 - R.e.lt 2) := by
    simp only [term31]
    fr_simp hc
    rw [hm.l0, hR]
    simp only [evalsOf, Matrix.cons_val]
    ring
  have h4 : fr (term32 c m) = active R * ((R.e.li 2 - R.e.lt 2) *
      (R.e.li 2 - R.e.liPrev 2)) := by
    simp only [term32]
    fr_simp hc
    rw [hm.lLast, hm.lBlind, hR]
    simp only [active, evalsOf, Matrix.cons_val]
    ring
  rw [h0, h1, h2, h3, h4, lookup]

open Spec.Halo2 in
theorem fr_lookup3 (hm : MemRow m C R) (hR : R.e = evalsOf c) (hc : EvalsLt c) :
    [fr (term33 c m), fr (term34 c m), fr (term35 c m), fr (term36 c m), fr (term37 c m)] =
    lookup C R 3 := by
  have h0 : fr (term33 c m) = R.l0 * (1 - R.e.lz 3) := by
    simp only [term33]
    fr_simp hc
    rw [hm.l0, hR]
    simp only [evalsOf, Matrix.cons_val]
    ring
  have h1 : fr (term34 c m) = R.lLast * (R.e.lz 3 ^ 2 - R.e.lz 3) := by
    simp only [term34]
    fr_simp hc
    rw [hm.lLast, hR]
    simp only [evalsOf, Matrix.cons_val]
    ring
  have h2 : fr (term35 c m) = active R * (R.e.lzNext 3 * ((R.e.li 3 + C.beta) *
      (R.e.lt 3 + C.gamma)) - R.e.lz 3 * ((lookupInput C R.e 3 + C.beta) *
        (lookupTable C R.e + C.gamma))) := by
    simp only [term35]
    fr_simp hc
    rw [hm.theta, hm.beta, hm.gamma, hm.lLast, hm.lBlind, hR]
    simp only [lookupInput, lookupTable, active, evalsOf, Matrix.cons_val]
    ring
  have h3 : fr (term36 c m) = R.l0 * (R.e.li 3 - R.e.lt 3) := by
    simp only [term36]
    fr_simp hc
    rw [hm.l0, hR]
    simp only [evalsOf, Matrix.cons_val]
    ring
  have h4 : fr (term37 c m) = active R * ((R.e.li 3 - R.e.lt 3) *
      (R.e.li 3 - R.e.liPrev 3)) := by
    simp only [term37]
    fr_simp hc
    rw [hm.lLast, hm.lBlind, hR]
    simp only [active, evalsOf, Matrix.cons_val]
    ring
  rw [h0, h1, h2, h3, h4, lookup]

open Spec.Halo2 in
theorem fr_lookup4 (hm : MemRow m C R) (hR : R.e = evalsOf c) (hc : EvalsLt c) :
    [fr (term38 c m), fr (term39 c m), fr (term40 c m), fr (term41 c m), fr (term42 c m)] =
    lookup C R 4 := by
  have h0 : fr (term38 c m) = R.l0 * (1 - R.e.lz 4) := by
    simp only [term38]
    fr_simp hc
    rw [hm.l0, hR]
    simp only [evalsOf, Matrix.cons_val]
    ring
  have h1 : fr (term39 c m) = R.lLast * (R.e.lz 4 ^ 2 - R.e.lz 4) := by
    simp only [term39]
    fr_simp hc
    rw [hm.lLast, hR]
    simp only [evalsOf, Matrix.cons_val]
    ring
  have h2 : fr (term40 c m) = active R * (R.e.lzNext 4 * ((R.e.li 4 + C.beta) *
      (R.e.lt 4 + C.gamma)) - R.e.lz 4 * ((lookupInput C R.e 4 + C.beta) *
        (lookupTable C R.e + C.gamma))) := by
    simp only [term40]
    fr_simp hc
    rw [hm.theta, hm.beta, hm.gamma, hm.lLast, hm.lBlind, hR]
    simp only [lookupInput, lookupTable, active, evalsOf, Matrix.cons_val]
    ring
  have h3 : fr (term41 c m) = R.l0 * (R.e.li 4 - R.e.lt 4) := by
    simp only [term41]
    fr_simp hc
    rw [hm.l0, hR]
    simp only [evalsOf, Matrix.cons_val]
    ring
  have h4 : fr (term42 c m) = active R * ((R.e.li 4 - R.e.lt 4) *
      (R.e.li 4 - R.e.liPrev 4)) := by
    simp only [term42]
    fr_simp hc
    rw [hm.lLast, hm.lBlind, hR]
    simp only [active, evalsOf, Matrix.cons_val]
    ring
  rw [h0, h1, h2, h3, h4, lookup]


theorem fr_horner (y acc t : Word) : fr (horner y acc t) = fr acc * fr y + fr t := by
  rw [horner, fr_addr, fr_mulr]

/-- The memory after the permutation terms. -/
def permMem (c : ℕ → Word) (m : Mem) : Mem := (term16 c (term15 c m).1).1

theorem permMem_frame (a : ℕ) (h : a ≠ 0) : permMem c m a = m a := by
  rw [permMem, term16_frame a h, term15_frame a h]

theorem MemRow.perm (hm : MemRow m C R) : MemRow (permMem c m) C R := by
  obtain ⟨h1, h2, h3, h4, h5, h6, h7, h8, h9⟩ := hm
  constructor <;> rw [permMem_frame _ (by decide)] <;> assumption

open Spec.Halo2 in
theorem quotientEval_spec (hm : MemRow m C R) (hR : R.e = evalsOf c) (hc : EvalsLt c) :
    fr (quotientEval c m QUOTIENT_EVAL_MPTR) =
      combine C.y (constraints C R) * fr (m X_N_MINUS_1_INV_MPTR) ∧
    (quotientEval c m QUOTIENT_EVAL_MPTR).toNat < r ∧
    ∀ a, a ≠ 0 → a ≠ QUOTIENT_EVAL_MPTR → quotientEval c m a = m a := by
  obtain ⟨f1, f2, f3⟩ := fr_full hc
  have hm' := hm.perm (c := c)
  have e : constraints C R =
    [fr (term0 c), fr (term1 c), fr (term2 c), fr (term3 c)] ++
    [fr (term4 c), fr (term5 c), fr (term6 c), fr (term7 c)] ++
    [fr (term8 c), fr (term9 c), fr (term10 c)] ++
    [fr (term11 c m), fr (term12 c m), fr (term13 c m), fr (term14 c m), fr (term15 c m).2,
      fr (term16 c (term15 c m).1).2, fr (term17 c (permMem c m))] ++
    [fr (term18 c (permMem c m)), fr (term19 c (permMem c m)), fr (term20 c (permMem c m)),
      fr (term21 c (permMem c m)), fr (term22 c (permMem c m))] ++
    [fr (term23 c (permMem c m)), fr (term24 c (permMem c m)), fr (term25 c (permMem c m)),
      fr (term26 c (permMem c m)), fr (term27 c (permMem c m))] ++
    [fr (term28 c (permMem c m)), fr (term29 c (permMem c m)), fr (term30 c (permMem c m)),
      fr (term31 c (permMem c m)), fr (term32 c (permMem c m))] ++
    [fr (term33 c (permMem c m)), fr (term34 c (permMem c m)), fr (term35 c (permMem c m)),
      fr (term36 c (permMem c m)), fr (term37 c (permMem c m))] ++
    [fr (term38 c (permMem c m)), fr (term39 c (permMem c m)), fr (term40 c (permMem c m)),
      fr (term41 c (permMem c m)), fr (term42 c (permMem c m))] := by
    rw [constraints, hR, ← f1, ← f2, ← f3, ← fr_term0, ← fr_partial hc, ← fr_pad hc,
      ← fr_perm hm hR hc, ← fr_lookup0 hm' hR hc, ← fr_lookup1 hm' hR hc, ← fr_lookup2 hm' hR hc,
      ← fr_lookup3 hm' hR hc, ← fr_lookup4 hm' hR hc]
    rfl
  have hx : permMem c m X_N_MINUS_1_INV_MPTR = m X_N_MINUS_1_INV_MPTR := permMem_frame _ (by decide)
  refine ⟨?_, ?_, ?_⟩
  · rw [e]
    simp only [List.cons_append, List.nil_append, List.foldl_cons, List.foldl_nil, combine]
    simp only [quotientEval, store_same, fr_mulr, fr_horner, hm.y]
    simp only [← permMem.eq_1, hx]
    simp only [zero_mul, zero_add]
  · simp only [quotientEval, store_same]
    exact mulr_lt _ _
  · intro a h0 h1
    simp only [quotientEval, store_ne h1]
    exact permMem_frame a h0


end Verif.Halo2
