import Verif.Lemmas.Halo2Format

/-! The whole on-chain proof verifier. -/

namespace Verif.Halo2
attribute [local irreducible] fr
open Spec.Halo2 (Evals Proof Key Challenges challengesOf openSets g2Words)

/-- The memory holds a verifying key. -/
structure KeyMem (m : Mem) (V : Key) : Prop where
  dom : DomainOk m V.k V.instances V.omega
  omegaInv : fr (m OMEGA_INV_MPTR) = V.omega⁻¹
  acc : m HAS_ACCUMULATOR_MPTR = 0
  pts : KeyPts m V
  g2 : decodeG2Words (m G2_X_1_MPTR) (m G2_X_2_MPTR) (m G2_Y_1_MPTR) (m G2_Y_2_MPTR) = some V.g2
  negSG2 : decodeG2Words (m NEG_S_G2_X_1_MPTR) (m NEG_S_G2_X_2_MPTR) (m NEG_S_G2_Y_1_MPTR)
    (m NEG_S_G2_Y_2_MPTR) = some V.negSG2

theorem KeyMem.congr {m m' : Mem} {V : Key} (h : KeyMem m V)
    (e : ∀ a, 0x6c0 ≤ a → a < 0x1160 → m' a = m a) : KeyMem m' V := by
  obtain ⟨⟨a1, a2, a3, a4, a5, a6, a7, a8, a9, a10⟩, b, b', ⟨d1, d2, d3⟩, d, f⟩ := h
  refine ⟨⟨?_, a2, ?_, a4, ?_, ?_, ?_, a8, ?_, ?_⟩, ?_, ?_, ⟨fun i => ?_, fun i => ?_, ?_⟩, ?_, ?_⟩
  · rw [e _ (by decide) (by decide)]; exact a1
  · rw [e _ (by decide) (by decide)]; exact a3
  · rw [e _ (by decide) (by decide)]; exact a5
  · rw [e _ (by decide) (by decide)]; exact a6
  · rw [e _ (by decide) (by decide)]; exact a7
  · rw [e _ (by decide) (by decide)]; exact a9
  · rw [e _ (by decide) (by decide)]; exact a10
  · rw [e _ (by decide) (by decide)]; exact b
  · rw [e _ (by decide) (by decide)]; exact b'
  · have := i.2
    rw [e _ (by omega) (by omega), e _ (by omega) (by omega)]; exact d1 i
  · have := i.2
    rw [e _ (by omega) (by omega), e _ (by omega) (by omega)]; exact d2 i
  · rw [e _ (by decide) (by decide), e _ (by decide) (by decide)]; exact d3
  · rw [e _ (by decide) (by decide), e _ (by decide) (by decide), e _ (by decide) (by decide),
      e _ (by decide) (by decide)]; exact d
  · rw [e _ (by decide) (by decide), e _ (by decide) (by decide), e _ (by decide) (by decide),
      e _ (by decide) (by decide)]; exact f

theorem two_pow_ne (k : ℕ) : ((2 : Fr) ^ k) ≠ 0 := pow_ne_zero k (by decide +kernel)

theorem keyMem (V : Key) (hV : V.Valid) (m : Mem) (h : ∀ i < 85, m (VK_MPTR + 0x20 * i) = V.words.getD i 0) :
    KeyMem m V := by
  have hn : (V.n : Fr) = 2 ^ V.k := by rw [Key.n, Nat.cast_pow, Nat.cast_ofNat]
  have hroot : V.omega ^ 2 ^ V.k = 1 := hV.root.pow_eq_one
  have hw0 : V.omega ≠ 0 := hV.root.ne_zero (pow_ne_zero _ (by norm_num))
  generalize hF : (List.finRange 23).flatMap (fun i => Spec.Halo2.pointWords (V.fixed i)) = F
  generalize hP : (List.finRange 9).flatMap (fun i => Spec.Halo2.pointWords (V.perm i)) = P
  have hFl : F.length = 46 := by
    rw [← hF]; unfold Spec.Halo2.pointWords; rw [length_pairs, List.length_finRange]
  have hPl : P.length = 18 := by
    rw [← hP]; unfold Spec.Halo2.pointWords; rw [length_pairs, List.length_finRange]
  obtain ⟨H, hH⟩ : ∃ H, H = [V.digest, BitVec.ofNat 256 V.instances, BitVec.ofNat 256 V.k,
    wordOf ((V.n : Fr)⁻¹), wordOf V.omega, wordOf V.omega⁻¹, wordOf (V.omega⁻¹ ^ 6), 0, 0, 0, 0] ++
    Spec.Halo2.pointWords V.g1 ++ g2Words V.g2 ++ g2Words V.negSG2 := ⟨_, rfl⟩
  have hHl : H.length = 21 := by rw [hH]; rfl
  have hw : V.words = H ++ (F ++ P) := by
    rw [hH, ← hF, ← hP, ← List.append_assoc]; rfl
  have gH (i : ℕ) (hi : i < 21) : m (VK_MPTR + 0x20 * i) = H.getD i 0 := by
    rw [h i (by omega), hw, List.getD_append _ _ _ _ (by omega)]
  have gF (i : ℕ) (hi : i < 46) : m (0x960 + 0x20 * i) = F.getD i 0 := by
    have := h (21 + i) (by omega)
    rw [hw, List.getD_append_right _ _ _ _ (by omega), List.getD_append _ _ _ _ (by omega), hHl,
      show 21 + i - 21 = i by omega] at this
    rw [← this]
    congr 1
    simp only [VK_MPTR]
    omega
  have gP (i : ℕ) (hi : i < 18) : m (0xf20 + 0x20 * i) = P.getD i 0 := by
    have := h (67 + i) (by omega)
    rw [hw, List.getD_append_right _ _ _ _ (by omega), List.getD_append_right _ _ _ _ (by omega), hHl, hFl,
      show 67 + i - 21 - 46 = i by omega] at this
    rw [← this]
    congr 1
    simp only [VK_MPTR]
    omega
  have e1 : m NUM_INSTANCES_MPTR = BitVec.ofNat 256 V.instances := by rw [hH] at gH; exact gH 1 (by decide)
  have e2 : m K_MPTR = BitVec.ofNat 256 V.k := by rw [hH] at gH; exact gH 2 (by decide)
  have e3 : m N_INV_MPTR = wordOf ((V.n : Fr)⁻¹) := by rw [hH] at gH; exact gH 3 (by decide)
  have e4 : m OMEGA_MPTR = wordOf V.omega := by rw [hH] at gH; exact gH 4 (by decide)
  have e5 : m OMEGA_INV_MPTR = wordOf V.omega⁻¹ := by rw [hH] at gH; exact gH 5 (by decide)
  have e6 : m OMEGA_INV_TO_L_MPTR = wordOf (V.omega⁻¹ ^ 6) := by rw [hH] at gH; exact gH 6 (by decide)
  have e7 : m HAS_ACCUMULATOR_MPTR = 0 := by rw [hH] at gH; exact gH 7 (by decide)
  have e11 : m G1_X_MPTR = (encodeG1 V.g1).x := by rw [hH] at gH; exact gH 11 (by decide)
  have e12 : m G1_Y_MPTR = (encodeG1 V.g1).y := by rw [hH] at gH; exact gH 12 (by decide)
  have e13 : m G2_X_1_MPTR = (encodeG2 V.g2).x1 := by rw [hH] at gH; exact gH 13 (by decide)
  have e14 : m G2_X_2_MPTR = (encodeG2 V.g2).x0 := by rw [hH] at gH; exact gH 14 (by decide)
  have e15 : m G2_Y_1_MPTR = (encodeG2 V.g2).y1 := by rw [hH] at gH; exact gH 15 (by decide)
  have e16 : m G2_Y_2_MPTR = (encodeG2 V.g2).y0 := by rw [hH] at gH; exact gH 16 (by decide)
  have e17 : m NEG_S_G2_X_1_MPTR = (encodeG2 V.negSG2).x1 := by rw [hH] at gH; exact gH 17 (by decide)
  have e18 : m NEG_S_G2_X_2_MPTR = (encodeG2 V.negSG2).x0 := by rw [hH] at gH; exact gH 18 (by decide)
  have e19 : m NEG_S_G2_Y_1_MPTR = (encodeG2 V.negSG2).y1 := by rw [hH] at gH; exact gH 19 (by decide)
  have e20 : m NEG_S_G2_Y_2_MPTR = (encodeG2 V.negSG2).y0 := by rw [hH] at gH; exact gH 20 (by decide)
  have hk : V.k < 2 ^ 256 := lt_of_le_of_lt hV.k_le (by norm_num)
  have hi : V.instances < 2 ^ 256 := lt_of_lt_of_le hV.instances (by norm_num)
  have l4 : (m OMEGA_MPTR).toNat < r := by rw [e4]; exact wordOf_lt_r _
  have l6 : (m OMEGA_INV_TO_L_MPTR).toNat < r := by rw [e6]; exact wordOf_lt_r _
  have n3 : fr (m N_INV_MPTR) * 2 ^ V.k = 1 := by
    rw [e3, fr_wordOf, hn, inv_mul_cancel₀ (two_pow_ne _)]
  have n6 : fr (m OMEGA_INV_TO_L_MPTR) * V.omega ^ 6 = 1 := by
    rw [e6, fr_wordOf, ← mul_pow, inv_mul_cancel₀ hw0, one_pow]
  refine ⟨⟨e2, hk, e1, hi, n3, by rw [e4, fr_wordOf], l4, hroot, n6, l6⟩, by rw [e5, fr_wordOf], e7,
    ⟨fun i => ?_, fun i => ?_, ?_⟩, ?_, ?_⟩
  · have hp := getD_pairs (fun i => (encodeG1 (V.fixed i)).x) (fun i => (encodeG1 (V.fixed i)).y)
      (List.finRange 23) i 0 (by rw [List.length_finRange]; exact i.2)
    have hg : (List.finRange 23).getD i 0 = i := by
      rw [List.getD_eq_getElem _ _ (by rw [List.length_finRange]; exact i.2), List.getElem_finRange]
      rfl
    have hF' : (List.finRange 23).flatMap (fun i => [(encodeG1 (V.fixed i)).x, (encodeG1 (V.fixed i)).y]) =
      F := hF
    rw [hg, hF'] at hp
    rw [isPoint_iff, ← hp.1, ← hp.2, ← gF _ (by have := i.2; omega), ← gF _ (by have := i.2; omega)]
    exact ⟨congrArg m (by omega), congrArg m (by omega)⟩
  · have hp := getD_pairs (fun i => (encodeG1 (V.perm i)).x) (fun i => (encodeG1 (V.perm i)).y)
      (List.finRange 9) i 0 (by rw [List.length_finRange]; exact i.2)
    have hg : (List.finRange 9).getD i 0 = i := by
      rw [List.getD_eq_getElem _ _ (by rw [List.length_finRange]; exact i.2), List.getElem_finRange]
      rfl
    have hP' : (List.finRange 9).flatMap (fun i => [(encodeG1 (V.perm i)).x, (encodeG1 (V.perm i)).y]) =
      P := hP
    rw [hg, hP'] at hp
    rw [isPoint_iff, ← hp.1, ← hp.2, ← gP _ (by have := i.2; omega), ← gP _ (by have := i.2; omega)]
    exact ⟨congrArg m (by omega), congrArg m (by omega)⟩
  · rw [isPoint_iff]; exact ⟨e11, e12⟩
  · rw [e13, e14, e15, e16]
    have := decodeG2_encode V.g2
    rw [if_pos hV.g2] at this
    exact this
  · rw [e17, e18, e19, e20]
    have := decodeG2_encode V.negSG2
    rw [if_pos hV.negSG2] at this
    exact this

theorem nondeg (V : Key) (hV : V.Valid) (C : Challenges) (hC : C.Good V) :
    Nondeg (C.x * V.omega⁻¹ ^ 6) (C.x * V.omega⁻¹) C.x (C.x * V.omega) C.mu := by
  obtain ⟨hx, -, m2, m3, m1, m0⟩ := hC
  have hw0 : V.omega ≠ 0 := hV.root.ne_zero (pow_ne_zero _ (by norm_num))
  have h8 : 8 ≤ V.n := by
    rw [Key.n]
    exact le_trans (by norm_num : 8 ≤ 2 ^ 3) (Nat.pow_le_pow_right (by norm_num) hV.k_ge)
  have hne (j : ℕ) (h1 : 0 < j) (h2 : j < 8) : V.omega ^ j ≠ 1 :=
    hV.root.pow_ne_one_of_pos_of_lt (by omega) (lt_of_lt_of_le h2 h8)
  have h1 := hne 1 (by norm_num) (by norm_num)
  have h2 := hne 2 (by norm_num) (by norm_num)
  have h6 := hne 6 (by norm_num) (by norm_num)
  have h7 := hne 7 (by norm_num) (by norm_num)
  clear hne
  generalize V.omega = w at *
  generalize C.x = x at *
  generalize C.mu = mu at *
  rw [pow_one] at h1
  refine ⟨fun h => h6 ?_, fun h => h7 ?_, fun h => h1 ?_, fun h => h2 ?_, fun h => h1 ?_,
    sub_ne_zero.2 m0, sub_ne_zero.2 m1, sub_ne_zero.2 m2, sub_ne_zero.2 m3⟩
  · have e : x * (w ^ 6 - 1) = -((x * w⁻¹ ^ 6 - x) * w ^ 6) := by
      rw [sub_mul, mul_assoc, ← mul_pow, inv_mul_cancel₀ hw0]; ring
    rw [h, zero_mul, neg_zero] at e
    exact sub_eq_zero.1 ((mul_eq_zero.1 e).resolve_left hx)
  · have e : x * (w ^ 7 - 1) = -((x * w⁻¹ ^ 6 - x * w) * w ^ 6) := by
      rw [sub_mul, mul_assoc, ← mul_pow, inv_mul_cancel₀ hw0]; ring
    rw [h, zero_mul, neg_zero] at e
    exact sub_eq_zero.1 ((mul_eq_zero.1 e).resolve_left hx)
  · have e : x * (w - 1) = -((x * w⁻¹ - x) * w) := by
      rw [sub_mul, mul_assoc, inv_mul_cancel₀ hw0]; ring
    rw [h, zero_mul, neg_zero] at e
    exact sub_eq_zero.1 ((mul_eq_zero.1 e).resolve_left hx)
  · have e : x * (w ^ 2 - 1) = -((x * w⁻¹ - x * w) * w) := by
      rw [sub_mul, mul_assoc, inv_mul_cancel₀ hw0]; ring
    rw [h, zero_mul, neg_zero] at e
    exact sub_eq_zero.1 ((mul_eq_zero.1 e).resolve_left hx)
  · have e : x * (w - 1) = -(x - x * w) := by ring
    rw [h, neg_zero] at e
    exact sub_eq_zero.1 ((mul_eq_zero.1 e).resolve_left hx)

/-- The challenges in memory. -/
structure ChalMem (m : Mem) (C : Challenges) : Prop where
  theta : fr (m THETA_MPTR) = C.theta
  beta : fr (m BETA_MPTR) = C.beta
  gamma : fr (m GAMMA_MPTR) = C.gamma
  y : fr (m Y_MPTR) = C.y
  x : fr (m X_MPTR) = C.x
  zeta : fr (m ZETA_MPTR) = C.zeta
  nu : fr (m NU_MPTR) = C.nu
  mu : fr (m MU_MPTR) = C.mu
  xlt : (m X_MPTR).toNat < r

theorem ChalMem.congr {m m' : Mem} {C : Challenges} (h : ChalMem m C)
    (e : ∀ a, 0x1160 ≤ a → a < 0x12e0 → m' a = m a) : ChalMem m' C := by
  obtain ⟨h1, h2, h3, h4, h5, h6, h7, h8, h9⟩ := h
  refine ⟨?_, ?_, ?_, ?_, ?_, ?_, ?_, ?_, ?_⟩ <;>
    (rw [e _ (by decide) (by decide)]; with_reducible assumption)

theorem prologue_ok (keccak : Keccak) (V : Key) (hV : V.Valid) (c : ℕ → Word) (π : Proof) (inst : List Fr)
    (hc : Holds c π.words (wordsOf inst)) (hlen : inst.length = V.instances) (hfin : π.Finite) :
    (prologue keccak V.words c).2 = true ∧ KeyMem (prologue keccak V.words c).1 V ∧
    ChalMem (prologue keccak V.words c).1 (challengesOf keccak V inst π.words) := by
  obtain ⟨h0, h1, h2, h3, h4, h5, h6, h7, h8, h9⟩ := prologue_spec keccak V.words c
  have d0 : V.words.getD 0 0 = V.digest := rfl
  have d1 : V.words.getD 1 0 = BitVec.ofNat 256 V.instances := rfl
  have d2 : (BitVec.ofNat 256 V.instances).toNat = V.instances := by
    rw [BitVec.toNat_ofNat, Nat.mod_eq_of_lt (lt_of_lt_of_le hV.instances (by norm_num))]
  have hl : (wordsOf inst).length = V.instances := by rw [wordsOf, List.length_map, hlen]
  rw [d0, d1, d2] at h1 h2 h3 h4 h5 h6 h7 h8
  have hi := hc.ins
  rw [hl] at hi
  rw [hi, hc.proof] at h1 h2 h3 h4 h5 h6 h7 h8
  have hl' : ∀ (a : Word) (h : Word), a = modr h → fr a = Spec.Halo2.challenge h := by
    rintro a h rfl
    rw [fr_modr]
    unfold fr
    rfl
  refine ⟨?_, keyMem V hV _ h9, ⟨hl' _ _ h1, hl' _ _ h2, hl' _ _ h3, hl' _ _ h4, hl' _ _ h5, hl' _ _ h6,
    hl' _ _ h7, hl' _ _ h8, ?_⟩⟩
  · rw [h0, formatOk_iff, d1, d2]
    refine ⟨hc.len, by rw [hc.count, hl], fun i hi' => ?_, π, hfin, hc.proof⟩
    have := (cdWords_eq_iff c INSTANCE_CPTR V.instances (wordsOf inst) hl).1 hi i hi'
    rw [this, List.getD_eq_getElem _ _ (by rw [hl]; exact hi')]
    simp only [wordsOf, List.getElem_map]
    exact wordOf_lt_r _
  · rw [h5]
    exact modr_lt _

theorem finalPairing_eq (E : BnPairing) (s : St) (V : Key) (L R : G1) (hk : KeyMem s.mem V)
    (hL : IsPoint (s.mem PAIRING_LHS_X_MPTR) (s.mem PAIRING_LHS_Y_MPTR) L)
    (hR : IsPoint (s.mem PAIRING_RHS_X_MPTR) (s.mem PAIRING_RHS_Y_MPTR) R) :
    finalPairing E s = true ↔ s.ok = true ∧ E.e L V.g2 + E.e R V.negSG2 = 0 := by
  have eL : decodeG1 ⟨s.mem PAIRING_LHS_X_MPTR, s.mem PAIRING_LHS_Y_MPTR⟩ = some L := by
    rw [show (⟨s.mem PAIRING_LHS_X_MPTR, s.mem PAIRING_LHS_Y_MPTR⟩ : SolG1) = encodeG1 L from hL,
      decode_encode]
  have eR : decodeG1 ⟨s.mem PAIRING_RHS_X_MPTR, s.mem PAIRING_RHS_Y_MPTR⟩ = some R := by
    rw [show (⟨s.mem PAIRING_RHS_X_MPTR, s.mem PAIRING_RHS_Y_MPTR⟩ : SolG1) = encodeG1 R from hR,
      decode_encode]
  unfold finalPairing ecPairing
  simp only [List.mapM_cons, List.mapM_nil, eL, eR, hk.g2, hk.negSG2, Option.bind_eq_bind,
    Option.pure_def, Option.bind_some, List.sum_cons, List.sum_nil, add_zero, Bool.and_eq_true,
    decide_eq_true_eq]

open Classical in
/-- With good challenges the verifier decides the equation of the protocol. -/
theorem run_spec (E : BnPairing) (keccak : Keccak) (V : Key) (hV : V.Valid) (c : ℕ → Word) (π : Proof)
    (inst : List Fr) (hc : Holds c π.words (wordsOf inst)) (hlen : inst.length = V.instances)
    (hfin : π.Finite) (hG : (challengesOf keccak V inst π.words).Good V) :
    run E keccak V.words c =
      if Spec.Halo2.Accepts E V (challengesOf keccak V inst π.words) inst π then some true else none := by
  obtain ⟨p0, pk, pc⟩ := prologue_ok keccak V hV c π inst hc hlen hfin
  obtain ⟨hpts, hev⟩ := (proof_words_iff _ _).1 hc.proof
  obtain ⟨hev, hlt⟩ := evals_of_words hev
  generalize challengesOf keccak V inst π.words = C at *
  unfold run
  simp only
  generalize prologue keccak V.words c = p at p0 pk pc ⊢
  rw [if_neg (by rw [not_not]; exact pk.acc), if_neg (by rw [not_not]; exact p0)]
  obtain ⟨s0, hs0⟩ : ∃ s0 : St, s0 = ⟨p.1, p.2⟩ := ⟨_, rfl⟩
  have pk : KeyMem s0.mem V := by rw [hs0]; exact pk
  have pc : ChalMem s0.mem C := by rw [hs0]; exact pc
  have p0 : s0.ok = true := by rw [hs0]; exact p0
  rw [← hs0]
  clear hs0
  -- Lagrange
  have hxn : fr (s0.mem X_MPTR) ^ 2 ^ V.k ≠ 1 := by rw [pc.x]; exact hG.x_row
  obtain ⟨a1, a2, a3, a4, a5, a6, a7, a8, a9, -⟩ :=
    lagrange_spec c s0 V.k V.instances V.omega pk.dom pc.xlt hxn
  rw [pc.x] at a3 a5 a6 a7 a8 a9
  have k1 : KeyMem (lagrange c s0).mem V := pk.congr fun a _ h2 => a2 a (by simp only [X_N_MPTR]; omega)
  have c1 : ChalMem (lagrange c s0).mem C := pc.congr fun a _ h2 => a2 a h2
  rw [p0] at a1
  generalize lagrange c s0 = s1 at *
  clear hxn pk pc p0 a2 s0
  have hin : fr (s1.mem INSTANCE_EVAL_MPTR) = Spec.Halo2.instanceAt V inst C.x := by
    rw [a9]
    unfold Spec.Halo2.instanceAt
    rw [hlen]
    refine Finset.sum_congr rfl fun i hi => ?_
    have hi' : i < inst.length := by rw [hlen]; exact Finset.mem_range.1 hi
    have hl : (wordsOf inst).length = inst.length := by rw [wordsOf, List.length_map]
    have := hc.ins
    rw [hl] at this
    rw [(cdWords_eq_iff c INSTANCE_CPTR inst.length (wordsOf inst) hl).1 this i hi',
      List.getD_eq_getElem _ _ (by rw [hl]; exact hi'), List.getD_eq_getElem _ _ hi']
    simp only [wordsOf, List.getElem_map]
    rw [fr_wordOf]
    rfl
  -- the quotient
  obtain ⟨b1, b2, b3⟩ := quotientEval_spec (c := c) (m := s1.mem) (C := C)
    (R := ⟨π.evals, Spec.Halo2.instanceAt V inst C.x, Spec.Halo2.l0 V C.x, Spec.Halo2.lLast V C.x,
      Spec.Halo2.lBlind V C.x⟩)
    ⟨c1.theta, c1.beta, c1.gamma, c1.y, c1.x, hin, a8, a6, a7⟩ hev.symm hlt
  have b1' : fr (quotientEval c s1.mem QUOTIENT_EVAL_MPTR) = Spec.Halo2.quotientEval V C inst π.evals := by
    rw [b1, a5]
    unfold Spec.Halo2.quotientEval Key.n
    rw [div_eq_mul_inv]
  obtain ⟨s2, hs2⟩ : ∃ s2 : St, s2 = ⟨quotientEval c s1.mem, s1.ok⟩ := ⟨_, rfl⟩
  have k2 : KeyMem s2.mem V := by
    rw [hs2]
    exact k1.congr fun a h1 h2 => b3 a (by omega) (by simp only [QUOTIENT_EVAL_MPTR]; omega)
  have c2 : ChalMem s2.mem C := by
    rw [hs2]
    exact c1.congr fun a h1 h2 => b3 a (by omega) (by simp only [QUOTIENT_EVAL_MPTR]; omega)
  have q2 : fr (s2.mem QUOTIENT_EVAL_MPTR) = Spec.Halo2.quotientEval V C inst π.evals := by
    rw [hs2]; exact b1'
  have x2 : fr (s2.mem X_N_MPTR) = C.x ^ V.n := by
    rw [hs2]
    simp only
    rw [b3 _ (by decide) (by decide), a3]
    rfl
  have o2 : s2.ok = true := by rw [hs2]; exact a1
  rw [← hs2]
  clear hs2 b1 b1' b2 b3 hin a1 a3 a4 a5 a6 a7 a8 a9 k1 c1 s1
  -- commitment of the quotient
  obtain ⟨d1, d2, d3⟩ := quotientComm_spec c s2 π.quotient (fun i => by
    have := hpts.pts (24 + i) (by have := i.2; omega)
    rw [show 0x84 + 0x40 * (24 + (i : ℕ)) = 0x684 + 0x40 * i by omega] at this
    have hg : π.points.getD (24 + i) 0 = π.quotient i := by fin_cases i <;> rfl
    rw [hg] at this
    exact this)
  rw [x2] at d2
  have d2' : IsPoint ((quotientComm c s2).mem QUOTIENT_X_MPTR) ((quotientComm c s2).mem QUOTIENT_Y_MPTR)
      (Spec.Halo2.quotientComm V C π) := d2
  have k3 : KeyMem (quotientComm c s2).mem V := k2.congr fun a h1 h2 => d3 a (by omega)
    (by simp only [QUOTIENT_X_MPTR]; omega) (by simp only [QUOTIENT_Y_MPTR]; omega)
  have c3 : ChalMem (quotientComm c s2).mem C := c2.congr fun a h1 h2 => d3 a (by omega)
    (by simp only [QUOTIENT_X_MPTR]; omega) (by simp only [QUOTIENT_Y_MPTR]; omega)
  have q3 : fr ((quotientComm c s2).mem QUOTIENT_EVAL_MPTR) =
      Spec.Halo2.quotientEval V C inst π.evals := by
    rw [d3 _ (by decide) (by decide) (by decide), q2]
  rw [o2] at d1
  generalize quotientComm c s2 = s3 at *
  clear d2 d3 k2 c2 q2 x2 o2 s2
  -- the opening
  have nd := nondeg V hV C hG
  obtain ⟨sc, so, sf⟩ := openScalars_spec c s3 C.x V.omega C.zeta C.nu C.mu _ c3.x c3.xlt k3.dom.omega
    k3.omegaInv c3.mu c3.zeta c3.nu q3 nd
  rw [batchOpen_eq]
  have k4 : KeyMem (openScalars c s3).mem V := k3.congr fun a h1 h2 => sf a h1
    (by simp only [R_EVAL_MPTR]; omega)
  have c4 : ChalMem (openScalars c s3).mem C := c3.congr fun a h1 h2 => sf a (by omega)
    (by simp only [R_EVAL_MPTR]; omega)
  have q4 : IsPoint ((openScalars c s3).mem QUOTIENT_X_MPTR) ((openScalars c s3).mem QUOTIENT_Y_MPTR)
      (Spec.Halo2.quotientComm V C π) := by
    rw [sf _ (by decide) (by decide), sf _ (by decide) (by decide)]; exact d2'
  rw [d1] at so
  generalize openScalars c s3 = s4 at *
  clear sf k3 c3 q3 d1 d2' s3
  obtain ⟨u1, u2, u3, u4⟩ := open19_spec s4 c4.zeta c4.nu hpts k4.pts q4 sc.s1 sc.s2 sc.s3 sc.s4 sc.rel sc.zsl
  rw [so] at u1
  have k5 : KeyMem (open19 c s4).mem V := k4.congr fun a h1 h2 => u4 a (by omega) (by omega)
  generalize open19 c s4 = s5 at *
  have hfp := finalPairing_eq E s5 V _ _ k5 u2 u3
  have hl := lhs_eq V C inst π nd.m0 nd.m1 nd.m2 nd.m3
  rw [sc.re, sc.zs, c4.mu, hev] at hfp
  have hsf : setFactors C.x V.omega C.mu = [1, (C.mu - C.x * V.omega⁻¹) * (C.mu - C.x * V.omega),
    C.mu - C.x * V.omega⁻¹, (C.mu - C.x * V.omega⁻¹) / (C.mu - C.x * V.omega⁻¹ ^ 6),
    C.mu - C.x * V.omega] := rfl
  rw [← hsf, hl, u1] at hfp
  have hacc : Spec.Halo2.Accepts E V C inst π ↔ finalPairing E s5 = true := by
    rw [hfp]
    unfold Spec.Halo2.Accepts Spec.Halo2.openEquation
    simp only [true_and]
  by_cases hA : Spec.Halo2.Accepts E V C inst π
  · rw [if_pos hA, if_pos (hacc.1 hA)]
  · rw [if_neg hA, if_neg (fun h => hA (hacc.2 h))]

theorem bytes_eq (π : Proof) : π.bytes = wordBytes π.words := rfl

theorem length_bytes (π : Proof) : π.bytes.length = 0x1180 := by
  rw [bytes_eq, length_wordBytes', length_words]

theorem verifyProof_bytes (E : BnPairing) (keccak : Keccak) (vk : List Word) (sel : List Byte) (addr : Word)
    (π : Proof) (inst : List Fr) (hl : inst.length < 2 ^ 64) :
    verifyProof E keccak vk sel addr π.bytes (wordsOf inst) =
      run E keccak vk (calldataload (callData sel addr (wordBytes π.words) (wordsOf inst))) := by
  unfold verifyProof
  rw [if_pos ⟨by rw [length_bytes]; norm_num, by rw [wordsOf, List.length_map]; exact hl⟩, bytes_eq]

/-- What is accepted is a well-formed proof with canonical instances. -/
theorem verifyProof_format' (E : BnPairing) (keccak : Keccak) (vk : List Word) (sel : List Byte)
    (hs : sel.length = 4) (addr : Word) (proof : List Byte) (ins : List Word) {b : Bool}
    (h : verifyProof E keccak vk sel addr proof ins = some b) :
    b = true ∧ ∃ (π : Proof) (inst : List Fr), π.Finite ∧ proof = π.bytes ∧ ins = wordsOf inst ∧
      inst.length = (vk.getD 1 0).toNat := by
  unfold verifyProof at h
  split at h
  case isFalse => cases h
  rename_i hlen
  unfold run at h
  simp only at h
  split at h
  · cases h
  split at h
  · cases h
  rename_i hok
  rw [not_not] at hok
  refine ⟨?_, ?_⟩
  · split at h
    · exact (Option.some.inj h).symm
    · cases h
  have hf := (prologue_spec keccak vk (calldataload (callData sel addr proof ins))).1.1 hok
  rw [formatOk_iff] at hf
  obtain ⟨f1, f2, f3, π, hfin, hpw⟩ := hf
  clear h hok
  -- the length of the proof
  have hpl : proof.length = 0x1180 := by
    have hx : calldataload (callData sel addr proof ins) PROOF_LEN_CPTR = BitVec.ofNat 256 proof.length := by
      unfold calldataload callData
      simp only [List.append_assoc]
      rw [show PROOF_LEN_CPTR = sel.length + (32 + (32 + 32)) by rw [hs], List.drop_append, List.drop_eq_nil_of_le (by omega), List.nil_append, Nat.add_sub_cancel_left,
        List.drop_append, List.drop_eq_nil_of_le (by rw [length_wordBytes]; omega), List.nil_append,
        length_wordBytes, Nat.add_sub_cancel_left,
        List.drop_append, List.drop_eq_nil_of_le (by rw [length_beBytes]; omega), List.nil_append,
        length_beBytes, Nat.add_sub_cancel_left,
        List.drop_append, List.drop_eq_nil_of_le (by rw [length_beBytes]), List.nil_append,
        length_beBytes, Nat.sub_self, List.drop_zero,
        List.take_append_of_le_length (by rw [length_beBytes]), List.take_of_length_le
        (by rw [length_beBytes]), List.rightpad, length_beBytes, Nat.sub_self, List.replicate_zero,
        List.append_nil, ofBE_beBytes]
      rw [Nat.mod_eq_of_lt (lt_trans hlen.1 (by norm_num))]
    rw [hx] at f1
    have := congrArg BitVec.toNat f1
    rw [BitVec.toNat_ofNat, Nat.mod_eq_of_lt (lt_trans hlen.1 (by norm_num))] at this
    rw [this]
    rfl
  obtain ⟨pw, hpwl, rfl⟩ := words_of_bytes 140 proof (by rw [hpl])
  have hh := holds_callData sel hs addr pw ins hpwl
  have e : pw = π.words := by rw [← hh.proof]; exact hpw
  have hc := hh.count
  rw [f2] at hc
  have hil : (vk.getD 1 0).toNat = ins.length := by
    have := congrArg BitVec.toNat hc
    rwa [BitVec.toNat_ofNat, Nat.mod_eq_of_lt (lt_trans hlen.2 (by norm_num))] at this
  refine ⟨π, ins.map fun w => fr w, hfin, by rw [e]; rfl, ?_, by rw [List.length_map, hil]⟩
  apply List.ext_getElem
  · rw [wordsOf, List.length_map, List.length_map]
  intro i h1 h2
  simp only [wordsOf, List.getElem_map]
  have hi := (cdWords_eq_iff _ INSTANCE_CPTR ins.length ins rfl).1 hh.ins i h1
  have h3 := f3 i (by omega)
  rw [hi, List.getD_eq_getElem _ _ h1] at h3
  rw [wordOf_fr h3]

theorem verifyProof_format (E : BnPairing) (keccak : Keccak) (V : Key) (hV : V.Valid) (sel : List Byte)
    (hs : sel.length = 4) (addr : Word) (proof : List Byte) (ins : List Word) {b : Bool}
    (h : verifyProof E keccak V.words sel addr proof ins = some b) :
    b = true ∧ ∃ (π : Proof) (inst : List Fr), π.Finite ∧ proof = π.bytes ∧ ins = wordsOf inst ∧
      inst.length = V.instances := by
  obtain ⟨h1, π, inst, h2, h3, h4, h5⟩ := verifyProof_format' E keccak V.words sel hs addr proof ins h
  have d1 : V.words.getD 1 0 = BitVec.ofNat 256 V.instances := rfl
  refine ⟨h1, π, inst, h2, h3, h4, ?_⟩
  rw [h5, d1, BitVec.toNat_ofNat, Nat.mod_eq_of_lt (lt_of_lt_of_le hV.instances (by norm_num))]

open Classical in
theorem verifyProof_spec (E : BnPairing) (keccak : Keccak) (V : Key) (hV : V.Valid) (sel : List Byte)
    (hs : sel.length = 4) (addr : Word) (π : Proof) (inst : List Fr) (hlen : inst.length = V.instances)
    (hfin : π.Finite) (hG : (challengesOf keccak V inst π.words).Good V) :
    verifyProof E keccak V.words sel addr π.bytes (wordsOf inst) =
      if Spec.Halo2.Accepts E V (challengesOf keccak V inst π.words) inst π then some true else none := by
  rw [verifyProof_bytes _ _ _ _ _ _ _ (by rw [hlen]; exact hV.instances)]
  exact run_spec E keccak V hV _ π inst (holds_callData sel hs addr π.words _ (length_words π)) hlen hfin hG

end Verif.Halo2
