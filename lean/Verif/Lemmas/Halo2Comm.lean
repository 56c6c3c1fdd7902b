import Verif.Lemmas.Halo2Scalars

/-! The linear combination of commitments computed by the on-chain proof verifier. -/

namespace Verif.Halo2
attribute [local irreducible] fr
open Spec.Halo2 (Evals OpenSet Proof Key)

/-- The call data holds the points of the proof. -/
structure ProofPts (c : ℕ → Word) (P : Proof) : Prop where
  pts : ∀ i < 29, IsPoint (c (0x84 + 0x40 * i)) (c (0x84 + 0x40 * i + 0x20)) (P.points.getD i 0)
  w : IsPoint (c 0x1184) (c 0x11a4) P.w
  w' : IsPoint (c 0x11c4) (c 0x11e4) P.w'

theorem ProofPts.pt {c : ℕ → Word} {P : Proof} (h : ProofPts c P) (i : Fin 29) :
    IsPoint (c (0x84 + 0x40 * (i : ℕ))) (c (0x84 + 0x40 * (i : ℕ) + 0x20)) (P.points.getD i 0) :=
  h.pts i i.2

/-- The memory holds the points of the verifying key. -/
structure KeyPts (m : Mem) (V : Key) : Prop where
  fixed : ∀ i : Fin 23, IsPoint (m (0x960 + 0x40 * (i : ℕ))) (m (0x960 + 0x40 * (i : ℕ) + 0x20)) (V.fixed i)
  perm : ∀ i : Fin 9, IsPoint (m (0xf20 + 0x40 * (i : ℕ))) (m (0xf20 + 0x40 * (i : ℕ) + 0x20)) (V.perm i)
  g1 : IsPoint (m G1_X_MPTR) (m G1_Y_MPTR) V.g1

/-- The commitments of the sets, in order; the second set with the commitment `Q` of the quotient. -/
def setComms (V : Key) (P : Proof) (Q : G1) : List (List G1) :=
  [[P.advice 0, P.advice 1, P.advice 2],
   [P.advice 3, P.lookupTable 0, P.lookupTable 1, P.lookupTable 2, P.lookupTable 3,
    P.lookupTable 4, V.fixed 0, V.fixed 1, V.fixed 2, V.fixed 3, V.fixed 4, V.fixed 7, V.fixed 5,
    V.fixed 6, V.fixed 8, V.fixed 9, V.fixed 10, V.fixed 11, V.fixed 15, V.fixed 16, V.fixed 17,
    V.fixed 12, V.fixed 13, V.fixed 14, V.fixed 18, V.fixed 19, V.fixed 20, V.fixed 21, V.fixed 22,
    V.perm 0, V.perm 1, V.perm 2, V.perm 3, V.perm 4, V.perm 5, V.perm 6, V.perm 7, V.perm 8, Q,
    P.random],
   [P.advice 4, P.permProduct 2, P.lookupProduct 0, P.lookupProduct 1, P.lookupProduct 2,
    P.lookupProduct 3, P.lookupProduct 4],
   [P.permProduct 0, P.permProduct 1],
   [P.lookupInput 0, P.lookupInput 1, P.lookupInput 2, P.lookupInput 3, P.lookupInput 4]]

variable {s : St} {ok : Bool} {m : Mem} {A T : G1} {c : ℕ → Word} {P : Proof} {V : Key} {Q : G1}

theorem comm0_spec (s : St) {zeta : Fr} (hz : fr (s.mem ZETA_MPTR) = zeta) (hc : ProofPts c P) :
    AccSt (comm0 c s) s.ok s.mem (powSum zeta ((setComms V P Q).getD 0 [])) := by
  have h0 := AccSt.init s (hc.pt 2)
  have h1 := h0.stepAcc hz (hc.pt 1)
  have h2 := h1.stepAcc hz (hc.pt 0)
  have e : powSum zeta ((setComms V P Q).getD 0 []) = zeta • (zeta • P.advice 2 + P.advice 1) +
      P.advice 0 := by
    simp only [setComms, List.getD_cons_zero, powSum, List.foldr_cons, List.foldr_nil, smul_zero, zero_add]
  rw [e]
  exact h2

set_option maxRecDepth 5000 in
theorem comm1_spec (h : AccSt s ok m A) {zeta v : Fr} {nu : Word} (hz : fr (m ZETA_MPTR) = zeta)
    (hc : ProofPts c P) (hk : KeyPts m V)
    (hq : IsPoint (m QUOTIENT_X_MPTR) (m QUOTIENT_Y_MPTR) Q) (hv : fr nu * fr (m 0x500) = v) :
    EcSt (comm1 c nu s) ok m (A + v • powSum zeta ((setComms V P Q).getD 1 []))
      (v • powSum zeta ((setComms V P Q).getD 1 [])) := by
  have h0 := h.setTmp (show IsPoint (c 0x644) (c 0x664) (P.random) from hc.pt 23)
  have h1 := h0.stepTmpMem (a := 0x13c0) hz (by decide) (P := Q) hq
  have h2 := h1.stepTmpMem (a := 0x1120) hz (by decide) (P := V.perm 8) (hk.perm 8)
  have h3 := h2.stepTmpMem (a := 0x10e0) hz (by decide) (P := V.perm 7) (hk.perm 7)
  have h4 := h3.stepTmpMem (a := 0x10a0) hz (by decide) (P := V.perm 6) (hk.perm 6)
  have h5 := h4.stepTmpMem (a := 0x1060) hz (by decide) (P := V.perm 5) (hk.perm 5)
  have h6 := h5.stepTmpMem (a := 0x1020) hz (by decide) (P := V.perm 4) (hk.perm 4)
  have h7 := h6.stepTmpMem (a := 0xfe0) hz (by decide) (P := V.perm 3) (hk.perm 3)
  have h8 := h7.stepTmpMem (a := 0xfa0) hz (by decide) (P := V.perm 2) (hk.perm 2)
  have h9 := h8.stepTmpMem (a := 0xf60) hz (by decide) (P := V.perm 1) (hk.perm 1)
  have h10 := h9.stepTmpMem (a := 0xf20) hz (by decide) (P := V.perm 0) (hk.perm 0)
  have h11 := h10.stepTmpMem (a := 0xee0) hz (by decide) (P := V.fixed 22) (hk.fixed 22)
  have h12 := h11.stepTmpMem (a := 0xea0) hz (by decide) (P := V.fixed 21) (hk.fixed 21)
  have h13 := h12.stepTmpMem (a := 0xe60) hz (by decide) (P := V.fixed 20) (hk.fixed 20)
  have h14 := h13.stepTmpMem (a := 0xe20) hz (by decide) (P := V.fixed 19) (hk.fixed 19)
  have h15 := h14.stepTmpMem (a := 0xde0) hz (by decide) (P := V.fixed 18) (hk.fixed 18)
  have h16 := h15.stepTmpMem (a := 0xce0) hz (by decide) (P := V.fixed 14) (hk.fixed 14)
  have h17 := h16.stepTmpMem (a := 0xca0) hz (by decide) (P := V.fixed 13) (hk.fixed 13)
  have h18 := h17.stepTmpMem (a := 0xc60) hz (by decide) (P := V.fixed 12) (hk.fixed 12)
  have h19 := h18.stepTmpMem (a := 0xda0) hz (by decide) (P := V.fixed 17) (hk.fixed 17)
  have h20 := h19.stepTmpMem (a := 0xd60) hz (by decide) (P := V.fixed 16) (hk.fixed 16)
  have h21 := h20.stepTmpMem (a := 0xd20) hz (by decide) (P := V.fixed 15) (hk.fixed 15)
  have h22 := h21.stepTmpMem (a := 0xc20) hz (by decide) (P := V.fixed 11) (hk.fixed 11)
  have h23 := h22.stepTmpMem (a := 0xbe0) hz (by decide) (P := V.fixed 10) (hk.fixed 10)
  have h24 := h23.stepTmpMem (a := 0xba0) hz (by decide) (P := V.fixed 9) (hk.fixed 9)
  have h25 := h24.stepTmpMem (a := 0xb60) hz (by decide) (P := V.fixed 8) (hk.fixed 8)
  have h26 := h25.stepTmpMem (a := 0xae0) hz (by decide) (P := V.fixed 6) (hk.fixed 6)
  have h27 := h26.stepTmpMem (a := 0xaa0) hz (by decide) (P := V.fixed 5) (hk.fixed 5)
  have h28 := h27.stepTmpMem (a := 0xb20) hz (by decide) (P := V.fixed 7) (hk.fixed 7)
  have h29 := h28.stepTmpMem (a := 0xa60) hz (by decide) (P := V.fixed 4) (hk.fixed 4)
  have h30 := h29.stepTmpMem (a := 0xa20) hz (by decide) (P := V.fixed 3) (hk.fixed 3)
  have h31 := h30.stepTmpMem (a := 0x9e0) hz (by decide) (P := V.fixed 2) (hk.fixed 2)
  have h32 := h31.stepTmpMem (a := 0x9a0) hz (by decide) (P := V.fixed 1) (hk.fixed 1)
  have h33 := h32.stepTmpMem (a := 0x960) hz (by decide) (P := V.fixed 0) (hk.fixed 0)
  have h34 := h33.stepTmp hz
    (show IsPoint (c 0x404) (c 0x424) (P.lookupTable 4) from hc.pt 14)
  have h35 := h34.stepTmp hz
    (show IsPoint (c 0x384) (c 0x3a4) (P.lookupTable 3) from hc.pt 12)
  have h36 := h35.stepTmp hz
    (show IsPoint (c 0x304) (c 0x324) (P.lookupTable 2) from hc.pt 10)
  have h37 := h36.stepTmp hz
    (show IsPoint (c 0x284) (c 0x2a4) (P.lookupTable 1) from hc.pt 8)
  have h38 := h37.stepTmp hz
    (show IsPoint (c 0x204) (c 0x224) (P.lookupTable 0) from hc.pt 6)
  have h39 := h38.stepTmp hz
    (show IsPoint (c 0x144) (c 0x164) (P.advice 3) from hc.pt 3)
  have hf := h39.close (a := 0x500) (nu := nu) (v := v) (by decide) hv
  simp only [setComms, List.getD_cons_zero, List.getD_cons_succ, powSum, List.foldr_cons,
    List.foldr_nil, smul_zero, zero_add]
  unfold comm1
  have u1 : downFrom 0x1120 0x40 14 = [0x1120, 0x10e0, 0x10a0, 0x1060, 0x1020, 0xfe0, 0xfa0, 0xf60, 0xf20, 0xee0, 0xea0, 0xe60, 0xe20, 0xde0] := by decide
  have u2 : downFrom 0xce0 0x40 3 = [0xce0, 0xca0, 0xc60] := by decide
  have u3 : downFrom 0xda0 0x40 3 = [0xda0, 0xd60, 0xd20] := by decide
  have u4 : downFrom 0xc20 0x40 4 = [0xc20, 0xbe0, 0xba0, 0xb60] := by decide
  have u5 : downFrom 0xa60 0x40 5 = [0xa60, 0xa20, 0x9e0, 0x9a0, 0x960] := by decide
  simp only [u1, u2, u3, u4, u5, List.foldl_cons, List.foldl_nil]
  exact hf

theorem comm2_spec (h : EcSt s ok m A T) {zeta v : Fr} {nu : Word} (hz : fr (m ZETA_MPTR) = zeta)
    (hc : ProofPts c P) (hv : fr nu * fr (m 0x520) = v) :
    EcSt (comm2 c nu s) ok m (A + v • powSum zeta ((setComms V P Q).getD 2 []))
      (v • powSum zeta ((setComms V P Q).getD 2 [])) := by
  have h0 := h.setTmp (show IsPoint (c 0x604) (c 0x624) (P.lookupProduct 4) from hc.pt 22)
  have h1 := h0.stepTmp hz
    (show IsPoint (c 0x5c4) (c 0x5e4) (P.lookupProduct 3) from hc.pt 21)
  have h2 := h1.stepTmp hz
    (show IsPoint (c 0x584) (c 0x5a4) (P.lookupProduct 2) from hc.pt 20)
  have h3 := h2.stepTmp hz
    (show IsPoint (c 0x544) (c 0x564) (P.lookupProduct 1) from hc.pt 19)
  have h4 := h3.stepTmp hz
    (show IsPoint (c 0x504) (c 0x524) (P.lookupProduct 0) from hc.pt 18)
  have h5 := h4.stepTmp hz
    (show IsPoint (c 0x4c4) (c 0x4e4) (P.permProduct 2) from hc.pt 17)
  have h6 := h5.stepTmp hz
    (show IsPoint (c 0x184) (c 0x1a4) (P.advice 4) from hc.pt 4)
  have hf := h6.close (a := 0x520) (nu := nu) (v := v) (by decide) hv
  simp only [setComms, List.getD_cons_zero, List.getD_cons_succ, powSum, List.foldr_cons,
    List.foldr_nil, smul_zero, zero_add]
  unfold comm2
  have u1 : downFrom 0x5c4 0x40 5 = [0x5c4, 0x584, 0x544, 0x504, 0x4c4] := by decide
  simp only [u1, List.foldl_cons, List.foldl_nil]
  exact hf

theorem comm3_spec (h : EcSt s ok m A T) {zeta v : Fr} {nu : Word} (hz : fr (m ZETA_MPTR) = zeta)
    (hc : ProofPts c P) (hv : fr nu * fr (m 0x540) = v) :
    EcSt (comm3 c nu s) ok m (A + v • powSum zeta ((setComms V P Q).getD 3 []))
      (v • powSum zeta ((setComms V P Q).getD 3 [])) := by
  have h0 := h.setTmp (show IsPoint (c 0x484) (c 0x4a4) (P.permProduct 1) from hc.pt 16)
  have h1 := h0.stepTmp hz
    (show IsPoint (c 0x444) (c 0x464) (P.permProduct 0) from hc.pt 15)
  have hf := h1.close (a := 0x540) (nu := nu) (v := v) (by decide) hv
  simp only [setComms, List.getD_cons_zero, List.getD_cons_succ, powSum, List.foldr_cons,
    List.foldr_nil, smul_zero, zero_add]
  exact hf

theorem comm4_spec (h : EcSt s ok m A T) {zeta v : Fr} {nu : Word} (hz : fr (m ZETA_MPTR) = zeta)
    (hc : ProofPts c P) (hv : fr nu * fr (m 0x560) = v) :
    EcSt (comm4 c nu s) ok m (A + v • powSum zeta ((setComms V P Q).getD 4 []))
      (v • powSum zeta ((setComms V P Q).getD 4 [])) := by
  have h0 := h.setTmp (show IsPoint (c 0x3c4) (c 0x3e4) (P.lookupInput 4) from hc.pt 13)
  have h1 := h0.stepTmp hz
    (show IsPoint (c 0x344) (c 0x364) (P.lookupInput 3) from hc.pt 11)
  have h2 := h1.stepTmp hz
    (show IsPoint (c 0x2c4) (c 0x2e4) (P.lookupInput 2) from hc.pt 9)
  have h3 := h2.stepTmp hz
    (show IsPoint (c 0x244) (c 0x264) (P.lookupInput 1) from hc.pt 7)
  have h4 := h3.stepTmp hz
    (show IsPoint (c 0x1c4) (c 0x1e4) (P.lookupInput 0) from hc.pt 5)
  have hf := h4.close (a := 0x560) (nu := nu) (v := v) (by decide) hv
  simp only [setComms, List.getD_cons_zero, List.getD_cons_succ, powSum, List.foldr_cons,
    List.foldr_nil, smul_zero, zero_add]
  exact hf

theorem comm5_spec (h : EcSt s ok m A T) (hc : ProofPts c P) (hk : KeyPts m V)
    (hr : (m R_EVAL_MPTR).toNat < r) (hzs : (m 0x4c0).toNat < r) :
    EcSt (comm5 c s) ok m (A + (-fr (m R_EVAL_MPTR)) • V.g1 + (-fr (m 0x4c0)) • P.w +
      fr (m MU_MPTR) • P.w') (fr (m MU_MPTR) • P.w') := by
  have h1 := h.setTmp (x := s.mem G1_X_MPTR) (y := s.mem G1_Y_MPTR) (P := V.g1)
    (by rw [h.frame _ (by decide), h.frame _ (by decide)]; exact hk.g1)
  have h2 := (h1.mulTmp (k := subr (m R_EVAL_MPTR))).addTmpAcc
  have h3 := h2.setTmp hc.w
  have h4 := (h3.mulTmp (k := subr (m 0x4c0))).addTmpAcc
  have h5 := h4.setTmp hc.w'
  have h6 := (h5.mulTmp (k := m MU_MPTR)).addTmpAcc
  rw [fr_subr hr, fr_subr hzs] at h6
  have e1 := h1.frame R_EVAL_MPTR (by decide)
  have e3 := h3.frame 0x4c0 (by decide)
  have e5 := h5.frame MU_MPTR (by decide)
  unfold comm5
  simp only
  rw [e1, e3, e5]
  exact h6

/-- The point paired with `g2`. -/
noncomputable def lhsPoint (V : Key) (P : Proof) (Q : G1) (zeta nu mu re zs : Fr) (d : List Fr) : G1 :=
  powSum nu (List.zipWith (fun (k : Fr) l => k • powSum zeta l) d (setComms V P Q)) + (-re) • V.g1 +
    (-zs) • P.w + mu • P.w'

theorem lhsPoint_eq (V : Key) (P : Proof) (Q : G1) (zeta nu mu re zs s1 s2 s3 s4 : Fr) :
    lhsPoint V P Q zeta nu mu re zs [1, s1, s2, s3, s4] =
      powSum zeta ((setComms V P Q).getD 0 []) + (nu * s1) • powSum zeta ((setComms V P Q).getD 1 []) +
      (nu * nu * s2) • powSum zeta ((setComms V P Q).getD 2 []) +
      (nu * nu * nu * s3) • powSum zeta ((setComms V P Q).getD 3 []) +
      (nu * nu * nu * nu * s4) • powSum zeta ((setComms V P Q).getD 4 []) +
      (-re) • V.g1 + (-zs) • P.w + mu • P.w' := by
  unfold lhsPoint
  have e : setComms V P Q = [(setComms V P Q).getD 0 [], (setComms V P Q).getD 1 [],
    (setComms V P Q).getD 2 [], (setComms V P Q).getD 3 [], (setComms V P Q).getD 4 []] := rfl
  rw [e]
  simp only [List.getD_cons_zero, List.getD_cons_succ, List.zipWith_cons_cons, List.zipWith_nil_right]
  generalize powSum zeta ((setComms V P Q).getD 0 []) = L0
  generalize powSum zeta ((setComms V P Q).getD 1 []) = L1
  generalize powSum zeta ((setComms V P Q).getD 2 []) = L2
  generalize powSum zeta ((setComms V P Q).getD 3 []) = L3
  generalize powSum zeta ((setComms V P Q).getD 4 []) = L4
  generalize V.g1 = g, P.w = w, P.w' = w'
  simp only [powSum, List.foldr_cons, List.foldr_nil, one_smul, smul_zero, zero_add, smul_add, smul_smul,
    mul_assoc]
  abel

theorem open19_spec (s : St) {zeta nu s1 s2 s3 s4 : Fr} (hz : fr (s.mem ZETA_MPTR) = zeta)
    (hnu : fr (s.mem NU_MPTR) = nu) (hc : ProofPts c P) (hk : KeyPts s.mem V)
    (hq : IsPoint (s.mem QUOTIENT_X_MPTR) (s.mem QUOTIENT_Y_MPTR) Q)
    (h1 : fr (s.mem 0x500) = s1) (h2 : fr (s.mem 0x520) = s2) (h3 : fr (s.mem 0x540) = s3)
    (h4 : fr (s.mem 0x560) = s4) (hr : (s.mem R_EVAL_MPTR).toNat < r) (hzs : (s.mem 0x4c0).toNat < r) :
    (open19 c s).ok = s.ok ∧
    IsPoint ((open19 c s).mem PAIRING_LHS_X_MPTR) ((open19 c s).mem PAIRING_LHS_Y_MPTR)
      (lhsPoint V P Q zeta nu (fr (s.mem MU_MPTR)) (fr (s.mem R_EVAL_MPTR)) (fr (s.mem 0x4c0))
        [1, s1, s2, s3, s4]) ∧
    IsPoint ((open19 c s).mem PAIRING_RHS_X_MPTR) ((open19 c s).mem PAIRING_RHS_Y_MPTR) P.w' ∧
    ∀ a, 0x380 ≤ a → a < 0x1420 → (open19 c s).mem a = s.mem a := by
  have g0 := comm0_spec (V := V) (Q := Q) s hz hc
  have g1 := comm1_spec (nu := s.mem NU_MPTR) g0 hz hc hk hq (by rw [hnu, h1])
  have g2 := comm2_spec (V := V) (Q := Q) (nu := mulr (s.mem NU_MPTR) (s.mem NU_MPTR)) g1 hz hc
    (by rw [fr_mulr, hnu, h2])
  have g3 := comm3_spec (V := V) (Q := Q)
    (nu := mulr (mulr (s.mem NU_MPTR) (s.mem NU_MPTR)) (s.mem NU_MPTR)) g2 hz hc
    (by rw [fr_mulr, fr_mulr, hnu, h3])
  have g4 := comm4_spec (V := V) (Q := Q)
    (nu := mulr (mulr (mulr (s.mem NU_MPTR) (s.mem NU_MPTR)) (s.mem NU_MPTR)) (s.mem NU_MPTR)) g3 hz hc
    (by rw [fr_mulr, fr_mulr, fr_mulr, hnu, h4])
  have g5 := comm5_spec g4 hc hk hr hzs
  have e1 := g1.frame NU_MPTR (by decide)
  have e2 := g2.frame NU_MPTR (by decide)
  have e3 := g3.frame NU_MPTR (by decide)
  obtain ⟨t, ht⟩ : ∃ t, t = comm5 c (comm4 c (mulr (mulr (mulr (s.mem NU_MPTR) (s.mem NU_MPTR))
    (s.mem NU_MPTR)) (s.mem NU_MPTR)) (comm3 c (mulr (mulr (s.mem NU_MPTR) (s.mem NU_MPTR))
    (s.mem NU_MPTR)) (comm2 c (mulr (s.mem NU_MPTR) (s.mem NU_MPTR)) (comm1 c (s.mem NU_MPTR)
    (comm0 c s))))) := ⟨_, rfl⟩
  have e : open19 c s = (((t.store PAIRING_LHS_X_MPTR (t.mem 0)).store PAIRING_LHS_Y_MPTR
      (t.mem 0x20)).store PAIRING_RHS_X_MPTR (c 0x11c4)).store PAIRING_RHS_Y_MPTR (c 0x11e4) := by
    unfold open19
    simp only
    rw [e1, e2, e3, ← ht]
    simp only [St.store]
    rw [show t.mem.store PAIRING_LHS_X_MPTR (t.mem 0) 0x20 = t.mem 0x20 from store_ne (by decide)]
  rw [← ht] at g5
  rw [e]
  refine ⟨?_, ?_, ?_, ?_⟩
  · exact g5.ok
  · simp only [St.store]
    rw [store_ne (by decide), store_ne (by decide), store_ne (by decide), store_same,
      store_ne (by decide), store_ne (by decide), store_same]
    rw [lhsPoint_eq]
    exact g5.acc
  · simp only [St.store]
    rw [store_ne (by decide), store_same, store_same]
    exact hc.w'
  · intro a ha hb
    simp only [St.store, PAIRING_LHS_X_MPTR, PAIRING_LHS_Y_MPTR, PAIRING_RHS_X_MPTR, PAIRING_RHS_Y_MPTR]
    rw [store_ne (by omega), store_ne (by omega), store_ne (by omega), store_ne (by omega)]
    exact g5.frame a ha

/-! ### The equation of the opening -/

theorem powSum_range {M N : Type} [AddCommGroup M] [Module Fr M] (z : Fr) (f : N → M) (d : N)
    (l : List N) :
    ((List.range l.length).map fun j => z ^ j • f (l.getD j d)).sum = powSum z (l.map f) := by
  induction l with
  | nil => rfl
  | cons a l ih =>
    rw [List.length_cons, List.range_succ_eq_map, List.map_cons, List.sum_cons, List.map_map, List.map_cons]
    change _ = z • powSum z (l.map f) + f a
    rw [← ih, List.smul_sum, List.map_map, pow_zero, one_smul, List.getD_cons_zero, add_comm]
    congr 1
    refine congrArg List.sum (List.map_congr_left fun j _ => ?_)
    simp only [Function.comp, List.getD_cons_succ, pow_succ', smul_smul]

theorem powSum_sub (z : Fr) (g : G1) {N : Type} (f : N → G1) (v : N → Fr) (l : List N) :
    powSum z (l.map fun q => f q - v q • g) = powSum z (l.map f) - horn z (l.map v) • g := by
  induction l with
  | nil =>
    simp only [List.map_nil, powSum, horn, List.foldr_nil]
    rw [zero_smul Fr g, sub_zero]
  | cons a l ih =>
    change z • powSum z (l.map fun q => f q - v q • g) + (f a - v a • g) =
      (z • powSum z (l.map f) + f a) - (horn z (l.map v) * z + v a) • g
    rw [ih]
    generalize powSum z (l.map f) = A, horn z (l.map v) = B, f a = C, v a = D
    rw [add_smul, smul_sub, smul_smul, mul_comm z B]
    abel

theorem claim_eq (S : OpenSet) (g : G1) (zeta mu : Fr) :
    S.claim g zeta mu = powSum zeta (S.queries.map Prod.fst) -
      horn zeta (S.queries.map fun q => (S.interpolant q.2).eval mu) • g := by
  unfold OpenSet.claim
  simp only
  rw [powSum_range zeta (fun q : G1 × (Fin S.size → Fr) => q.1 - (S.interpolant q.2).eval mu • g) (0, 0)
    S.queries]
  exact powSum_sub zeta g Prod.fst (fun q => (S.interpolant q.2).eval mu) S.queries

theorem horn_zip (z : Fr) (g : G1) (C : List G1) (v k : List Fr) (h1 : C.length = v.length)
    (h2 : v.length = k.length) :
    powSum z (List.zipWith (fun (a : Fr) (b : G1) => a • b) k (List.zipWith (fun c u => c - u • g) C v)) =
      powSum z (List.zipWith (fun (a : Fr) (b : G1) => a • b) k C) -
        horn z (List.zipWith (· * ·) v k) • g := by
  induction C generalizing v k with
  | nil =>
    cases v with
    | nil =>
      simp only [List.zipWith_nil_left, List.zipWith_nil_right, powSum, horn, List.foldr_nil]
      rw [zero_smul Fr g, sub_zero]
    | cons b v => cases h1
  | cons a C ih =>
    cases v with
    | nil => cases h1
    | cons b v =>
      cases k with
      | nil => cases h2
      | cons e k =>
        have := ih v k (Nat.succ.inj h1) (Nat.succ.inj h2)
        simp only [List.zipWith_cons_cons]
        change z • powSum z (List.zipWith (fun (a : Fr) (b : G1) => a • b) k
            (List.zipWith (fun c u => c - u • g) C v)) + e • (a - b • g) =
          (z • powSum z (List.zipWith (fun (a : Fr) (b : G1) => a • b) k C) + e • a) -
            (horn z (List.zipWith (· * ·) v k) * z + b * e) • g
        rw [this]
        generalize powSum z (List.zipWith (fun (a : Fr) (b : G1) => a • b) k C) = X
        generalize horn z (List.zipWith (· * ·) v k) = Y
        rw [add_smul, smul_sub, smul_sub, smul_smul, smul_smul, mul_comm z Y, mul_comm e b]
        abel

end Verif.Halo2
