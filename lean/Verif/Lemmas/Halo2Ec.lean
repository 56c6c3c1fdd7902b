import Verif.Lemmas.Halo2Word

/-! Helper lemmas about the elliptic-curve operations of the on-chain proof verifier. -/

namespace Verif.Halo2

/-- Two words are the encoding of a point. -/
def IsPoint (x y : Word) (P : G1) : Prop := (⟨x, y⟩ : SolG1) = encodeG1 P

/-- `s` is a successful state with the points `A` in the accumulator and `T` in the temporary, and the
memory of `m` from 0x380 on. -/
structure EcSt (s : St) (ok : Bool) (m : Mem) (A T : G1) : Prop where
  ok : s.ok = ok
  acc : IsPoint (s.mem 0x00) (s.mem 0x20) A
  tmp : IsPoint (s.mem 0x80) (s.mem 0xa0) T
  frame : ∀ a, 0x380 ≤ a → s.mem a = m a

variable {s : St} {ok : Bool} {m : Mem} {A T P : G1} {x y k : Word}

theorem fr_smul (k : Word) (P : G1) : k.toNat • P = fr k • P := nat_smul_G1 _ _

theorem EcSt.mulAcc (h : EcSt s ok m A T) : EcSt (s.ecMulAcc k) ok m (fr k • A) T := by
  have e : ecMul ⟨s.mem 0, s.mem 0x20⟩ k = some (encodeG1 (fr k • A)) := by
    rw [show (⟨s.mem 0, s.mem 0x20⟩ : SolG1) = encodeG1 A from h.acc, ecMul_encode, fr_smul]
  unfold St.ecMulAcc
  simp only [St.store, store_same]
  rw [store_ne (by decide), store_ne (by decide), e]
  refine ⟨h.ok, ?_, ?_, ?_⟩
  · simp only [St.result, IsPoint]
    rw [store_ne (by decide), store_same, store_same]
  · simp only [St.result]
    rw [store_ne (by decide), store_ne (by decide), store_ne (by decide), store_ne (by decide),
      store_ne (by decide), store_ne (by decide)]
    exact h.tmp
  · intro a ha
    simp only [St.result]
    rw [store_ne (by omega), store_ne (by omega), store_ne (by omega)]
    exact h.frame a ha

theorem EcSt.addAcc (h : EcSt s ok m A T) (hp : IsPoint x y P) : EcSt (s.ecAddAcc x y) ok m (A + P) T := by
  have e : ecAdd ⟨s.mem 0, s.mem 0x20⟩ ⟨x, y⟩ = some (encodeG1 (A + P)) := by
    rw [show (⟨s.mem 0, s.mem 0x20⟩ : SolG1) = encodeG1 A from h.acc,
      show (⟨x, y⟩ : SolG1) = encodeG1 P from hp, ecAdd_encode]
  unfold St.ecAddAcc
  simp only [St.store, store_same]
  rw [store_ne (by decide), store_ne (by decide), store_ne (by decide), store_ne (by decide),
    store_ne (by decide), store_same, e]
  refine ⟨h.ok, ?_, ?_, ?_⟩
  · simp only [St.result, IsPoint]
    rw [store_ne (by decide), store_same, store_same]
  · simp only [St.result]
    rw [store_ne (by decide), store_ne (by decide), store_ne (by decide), store_ne (by decide),
      store_ne (by decide), store_ne (by decide), store_ne (by decide), store_ne (by decide)]
    exact h.tmp
  · intro a ha
    simp only [St.result]
    rw [store_ne (by omega), store_ne (by omega), store_ne (by omega), store_ne (by omega)]
    exact h.frame a ha

theorem EcSt.mulTmp (h : EcSt s ok m A T) : EcSt (s.ecMulTmp k) ok m A (fr k • T) := by
  have e : ecMul ⟨s.mem 0x80, s.mem 0xa0⟩ k = some (encodeG1 (fr k • T)) := by
    rw [show (⟨s.mem 0x80, s.mem 0xa0⟩ : SolG1) = encodeG1 T from h.tmp, ecMul_encode, fr_smul]
  unfold St.ecMulTmp
  simp only [St.store, store_same]
  rw [store_ne (by decide), store_ne (by decide), e]
  refine ⟨h.ok, ?_, ?_, ?_⟩
  · simp only [St.result]
    rw [store_ne (by decide), store_ne (by decide), store_ne (by decide), store_ne (by decide),
      store_ne (by decide), store_ne (by decide)]
    exact h.acc
  · simp only [St.result, IsPoint]
    rw [store_ne (by decide), store_same, store_same]
  · intro a ha
    simp only [St.result]
    rw [store_ne (by omega), store_ne (by omega), store_ne (by omega)]
    exact h.frame a ha

theorem EcSt.addTmp (h : EcSt s ok m A T) (hp : IsPoint x y P) : EcSt (s.ecAddTmp x y) ok m A (T + P) := by
  have e : ecAdd ⟨s.mem 0x80, s.mem 0xa0⟩ ⟨x, y⟩ = some (encodeG1 (T + P)) := by
    rw [show (⟨s.mem 0x80, s.mem 0xa0⟩ : SolG1) = encodeG1 T from h.tmp,
      show (⟨x, y⟩ : SolG1) = encodeG1 P from hp, ecAdd_encode]
  unfold St.ecAddTmp
  simp only [St.store, store_same]
  rw [store_ne (by decide), store_ne (by decide), store_ne (by decide), store_ne (by decide),
    store_ne (by decide), store_same, e]
  refine ⟨h.ok, ?_, ?_, ?_⟩
  · simp only [St.result]
    rw [store_ne (by decide), store_ne (by decide), store_ne (by decide), store_ne (by decide),
      store_ne (by decide), store_ne (by decide), store_ne (by decide), store_ne (by decide)]
    exact h.acc
  · simp only [St.result, IsPoint]
    rw [store_ne (by decide), store_same, store_same]
  · intro a ha
    simp only [St.result]
    rw [store_ne (by omega), store_ne (by omega), store_ne (by omega), store_ne (by omega)]
    exact h.frame a ha

theorem EcSt.setTmp (h : EcSt s ok m A T) (hp : IsPoint x y P) : EcSt (s.setTmp x y) ok m A P := by
  unfold St.setTmp
  simp only [St.store]
  refine ⟨h.ok, ?_, ?_, ?_⟩
  · simp only
    rw [store_ne (by decide), store_ne (by decide), store_ne (by decide), store_ne (by decide)]
    exact h.acc
  · simp only
    rw [store_ne (by decide), store_same, store_same]
    exact hp
  · intro a ha
    simp only
    rw [store_ne (by omega), store_ne (by omega)]
    exact h.frame a ha

theorem EcSt.addTmpAcc (h : EcSt s ok m A T) : EcSt s.addTmpAcc ok m (A + T) T := h.addAcc h.tmp

/-- The value of a Horner step with `zeta`. -/
theorem EcSt.stepAcc {zeta : Fr} (h : EcSt s ok m A T) (hz : fr (m ZETA_MPTR) = zeta)
    (hp : IsPoint x y P) : EcSt (s.stepAcc x y) ok m (zeta • A + P) T := by
  have := (h.mulAcc (k := s.mem ZETA_MPTR)).addAcc hp
  rw [h.frame _ (by decide), hz] at this
  unfold St.stepAcc
  simp only
  rw [h.frame _ (by decide)]
  exact this

theorem EcSt.stepTmp {zeta : Fr} (h : EcSt s ok m A T) (hz : fr (m ZETA_MPTR) = zeta)
    (hp : IsPoint x y P) : EcSt (s.stepTmp x y) ok m A (zeta • T + P) := by
  have := (h.mulTmp (k := s.mem ZETA_MPTR)).addTmp hp
  rw [h.frame _ (by decide), hz] at this
  unfold St.stepTmp
  simp only
  rw [h.frame _ (by decide)]
  exact this

theorem EcSt.stepTmpMem {zeta : Fr} {a : ℕ} (h : EcSt s ok m A T) (hz : fr (m ZETA_MPTR) = zeta)
    (ha : 0x380 ≤ a) (hp : IsPoint (m a) (m (a + 0x20)) P) :
    EcSt (s.stepTmpMem a) ok m A (zeta • T + P) := by
  have h1 := h.mulTmp (k := s.mem ZETA_MPTR)
  have := h.stepTmp hz hp
  unfold St.stepTmp at this
  unfold St.stepTmpMem
  simp only at this ⊢
  rw [h1.frame _ ha, h1.frame _ (by omega)]
  exact this

/-- Horner's rule: the combination of a list with powers of `z`, the first element with power 0. -/
def powSum {M : Type} [AddCommGroup M] [Module Fr M] (z : Fr) (l : List M) : M :=
  l.foldr (fun t acc => z • acc + t) 0

theorem EcSt.loopMem {zeta : Fr} (hz : fr (m ZETA_MPTR) = zeta) (l : List ℕ) (p : ℕ → G1)
    (hl : ∀ a ∈ l, 0x380 ≤ a ∧ IsPoint (m a) (m (a + 0x20)) (p a)) :
    ∀ {s : St} {T : G1}, EcSt s ok m A T →
      EcSt (l.foldl St.stepTmpMem s) ok m A ((l.map p).foldl (fun acc P => zeta • acc + P) T) := by
  induction l with
  | nil => exact fun h => h
  | cons a l ih =>
    intro s T h
    have ha := hl a (List.mem_cons_self ..)
    exact ih (fun b hb => hl b (List.mem_cons_of_mem _ hb)) (h.stepTmpMem hz ha.1 ha.2)

theorem EcSt.loopTmp {zeta : Fr} (hz : fr (m ZETA_MPTR) = zeta) (c : ℕ → Word) (l : List ℕ)
    (p : ℕ → G1) (hl : ∀ a ∈ l, IsPoint (c a) (c (a + 0x20)) (p a)) :
    ∀ {s : St} {T : G1}, EcSt s ok m A T →
      EcSt (l.foldl (fun s mptr => s.stepTmp (c mptr) (c (mptr + 0x20))) s) ok m A
        ((l.map p).foldl (fun acc P => zeta • acc + P) T) := by
  induction l with
  | nil => exact fun h => h
  | cons a l ih =>
    intro s T h
    exact ih (fun b hb => hl b (List.mem_cons_of_mem _ hb))
      (h.stepTmp hz (hl a (List.mem_cons_self ..)))

theorem EcSt.close {a : ℕ} {nu : Word} {v : Fr} (h : EcSt s ok m A T) (ha : 0x380 ≤ a)
    (hv : fr nu * fr (m a) = v) : EcSt (s.close nu a) ok m (A + v • T) (v • T) := by
  have := (h.mulTmp (k := mulr nu (s.mem a))).addTmpAcc
  rw [h.frame _ ha, fr_mulr, hv] at this
  unfold St.close
  rw [h.frame _ ha]
  exact this

/-! ### States with a point in the accumulator only -/

/-- `s` is a successful state with the point `A` in the accumulator and the memory of `m` from 0x80 on. -/
structure AccSt (s : St) (ok : Bool) (m : Mem) (A : G1) : Prop where
  ok : s.ok = ok
  acc : IsPoint (s.mem 0x00) (s.mem 0x20) A
  frame : ∀ a, 0x80 ≤ a → s.mem a = m a

theorem AccSt.init (s : St) (hp : IsPoint x y P) :
    AccSt ((s.store 0x00 x).store 0x20 y) s.ok s.mem P := by
  refine ⟨rfl, ?_, ?_⟩
  · simp only [St.store]
    rw [store_ne (by decide), store_same, store_same]
    exact hp
  · intro a ha
    simp only [St.store]
    rw [store_ne (by omega), store_ne (by omega)]

theorem AccSt.mulAcc (h : AccSt s ok m A) : AccSt (s.ecMulAcc k) ok m (fr k • A) := by
  have e : ecMul ⟨s.mem 0, s.mem 0x20⟩ k = some (encodeG1 (fr k • A)) := by
    rw [show (⟨s.mem 0, s.mem 0x20⟩ : SolG1) = encodeG1 A from h.acc, ecMul_encode, fr_smul]
  unfold St.ecMulAcc
  simp only [St.store, store_same]
  rw [store_ne (by decide), store_ne (by decide), e]
  refine ⟨h.ok, ?_, ?_⟩
  · simp only [St.result, IsPoint]
    rw [store_ne (by decide), store_same, store_same]
  · intro a ha
    simp only [St.result]
    rw [store_ne (by omega), store_ne (by omega), store_ne (by omega)]
    exact h.frame a ha

theorem AccSt.addAcc (h : AccSt s ok m A) (hp : IsPoint x y P) : AccSt (s.ecAddAcc x y) ok m (A + P) := by
  have e : ecAdd ⟨s.mem 0, s.mem 0x20⟩ ⟨x, y⟩ = some (encodeG1 (A + P)) := by
    rw [show (⟨s.mem 0, s.mem 0x20⟩ : SolG1) = encodeG1 A from h.acc,
      show (⟨x, y⟩ : SolG1) = encodeG1 P from hp, ecAdd_encode]
  unfold St.ecAddAcc
  simp only [St.store, store_same]
  rw [store_ne (by decide), store_ne (by decide), store_ne (by decide), store_ne (by decide),
    store_ne (by decide), store_same, e]
  refine ⟨h.ok, ?_, ?_⟩
  · simp only [St.result, IsPoint]
    rw [store_ne (by decide), store_same, store_same]
  · intro a ha
    simp only [St.result]
    rw [store_ne (by omega), store_ne (by omega), store_ne (by omega), store_ne (by omega)]
    exact h.frame a ha

theorem AccSt.stepAcc {zeta : Fr} (h : AccSt s ok m A) (hz : fr (m ZETA_MPTR) = zeta)
    (hp : IsPoint x y P) : AccSt (s.stepAcc x y) ok m (zeta • A + P) := by
  have := (h.mulAcc (k := s.mem ZETA_MPTR)).addAcc hp
  rw [h.frame _ (by decide), hz] at this
  unfold St.stepAcc
  simp only
  rw [h.frame _ (by decide)]
  exact this

theorem AccSt.setTmp (h : AccSt s ok m A) (hp : IsPoint x y P) : EcSt (s.setTmp x y) ok m A P := by
  unfold St.setTmp
  simp only [St.store]
  refine ⟨h.ok, ?_, ?_, ?_⟩
  · simp only
    rw [store_ne (by decide), store_ne (by decide), store_ne (by decide), store_ne (by decide)]
    exact h.acc
  · simp only
    rw [store_ne (by decide), store_same, store_same]
    exact hp
  · intro a ha
    simp only
    rw [store_ne (by omega), store_ne (by omega)]
    exact h.frame a (by omega)

/-- The commitment of the quotient. -/
theorem quotientComm_spec (c : ℕ → Word) (s : St) (h : Fin 5 → G1)
    (hp : ∀ i : Fin 5, IsPoint (c (0x684 + 0x40 * i)) (c (0x684 + 0x40 * i + 0x20)) (h i)) :
    (quotientComm c s).ok = s.ok ∧
    IsPoint ((quotientComm c s).mem QUOTIENT_X_MPTR) ((quotientComm c s).mem QUOTIENT_Y_MPTR)
      (∑ i : Fin 5, fr (s.mem X_N_MPTR) ^ (i : ℕ) • h i) ∧
    ∀ a, 0x80 ≤ a → a ≠ QUOTIENT_X_MPTR → a ≠ QUOTIENT_Y_MPTR → (quotientComm c s).mem a = s.mem a := by
  have hx : ((s.store 0x00 (c LAST_QUOTIENT_X_CPTR)).store 0x20 (c (LAST_QUOTIENT_X_CPTR + 0x20))).mem
      X_N_MPTR = s.mem X_N_MPTR := by
    simp only [St.store]
    rw [store_ne (by decide), store_ne (by decide)]
  have p4 : IsPoint (c LAST_QUOTIENT_X_CPTR) (c (LAST_QUOTIENT_X_CPTR + 0x20)) (h 4) := hp 4
  have p3 : IsPoint (c 0x744) (c 0x764) (h 3) := hp 3
  have p2 : IsPoint (c 0x704) (c 0x724) (h 2) := hp 2
  have p1 : IsPoint (c 0x6c4) (c 0x6e4) (h 1) := hp 1
  have p0 : IsPoint (c 0x684) (c 0x6a4) (h 0) := hp 0
  have h0 := AccSt.init s p4
  have h1 := (h0.mulAcc (k := s.mem X_N_MPTR)).addAcc p3
  have h2 := (h1.mulAcc (k := s.mem X_N_MPTR)).addAcc p2
  have h3 := (h2.mulAcc (k := s.mem X_N_MPTR)).addAcc p1
  have h4 := (h3.mulAcc (k := s.mem X_N_MPTR)).addAcc p0
  obtain ⟨s4, hs4⟩ : ∃ s4, s4 = (((((((((s.store 0x00 (c LAST_QUOTIENT_X_CPTR)).store 0x20
    (c (LAST_QUOTIENT_X_CPTR + 0x20))).ecMulAcc (s.mem X_N_MPTR)).ecAddAcc (c 0x744) (c 0x764)).ecMulAcc
    (s.mem X_N_MPTR)).ecAddAcc (c 0x704) (c 0x724)).ecMulAcc (s.mem X_N_MPTR)).ecAddAcc (c 0x6c4)
    (c 0x6e4)).ecMulAcc (s.mem X_N_MPTR)).ecAddAcc (c 0x684) (c 0x6a4) := ⟨_, rfl⟩
  have e : quotientComm c s = (s4.store QUOTIENT_X_MPTR (s4.mem 0)).store QUOTIENT_Y_MPTR
      ((s4.store QUOTIENT_X_MPTR (s4.mem 0)).mem 0x20) := by
    rw [hs4]
    unfold quotientComm
    simp only [hx, show downFrom (LAST_QUOTIENT_X_CPTR - 0x40) 0x40 4 = [0x744, 0x704, 0x6c4, 0x684] by
      decide, List.foldl_cons, List.foldl_nil]
  have h4' : AccSt s4 s.ok s.mem (∑ i : Fin 5, fr (s.mem X_N_MPTR) ^ (i : ℕ) • h i) := by
    rw [hs4]
    have : (∑ i : Fin 5, fr (s.mem X_N_MPTR) ^ (i : ℕ) • h i) =
        fr (s.mem X_N_MPTR) • (fr (s.mem X_N_MPTR) • (fr (s.mem X_N_MPTR) • (fr (s.mem X_N_MPTR) • h 4 +
          h 3) + h 2) + h 1) + h 0 := by
      generalize fr (s.mem X_N_MPTR) = x
      rw [Fin.sum_univ_five]
      simp only [smul_add, smul_smul]
      norm_num
      rw [show x * (x * (x * x)) = x ^ 4 by ring, show x * (x * x) = x ^ 3 by ring,
        show x * x = x ^ 2 by ring]
      abel
    rw [this]
    exact h4
  rw [e]
  refine ⟨h4'.ok, ?_, ?_⟩
  · simp only [St.store]
    rw [store_same, store_ne (by decide), store_same, store_ne (by decide)]
    exact h4'.acc
  · intro a h1 h2 h3
    simp only [St.store]
    rw [store_ne h3, store_ne h2]
    exact h4'.frame a h1


end Verif.Halo2
