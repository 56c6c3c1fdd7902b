import Mathlib.Data.List.GetD
import Verif.Lemmas.Halo2Read
import Verif.Lemmas.Halo2Equation

/-! Helper lemmas about the serialisation of proofs and keys read by the on-chain proof verifier. -/

namespace Verif.Halo2
attribute [local irreducible] fr
open Spec.Halo2 (Evals Proof Key g2Words)

/-! ### Bytes and words -/

theorem length_wordBytes' (l : List Word) : (wordBytes l).length = 32 * l.length := by
  induction l with
  | nil => rfl
  | cons a l ih =>
    change (Word.bytes a ++ wordBytes l).length = _
    rw [List.length_append, ih, length_wordBytes, List.length_cons]
    ring

theorem wordBytes_append (a b : List Word) : wordBytes (a ++ b) = wordBytes a ++ wordBytes b :=
  List.flatMap_append ..

theorem drop_wordBytes (l : List Word) (i : ℕ) : (wordBytes l).drop (32 * i) = wordBytes (l.drop i) := by
  induction l generalizing i with
  | nil => simp [wordBytes]
  | cons a l ih =>
    cases i with
    | zero => rfl
    | succ i =>
      change (Word.bytes a ++ wordBytes l).drop (32 * (i + 1)) = wordBytes (l.drop i)
      rw [List.drop_append, length_wordBytes, List.drop_eq_nil_of_le (by rw [length_wordBytes]; omega),
        List.nil_append, show 32 * (i + 1) - 32 = 32 * i by omega, ih]

/-- Reading a word of call data made of a selector and words. -/
theorem calldataload_words (sel : List Byte) (hs : sel.length = 4) (l : List Word) (i : ℕ)
    (hi : i < l.length) : calldataload (sel ++ wordBytes l) (4 + 32 * i) = l.getD i 0 := by
  unfold calldataload
  rw [List.drop_append, hs, List.drop_eq_nil_of_le (by omega), List.nil_append,
    show 4 + 32 * i - 4 = 32 * i by omega, drop_wordBytes, List.drop_eq_getElem_cons hi]
  change BitVec.ofNat 256 (ofBE (((Word.bytes l[i] ++ wordBytes (l.drop (i + 1))).take 32).rightpad 32 0)) = _
  rw [List.take_append_of_le_length (by rw [length_wordBytes]), List.take_of_length_le
    (by rw [length_wordBytes]), List.rightpad, length_wordBytes, Nat.sub_self, List.replicate_zero,
    List.append_nil, ofBE_wordBytes, List.getD_eq_getElem _ _ hi, BitVec.ofNat_toNat, BitVec.setWidth_eq]

/-- Bytes whose number is a multiple of 32 are words. -/
theorem words_of_bytes (n : ℕ) (l : List Byte) (h : l.length = 32 * n) :
    ∃ w : List Word, w.length = n ∧ wordBytes w = l := by
  induction n generalizing l with
  | zero =>
    have : l = [] := List.eq_nil_of_length_eq_zero (by omega)
    exact ⟨[], rfl, this.symm⟩
  | succ n ih =>
    obtain ⟨w, hw, he⟩ := ih (l.drop 32) (by rw [List.length_drop]; omega)
    have ht : (l.take 32).length = 32 := by rw [List.length_take]; omega
    have hl : ofBE (l.take 32) < 256 ^ 32 := by
      have := ofLE_lt (l.take 32).reverse
      rwa [List.length_reverse, ht] at this
    refine ⟨BitVec.ofNat 256 (ofBE (l.take 32)) :: w, by rw [List.length_cons, hw], ?_⟩
    change Word.bytes _ ++ wordBytes w = l
    rw [he]
    have : Word.bytes (BitVec.ofNat 256 (ofBE (l.take 32))) = l.take 32 := by
      unfold Word.bytes beBytes
      have h2 : (BitVec.ofNat 256 (ofBE (l.take 32))).toNat = ofLE (l.take 32).reverse := by
        rw [BitVec.toNat_ofNat, Nat.mod_eq_of_lt (lt_of_lt_of_le hl (by decide +kernel))]
        rfl
      have h3 := leBytes_ofLE (l.take 32).reverse
      rw [List.length_reverse, ht] at h3
      rw [h2, h3, List.reverse_reverse]
    rw [this, List.take_append_drop]

theorem wordBytes_inj' {a b : List Word} (h : wordBytes a = wordBytes b) : a = b := by
  have hl : a.length = b.length := by
    have := congrArg List.length h
    rw [length_wordBytes', length_wordBytes'] at this
    omega
  apply List.ext_getElem hl
  intro i h1 h2
  have e := congrArg (fun l => calldataload (([0, 0, 0, 0] : List Byte) ++ l) (4 + 32 * i)) h
  rwa [calldataload_words _ rfl _ _ h1, calldataload_words _ rfl _ _ h2, List.getD_eq_getElem _ _ h1,
    List.getD_eq_getElem _ _ h2] at e

theorem beBytes_word (n : ℕ) : beBytes 32 n = Word.bytes (BitVec.ofNat 256 n) := by
  unfold Word.bytes beBytes
  rw [BitVec.toNat_ofNat]
  congr 1
  have := leBytes_ofLE (leBytes 32 n)
  rw [ofLE_leBytes, length_leBytes] at this
  rw [← this]
  congr 1

/-- The call data of a proof made of words. -/
theorem callData_words (sel : List Byte) (addr : Word) (pw ins : List Word) :
    callData sel addr (wordBytes pw) ins = sel ++ wordBytes
      ([addr, 0x60, BitVec.ofNat 256 (0x80 + 32 * pw.length), BitVec.ofNat 256 (32 * pw.length)] ++ pw ++
        [BitVec.ofNat 256 ins.length] ++ ins) := by
  unfold callData
  rw [length_wordBytes', Nat.mul_mod_right]
  simp only [Nat.sub_zero, Nat.mod_self, List.replicate_zero, List.append_nil, length_wordBytes',
    beBytes_word]
  simp only [wordBytes, List.flatMap_append, List.flatMap_cons, List.flatMap_nil, List.append_nil,
    List.append_assoc]
  rfl

/-! ### What the verifier reads -/

/-- The call data read by `c` holds the words of a proof and of instances. -/
structure Holds (c : ℕ → Word) (pw ins : List Word) : Prop where
  len : c PROOF_LEN_CPTR = 0x1180
  count : c NUM_INSTANCE_CPTR = BitVec.ofNat 256 ins.length
  proof : cdWords c PROOF_CPTR 140 = pw
  ins : cdWords c INSTANCE_CPTR ins.length = ins

theorem holds_callData (sel : List Byte) (hs : sel.length = 4) (addr : Word) (pw ins : List Word)
    (hp : pw.length = 140) :
    Holds (calldataload (callData sel addr (wordBytes pw) ins)) pw ins := by
  rw [callData_words]
  generalize hA : ([addr, 0x60, BitVec.ofNat 256 (0x80 + 32 * pw.length),
    BitVec.ofNat 256 (32 * pw.length)] : List Word) = A
  have hAl : A.length = 4 := by rw [← hA]; rfl
  have hlen : (A ++ pw ++ [BitVec.ofNat 256 ins.length] ++ ins).length = 145 + ins.length := by
    simp only [List.length_append, List.length_cons, List.length_nil, hAl, hp]
  have rd (i : ℕ) (hi : i < 145 + ins.length) := calldataload_words sel hs
    (A ++ pw ++ [BitVec.ofNat 256 ins.length] ++ ins) i (by rw [hlen]; exact hi)
  generalize calldataload (sel ++ wordBytes (A ++ pw ++ [BitVec.ofNat 256 ins.length] ++ ins)) = c at *
  refine ⟨?_, ?_, ?_, ?_⟩
  · rw [show PROOF_LEN_CPTR = 4 + 32 * 3 from rfl, rd 3 (by omega), List.append_assoc, List.append_assoc,
      List.getD_append _ _ _ _ (by omega), ← hA, hp]
    rfl
  · rw [show NUM_INSTANCE_CPTR = 4 + 32 * 144 from rfl, rd 144 (by omega),
      List.getD_append _ _ _ _
        (by simp only [List.length_append, hAl, hp, List.length_cons, List.length_nil]; omega),
      List.getD_append_right _ _ _ _ (by simp only [List.length_append, hAl, hp]; omega)]
    simp only [List.length_append, hAl, hp]
    rfl
  · apply List.ext_getElem
    · simp only [cdWords, List.length_map, List.length_range, hp]
    intro i h1 h2
    simp only [cdWords, List.getElem_map, List.getElem_range]
    rw [show PROOF_CPTR + 0x20 * i = 4 + 32 * (4 + i) by simp only [PROOF_CPTR]; omega,
      rd _ (by omega), List.append_assoc, List.getD_append _ _ _ _ (by rw [List.length_append]; omega),
      List.getD_append_right _ _ _ _ (by omega), hAl, show 4 + i - 4 = i by omega,
      List.getD_eq_getElem _ _ h2]
  · apply List.ext_getElem
    · simp only [cdWords, List.length_map, List.length_range]
    intro i h1 h2
    simp only [cdWords, List.getElem_map, List.getElem_range]
    rw [show INSTANCE_CPTR + 0x20 * i = 4 + 32 * (145 + i) by simp only [INSTANCE_CPTR]; omega,
      rd _ (by omega), List.getD_append_right _ _ _ _
        (by simp only [List.length_append, hAl, hp, List.length_cons, List.length_nil]; omega)]
    simp only [List.length_append, hAl, hp, List.length_cons, List.length_nil]
    rw [show 145 + i - (4 + 140 + (0 + 1)) = i by omega, List.getD_eq_getElem _ _ h2]

/-! ### Points -/

/-- Residue of a word modulo `q`. -/
def fq (w : Word) : Fq := ((w.toNat : ℕ) : Fq)

theorem fq_mulmod (a b : Word) : fq (mulmod a b qWord) = fq a * fq b := by
  unfold fq
  rw [mulmod_toNat q_pos, toNat_qWord, ZMod.natCast_mod, Nat.cast_mul]

theorem fq_addmod (a b : Word) : fq (addmod a b qWord) = fq a + fq b := by
  unfold fq
  rw [addmod_toNat q_pos, toNat_qWord, ZMod.natCast_mod, Nat.cast_add]

theorem fq_inj {a b : Word} (ha : a.toNat < q) (hb : b.toNat < q) (h : fq a = fq b) : a = b := by
  rw [← wordOf_of_lt_q ha, ← wordOf_of_lt_q hb]
  exact congrArg wordOf h

theorem fq_three : fq 3 = 3 := by decide +kernel

theorem pointOk_curve {x y : Word} : PointOk x y ↔
    x.toNat < q ∧ y.toNat < q ∧ fq y ^ 2 = fq x ^ 3 + 3 := by
  have key : mulmod y y qWord = addmod (mulmod x (mulmod x x qWord) qWord) 3 qWord ↔
      fq y ^ 2 = fq x ^ 3 + 3 := by
    have e1 : fq (mulmod y y qWord) = fq y ^ 2 := by rw [fq_mulmod, sq]
    have e2 : fq (addmod (mulmod x (mulmod x x qWord) qWord) 3 qWord) = fq x ^ 3 + 3 := by
      rw [fq_addmod, fq_mulmod, fq_mulmod, fq_three]
      generalize fq x = a
      ring
    rw [← e1, ← e2]
    constructor
    · exact fun h => congrArg fq h
    · refine fun h => fq_inj ?_ ?_ h
      · rw [mulmod_toNat q_pos, toNat_qWord]
        exact Nat.mod_lt _ (by decide +kernel)
      · rw [addmod_toNat q_pos, toNat_qWord]
        exact Nat.mod_lt _ (by decide +kernel)
  unfold PointOk
  rw [key]

theorem pointOk_iff {x y : Word} : PointOk x y ↔ ∃ P : G1, P ≠ 0 ∧ IsPoint x y P := by
  rw [pointOk_curve]
  constructor
  · rintro ⟨hx, hy, he⟩
    refine ⟨.some (fq x) (fq y) ((bn_nonsingular_iff _ _).2 he), ?_, ?_⟩
    · intro h
      cases h
    · refine decodeG1_eq_some.1 ?_
      unfold decodeG1
      simp only
      rw [if_pos ⟨hx, hy⟩]
      unfold bnFromXY fromXY
      exact dif_pos he
  · rintro ⟨P, hP, h⟩
    unfold IsPoint encodeG1 at h
    simp only [SolG1.mk.injEq] at h
    obtain ⟨rfl, rfl⟩ := h
    refine ⟨wordOf_lt_q _, wordOf_lt_q _, ?_⟩
    unfold fq
    rw [cast_wordOf_q, cast_wordOf_q]
    match P, hP with
    | .zero, h => exact absurd rfl h
    | .some a b h, _ => exact (bn_nonsingular_iff _ _).1 h

/-! ### Proofs -/

theorem cdWords_eq_iff (c : ℕ → Word) (a n : ℕ) (l : List Word) (hl : l.length = n) :
    cdWords c a n = l ↔ ∀ i < n, c (a + 0x20 * i) = l.getD i 0 := by
  constructor
  · rintro rfl i hi
    rw [List.getD_eq_getElem _ _ (by simp only [cdWords, List.length_map, List.length_range]; exact hi)]
    simp only [cdWords, List.getElem_map, List.getElem_range]
  · intro h
    apply List.ext_getElem
    · simp only [cdWords, List.length_map, List.length_range, hl]
    intro i h1 h2
    simp only [cdWords, List.getElem_map, List.getElem_range]
    rw [h i (by omega), List.getD_eq_getElem _ _ h2]

theorem getD_pairs {α : Type} (f g : α → Word) (l : List α) (i : ℕ) (d : α) (hi : i < l.length) :
    (l.flatMap fun a => [f a, g a]).getD (2 * i) 0 = f (l.getD i d) ∧
    (l.flatMap fun a => [f a, g a]).getD (2 * i + 1) 0 = g (l.getD i d) := by
  induction l generalizing i with
  | nil => exact absurd hi (Nat.not_lt_zero _)
  | cons a l ih =>
    cases i with
    | zero => exact ⟨rfl, rfl⟩
    | succ i =>
      have := ih i (by rw [List.length_cons] at hi; omega)
      rw [List.flatMap_cons]
      change (f a :: g a :: _).getD (2 * i + 1 + 1) 0 = _ ∧ (f a :: g a :: _).getD (2 * i + 1 + 1 + 1) 0 = _
      simp only [List.getD_cons_succ]
      exact this

theorem length_pairs {α : Type} (f g : α → Word) (l : List α) :
    (l.flatMap fun a => [f a, g a]).length = 2 * l.length := by
  induction l with
  | nil => rfl
  | cons a l ih =>
    rw [List.flatMap_cons, List.length_append, ih, List.length_cons]
    simp only [List.length_cons, List.length_nil]
    ring

theorem isPoint_iff {x y : Word} {P : G1} : IsPoint x y P ↔ x = (encodeG1 P).x ∧ y = (encodeG1 P).y := by
  unfold IsPoint
  rw [← SolG1.mk.injEq]

theorem length_points (π : Proof) : π.points.length = 29 := rfl
theorem length_evals (e : Evals) : e.list.length = 78 := rfl

theorem length_words (π : Proof) : π.words.length = 140 := by
  unfold Proof.words Spec.Halo2.pointWords
  rw [List.length_append, List.length_append, List.length_append, length_pairs, List.length_map,
    length_points, length_evals]
  rfl

theorem proof_words_iff (c : ℕ → Word) (π : Proof) : cdWords c PROOF_CPTR 140 = π.words ↔
    ProofPts c π ∧ ∀ i < 78, c (0x7c4 + 0x20 * i) = wordOf (π.evals.list.getD i 0) := by
  rw [cdWords_eq_iff _ _ _ _ (length_words π)]
  generalize hA : π.points.flatMap Spec.Halo2.pointWords = A
  generalize hB : π.evals.list.map wordOf = B
  have hAl : A.length = 58 := by
    rw [← hA]; unfold Spec.Halo2.pointWords; rw [length_pairs, length_points]
  have hBl : B.length = 78 := by rw [← hB, List.length_map, length_evals]
  have hw : π.words = A ++ (B ++ [(encodeG1 π.w).x, (encodeG1 π.w).y, (encodeG1 π.w').x,
      (encodeG1 π.w').y]) := by
    unfold Proof.words
    rw [hA, hB, List.append_assoc, List.append_assoc]
    rfl
  have gA (i : ℕ) (hi : i < 58) : π.words.getD i 0 = A.getD i 0 := by
    rw [hw, List.getD_append _ _ _ _ (by omega)]
  have gB (i : ℕ) (hi : i < 78) : π.words.getD (58 + i) 0 = wordOf (π.evals.list.getD i 0) := by
    rw [hw, List.getD_append_right _ _ _ _ (by omega), List.getD_append _ _ _ _ (by omega), hAl,
      show 58 + i - 58 = i by omega, List.getD_eq_getElem _ _ (by omega),
      List.getD_eq_getElem _ _ (by rw [length_evals]; exact hi)]
    simp only [← hB, List.getElem_map]
  have gW (i : ℕ) : π.words.getD (136 + i) 0 = [(encodeG1 π.w).x, (encodeG1 π.w).y, (encodeG1 π.w').x,
      (encodeG1 π.w').y].getD i 0 := by
    rw [hw, List.getD_append_right _ _ _ _ (by omega), List.getD_append_right _ _ _ _ (by omega), hAl, hBl,
      show 136 + i - 58 - 78 = i by omega]
  have gP (i : ℕ) (hi : i < 29) : A.getD (2 * i) 0 = (encodeG1 (π.points.getD i 0)).x ∧
      A.getD (2 * i + 1) 0 = (encodeG1 (π.points.getD i 0)).y := by
    rw [← hA]
    exact getD_pairs (fun P => (encodeG1 P).x) (fun P => (encodeG1 P).y) π.points i 0
      (by rw [length_points]; exact hi)
  constructor
  · intro h
    refine ⟨⟨fun i hi => ?_, ?_, ?_⟩, fun i hi => ?_⟩
    · rw [isPoint_iff]
      have h1 := h (2 * i) (by omega)
      have h2 := h (2 * i + 1) (by omega)
      rw [gA _ (by omega), (gP i hi).1] at h1
      rw [gA _ (by omega), (gP i hi).2] at h2
      simp only [PROOF_CPTR] at h1 h2
      rw [show 0x84 + 0x40 * i = 0x84 + 0x20 * (2 * i) by omega,
        show 0x84 + 0x20 * (2 * i) + 0x20 = 0x84 + 0x20 * (2 * i + 1) by omega]
      exact ⟨h1, h2⟩
    · rw [isPoint_iff]
      exact ⟨(h 136 (by norm_num)).trans (gW 0), (h 137 (by norm_num)).trans (gW 1)⟩
    · rw [isPoint_iff]
      exact ⟨(h 138 (by norm_num)).trans (gW 2), (h 139 (by norm_num)).trans (gW 3)⟩
    · rw [← gB i hi, ← h (58 + i) (by omega)]
      congr 1
      simp only [PROOF_CPTR]
      omega
  · rintro ⟨⟨hp, h1, h2⟩, he⟩ i hi
    rw [isPoint_iff] at h1 h2
    by_cases c1 : i < 58
    · have hp' := isPoint_iff.1 (hp (i / 2) (by omega))
      have hg := gP (i / 2) (by omega)
      rw [gA i c1]
      rcases Nat.mod_two_eq_zero_or_one i with hm | hm
      · rw [show 2 * (i / 2) = i by omega] at hg
        rw [hg.1, ← hp'.1]
        congr 1
        simp only [PROOF_CPTR]
        omega
      · rw [show 2 * (i / 2) + 1 = i by omega] at hg
        rw [hg.2, ← hp'.2]
        congr 1
        simp only [PROOF_CPTR]
        omega
    by_cases c2 : i < 136
    · have := gB (i - 58) (by omega)
      rw [show 58 + (i - 58) = i by omega] at this
      rw [this, ← he (i - 58) (by omega)]
      congr 1
      simp only [PROOF_CPTR]
      omega
    have c3 : i = 136 ∨ i = 137 ∨ i = 138 ∨ i = 139 := by omega
    rcases c3 with rfl | rfl | rfl | rfl
    · exact h1.1.trans (gW 0).symm
    · exact h1.2.trans (gW 1).symm
    · exact h2.1.trans (gW 2).symm
    · exact h2.2.trans (gW 3).symm

theorem evalsOf_list (c : ℕ → Word) :
    (evalsOf c).list = (List.range 78).map fun i => fr (c (0x7c4 + 0x20 * i)) := by
  rfl

theorem evals_list_inj {e e' : Evals} (h : e.list = e'.list) : e = e' := by
  unfold Evals.list at h
  simp only [List.cons.injEq, and_true] at h
  obtain ⟨a1, a2, a3, a4, a5, a6, a7, a8, a9, a10, a11, a12, f0, f1, f2, f3, f4, f7, f5, f6, f8, f9, f10,
    f11, f15, f16, f17, f12, f13, f14, f18, f19, f20, f21, f22, rnd, s0, s1, s2, s3, s4, s5, s6, s7, s8,
    z0, z0n, z0l, z1, z1n, z1l, z2, z2n, l0, l1, l2, l3, l4, m0, m1, m2, m3, m4, n0, n1, n2, n3, n4,
    o0, o1, o2, o3, o4, p0, p1, p2, p3, p4⟩ := h
  have h5 (u v : Fin 5 → Fr) (h0 : u 0 = v 0) (h1 : u 1 = v 1) (h2 : u 2 = v 2) (h3 : u 3 = v 3)
      (h4 : u 4 = v 4) : u = v := by
    funext i; fin_cases i <;> assumption
  have h3 (u v : Fin 3 → Fr) (h0 : u 0 = v 0) (h1 : u 1 = v 1) (h2 : u 2 = v 2) : u = v := by
    funext i; fin_cases i <;> assumption
  have h2 (u v : Fin 2 → Fr) (h0 : u 0 = v 0) (h1 : u 1 = v 1) : u = v := by
    funext i; fin_cases i <;> assumption
  have e1 := h5 e.a e'.a a1 a2 a3 a4 a5
  have e2 := h3 e.aNext e'.aNext a7 a8 a9
  have e3 := h3 e.aPrev e'.aPrev a11 a12 a10
  have e4 : e.f = e'.f := by funext i; fin_cases i <;> assumption
  have e5 : e.s = e'.s := by funext i; fin_cases i <;> assumption
  have e6 := h3 e.z e'.z z0 z1 z2
  have e7 := h3 e.zNext e'.zNext z0n z1n z2n
  have e8 := h2 e.zLast e'.zLast z0l z1l
  have e9 := h5 e.lz e'.lz l0 m0 n0 o0 p0
  have e10 := h5 e.lzNext e'.lzNext l1 m1 n1 o1 p1
  have e11 := h5 e.li e'.li l2 m2 n2 o2 p2
  have e12 := h5 e.liPrev e'.liPrev l3 m3 n3 o3 p3
  have e13 := h5 e.lt e'.lt l4 m4 n4 o4 p4
  cases e
  cases e'
  simp only at *
  subst_vars
  rfl

theorem isEval_iff (a : ℕ) : isEval a = true ↔ ∃ i < 78, a = 0x7c4 + 0x20 * i := by
  unfold isEval
  simp only [Bool.and_eq_true, decide_eq_true_eq]
  constructor
  · rintro ⟨⟨h1, h2⟩, h3⟩
    exact ⟨(a - 0x7c4) / 0x20, by omega, by omega⟩
  · rintro ⟨i, hi, rfl⟩
    omega

theorem wordOf_fr {w : Word} (h : w.toNat < r) : wordOf (fr w) = w := by
  unfold fr
  exact wordOf_of_lt_r h

/-- The evaluations of a proof in the call data. -/
theorem evals_of_words {c : ℕ → Word} {e : Evals}
    (h : ∀ i < 78, c (0x7c4 + 0x20 * i) = wordOf (e.list.getD i 0)) : evalsOf c = e ∧ EvalsLt c := by
  constructor
  · apply evals_list_inj
    rw [evalsOf_list]
    apply List.ext_getElem
    · rw [length_evals, List.length_map, List.length_range]
    intro i h1 h2
    rw [List.getElem_map, List.getElem_range, h i (by rw [length_evals] at h2; exact h2), fr_wordOf,
      List.getD_eq_getElem _ _ h2]
  · intro a ha
    obtain ⟨i, hi, rfl⟩ := (isEval_iff a).1 ha
    rw [h i hi]
    exact wordOf_lt_r _

theorem words_of_evals {c : ℕ → Word} (h : EvalsLt c) :
    ∀ i < 78, c (0x7c4 + 0x20 * i) = wordOf ((evalsOf c).list.getD i 0) := by
  intro i hi
  rw [evalsOf_list, List.getD_eq_getElem _ _ (by rw [List.length_map, List.length_range]; exact hi),
    List.getElem_map, List.getElem_range, wordOf_fr (h _ ((isEval_iff _).2 ⟨i, hi, rfl⟩))]

/-- A proof made of given points and evaluations. -/
def mkProof (p : ℕ → G1) (e : Evals) (w w' : G1) : Proof where
  advice i := p i
  lookupInput i := p (5 + 2 * i)
  lookupTable i := p (6 + 2 * i)
  permProduct i := p (15 + i)
  lookupProduct i := p (18 + i)
  random := p 23
  quotient i := p (24 + i)
  evals := e
  w := w
  w' := w'

theorem mkProof_points (p : ℕ → G1) (e : Evals) (w w' : G1) :
    (mkProof p e w w').points = (List.range 29).map p := by
  rfl

theorem formatOk_iff (num : Word) (c : ℕ → Word) : FormatOk num c ↔
    c PROOF_LEN_CPTR = 0x1180 ∧ c NUM_INSTANCE_CPTR = num ∧
    (∀ i < num.toNat, (c (INSTANCE_CPTR + 0x20 * i)).toNat < r) ∧
    ∃ π : Proof, π.Finite ∧ cdWords c PROOF_CPTR 140 = π.words := by
  constructor
  · rintro ⟨h1, h2, h3, h4, h5, h6, h7⟩
    refine ⟨h1, h2, h3, ?_⟩
    have hp : ∀ i, ∃ P : G1, i < 29 → P ≠ 0 ∧
        IsPoint (c (PROOF_CPTR + 0x40 * i)) (c (PROOF_CPTR + 0x40 * i + 0x20)) P := by
      intro i
      by_cases hi : i < 29
      · obtain ⟨P, hP⟩ := pointOk_iff.1 (h4 i hi)
        exact ⟨P, fun _ => hP⟩
      · exact ⟨0, fun h => absurd h hi⟩
    choose p hp using hp
    obtain ⟨w, hw0, hw⟩ := pointOk_iff.1 h6
    obtain ⟨w', hw0', hw'⟩ := pointOk_iff.1 h7
    have hlt : EvalsLt c := by
      intro a ha
      obtain ⟨i, hi, rfl⟩ := (isEval_iff a).1 ha
      exact h5 i hi
    refine ⟨mkProof p (evalsOf c) w w', ⟨?_, hw0, hw0'⟩, ?_⟩
    · intro P hP
      rw [mkProof_points, List.mem_map] at hP
      obtain ⟨i, hi, rfl⟩ := hP
      exact (hp i (List.mem_range.1 hi)).1
    · refine (proof_words_iff _ _).2 ⟨⟨fun i hi => ?_, hw, hw'⟩, words_of_evals hlt⟩
      rw [mkProof_points, List.getD_eq_getElem _ _ (by rw [List.length_map, List.length_range]; exact hi),
        List.getElem_map, List.getElem_range]
      exact (hp i hi).2
  · rintro ⟨h1, h2, h3, π, ⟨hf, hw0, hw0'⟩, hw⟩
    obtain ⟨⟨p1, p2, p3⟩, he⟩ := (proof_words_iff _ _).1 hw
    have hlt := (evals_of_words he).2
    refine ⟨h1, h2, h3, fun i hi => pointOk_iff.2 ⟨_, ?_, p1 i hi⟩, fun i hi => ?_,
      pointOk_iff.2 ⟨_, hw0, p2⟩, pointOk_iff.2 ⟨_, hw0', p3⟩⟩
    · refine hf _ ?_
      rw [List.getD_eq_getElem _ _ (by rw [length_points]; exact hi)]
      exact List.getElem_mem _
    · exact hlt _ ((isEval_iff _).2 ⟨i, hi, rfl⟩)

theorem words_inj {π π' : Proof} (h : π.words = π'.words) : π = π' := by
  obtain ⟨c, hc⟩ : ∃ c : ℕ → Word, cdWords c PROOF_CPTR 140 = π.words :=
    ⟨fun a => π.words.getD ((a - PROOF_CPTR) / 0x20) 0, (cdWords_eq_iff _ _ _ _ (length_words π)).2
      fun i _ => by
        congr 1
        simp only [PROOF_CPTR]
        omega⟩
  obtain ⟨⟨p1, p2, p3⟩, he⟩ := (proof_words_iff _ _).1 hc
  obtain ⟨⟨p1', p2', p3'⟩, he'⟩ := (proof_words_iff _ _).1 (hc.trans h)
  have hpt : ∀ i < 29, π.points.getD i 0 = π'.points.getD i 0 := fun i hi =>
    encodeG1_inj ((p1 i hi).symm.trans (p1' i hi))
  have hw : π.w = π'.w := encodeG1_inj (p2.symm.trans p2')
  have hw' : π.w' = π'.w' := encodeG1_inj (p3.symm.trans p3')
  have hev : π.evals = π'.evals := (evals_of_words he).1.symm.trans (evals_of_words he').1
  cases π
  cases π'
  simp only [Proof.mk.injEq]
  refine ⟨?_, ?_, ?_, ?_, ?_, ?_, ?_, hev, hw, hw'⟩
  · funext i; fin_cases i
    exacts [hpt 0 (by decide), hpt 1 (by decide), hpt 2 (by decide), hpt 3 (by decide), hpt 4 (by decide)]
  · funext i; fin_cases i
    exacts [hpt 5 (by decide), hpt 7 (by decide), hpt 9 (by decide), hpt 11 (by decide), hpt 13 (by decide)]
  · funext i; fin_cases i
    exacts [hpt 6 (by decide), hpt 8 (by decide), hpt 10 (by decide), hpt 12 (by decide), hpt 14 (by decide)]
  · funext i; fin_cases i
    exacts [hpt 15 (by decide), hpt 16 (by decide), hpt 17 (by decide)]
  · funext i; fin_cases i
    exacts [hpt 18 (by decide), hpt 19 (by decide), hpt 20 (by decide), hpt 21 (by decide),
      hpt 22 (by decide)]
  · exact hpt 23 (by decide)
  · funext i; fin_cases i
    exacts [hpt 24 (by decide), hpt 25 (by decide), hpt 26 (by decide), hpt 27 (by decide),
      hpt 28 (by decide)]

end Verif.Halo2
