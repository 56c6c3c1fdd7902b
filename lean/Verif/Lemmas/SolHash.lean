import Mathlib.NumberTheory.LegendreSymbol.QuadraticReciprocity
import Verif.Lemmas.HashToCurve
import Verif.Lemmas.Bytes

/-! The Solidity hash-to-curve computes the same point as the Rust one. -/

namespace Verif
open WeierstrassCurve.Affine

namespace SolHash

theorem toNat_Q : Q.toNat = q := by decide +kernel
theorem Q_ne_zero : Q ≠ 0 := by decide +kernel
theorem C1_word : ((C1.toNat : ℕ) : Fq) = RustHash.C1 := by decide +kernel
theorem C2_word : ((C2.toNat : ℕ) : Fq) = RustHash.C2 := by decide +kernel
theorem C3_word : ((C3.toNat : ℕ) : Fq) = RustHash.C3 := by decide +kernel
theorem R_word : ((R.toNat : ℕ) : Fq) = RustHash.R := by decide +kernel
theorem Q2_word : Q2.toNat = RustHash.Q2.val := by decide +kernel
theorem three_word : (((3 : Word).toNat : ℕ) : Fq) = 3 := by decide +kernel
theorem four_word : (((4 : Word).toNat : ℕ) : Fq) = 4 := by decide +kernel
theorem one_word : (((1 : Word).toNat : ℕ) : Fq) = 1 := by decide +kernel

theorem eq_wordOf {w : Word} {x : Fq} (hlt : w.toNat < q) (h : ((w.toNat : ℕ) : Fq) = x) :
    w = wordOf x := by
  rw [← h, wordOf_of_lt_q hlt]

theorem q_pos : 0 < q := by decide +kernel

theorem mulmod_eq (a b : Word) :
    mulmod a b Q = wordOf (((a.toNat : ℕ) : Fq) * ((b.toNat : ℕ) : Fq)) := by
  have h := ModExp.toNat_mulmod Q_ne_zero a b
  rw [toNat_Q] at h
  apply eq_wordOf
  · rw [h]; exact Nat.mod_lt _ q_pos
  · rw [h, ZMod.natCast_mod, Nat.cast_mul]

theorem addmod_eq (a b : Word) :
    addmod a b Q = wordOf (((a.toNat : ℕ) : Fq) + ((b.toNat : ℕ) : Fq)) := by
  have h := ModExp.toNat_addmod Q_ne_zero a b
  rw [toNat_Q] at h
  apply eq_wordOf
  · rw [h]; exact Nat.mod_lt _ q_pos
  · rw [h, ZMod.natCast_mod, Nat.cast_add]

theorem checkedSub_eq (x : Fq) :
    ∃ w : Word, checkedSub Q (wordOf x) = some w ∧ ((w.toNat : ℕ) : Fq) = -x ∧
      (x ≠ 0 → w = wordOf (-x)) := by
  have hv : x.val < q := ZMod.val_lt x
  have hlt : q - x.val < 2 ^ 256 := lt_of_le_of_lt (Nat.sub_le _ _) q_lt_256
  refine ⟨BitVec.ofNat 256 (q - x.val), ?_, ?_, ?_⟩
  · unfold checkedSub
    rw [toNat_wordOf_q, toNat_Q, if_pos hv.le]
  · rw [BitVec.toNat_ofNat, Nat.mod_eq_of_lt hlt, Nat.cast_sub hv.le, ZMod.natCast_self,
      ZMod.natCast_zmod_val, zero_sub]
  · intro hx
    rw [wordOf, ZMod.neg_val, if_neg hx]

theorem inverse_eq (w : Word) : ModExp.inverse w = wordOf (((w.toNat : ℕ) : Fq)⁻¹) := by
  have h := ModExp.inverse_eq w
  apply eq_wordOf
  · rw [h]; exact Nat.mod_lt _ q_pos
  · rw [h, ZMod.natCast_mod, Nat.cast_pow]
    by_cases hw : ((w.toNat : ℕ) : Fq) = 0
    · rw [hw, inv_zero, zero_pow (by decide +kernel)]
    · apply eq_inv_of_mul_eq_one_left
      rw [← pow_succ, show q - 2 + 1 = q - 1 from by decide +kernel]
      exact ZMod.pow_card_sub_one_eq_one hw

theorem sqrtExp_def : RustHash.sqrtExp = (q + 1) / 4 := by unfold RustHash.sqrtExp; rfl

theorem modsqrt_eq (w : Word) : ModExp.sqrt w = wordOf (((w.toNat : ℕ) : Fq) ^ RustHash.sqrtExp) := by
  have h := ModExp.sqrt_eq w
  rw [← sqrtExp_def] at h
  apply eq_wordOf
  · rw [h]; exact Nat.mod_lt _ q_pos
  · rw [h, ZMod.natCast_mod, Nat.cast_pow]

theorem sqrt_eq (u : Fq) :
    sqrt (wordOf u) = (wordOf (u ^ RustHash.sqrtExp), (RustHash.sqrt u).isSome) := by
  unfold sqrt
  simp only
  rw [modsqrt_eq, mulmod_eq, cast_wordOf_q, cast_wordOf_q, RustHash.sqrt_def]
  congr 1
  by_cases h : (u ^ RustHash.sqrtExp) ^ 2 = u
  · rw [if_pos h, ← sq, h]; simp
  · rw [if_neg h, ← sq]
    simp only [Option.isSome_none, decide_eq_false_iff_not]
    exact fun h2 => h (wordOf_q_inj h2)

theorem rhs_eq (x : Fq) : rhs (wordOf x) = wordOf (x ^ 3 + 3) := by
  unfold rhs
  rw [mulmod_eq, mulmod_eq, addmod_eq, cast_wordOf_q, cast_wordOf_q, cast_wordOf_q, three_word]
  congr 1; ring

theorem sign_eq (t : Fq) : RustHash.sign t = if sign (wordOf t) then 1 else -1 := by
  unfold RustHash.sign sign
  rw [toNat_wordOf_q, Q2_word, RustHash.MINUS_ONE_eq]
  simp

theorem withSign_eq (s : Bool) {x y : Fq} (h : y ^ 2 = x ^ 3 + 3) :
    withSign s (wordOf y) = some (wordOf (y * (if s then 1 else -1))) := by
  unfold withSign
  cases s with
  | true => simp
  | false =>
    obtain ⟨w, hw, _, h2⟩ := checkedSub_eq y
    rw [if_pos (by rfl), hw, h2 (bn_y_ne_zero h)]
    simp

theorem isSquare_two : IsSquare (2 : Fq) :=
  (ZMod.exists_sq_eq_two_iff (p := q) (by decide +kernel)).2 (by decide +kernel)

theorem x1_ne {t : Fq} (h : RustHash.sqrt (RustHash.x1 t ^ 3 + 3) = none) :
    RustHash.x1 t + 1 ≠ 0 := by
  intro h0
  have h1 : RustHash.x1 t = -1 := by linear_combination h0
  have hs : IsSquare (RustHash.x1 t ^ 3 + 3) := by
    rw [h1]
    have : ((-1 : Fq)) ^ 3 + 3 = 2 := by ring
    rw [this]; exact isSquare_two
  have := (RustHash.sqrt_some_iff _).2 hs
  rw [h] at this
  cases this

theorem alphaOf_eq (t : Fq) : alphaOf (wordOf t) = wordOf (RustHash.inv0 (t ^ 2 * (t ^ 2 + 4))) := by
  unfold alphaOf
  simp only
  rw [mulmod_eq, addmod_eq, mulmod_eq, inverse_eq]
  simp only [cast_wordOf_q]
  rw [four_word, RustHash.inv0_eq, ← sq]

theorem x1Of_eq (t : Fq) : x1Of (wordOf t) = some (wordOf (RustHash.x1 t)) := by
  unfold x1Of
  simp only
  rw [alphaOf_eq, mulmod_eq, mulmod_eq, mulmod_eq, mulmod_eq]
  simp only [cast_wordOf_q]
  obtain ⟨m1, hm1, hm1c, _⟩ := checkedSub_eq
    (((C2.toNat : ℕ) : Fq) * (t * t * (t * t) * RustHash.inv0 (t ^ 2 * (t ^ 2 + 4))))
  rw [hm1, Option.bind_eq_bind, Option.bind_some, addmod_eq, C1_word, hm1c, C2_word]
  apply congrArg (fun x : Fq => some (wordOf x))
  rw [RustHash.x1]; ring

theorem x2Of_eq {x : Fq} (h : x + 1 ≠ 0) : x2Of (wordOf x) = some (wordOf (-(x + 1))) := by
  unfold x2Of
  rw [addmod_eq, cast_wordOf_q, one_word]
  obtain ⟨m2, hm2, _, hm2e⟩ := checkedSub_eq (x + 1)
  rw [hm2, hm2e h]

theorem x3Of_eq (t : Fq) : x3Of (wordOf t) = some (wordOf (RustHash.x3 t)) := by
  unfold x3Of
  simp only
  rw [alphaOf_eq, mulmod_eq, addmod_eq, mulmod_eq, mulmod_eq, mulmod_eq, mulmod_eq]
  simp only [cast_wordOf_q]
  rw [four_word, C3_word]
  obtain ⟨m3, hm3, hm3c, _⟩ := checkedSub_eq
    ((t * t + 4) * ((t * t + 4) * (t * t + 4)) * RustHash.inv0 (t ^ 2 * (t ^ 2 + 4)) * RustHash.C3)
  rw [hm3, Option.bind_eq_bind, Option.bind_some, addmod_eq, one_word, hm3c]
  apply congrArg (fun x : Fq => some (wordOf x))
  rw [RustHash.x3]; ring

theorem tryPoint_none (s : Bool) {x : Fq} (h : RustHash.sqrt (x ^ 3 + 3) = none) :
    tryPoint s (wordOf x) = some none := by
  unfold tryPoint
  rw [rhs_eq, sqrt_eq, h]
  rfl

theorem tryPoint_some (s : Bool) {x y : Fq} (h : RustHash.sqrt (x ^ 3 + 3) = some y) :
    tryPoint s (wordOf x) = some (some ⟨wordOf x, wordOf (y * (if s then 1 else -1))⟩) := by
  unfold tryPoint
  rw [rhs_eq, sqrt_eq, ← RustHash.sqrt_eq_pow h, h]
  have hs : (some y : Option Fq).isSome = true := rfl
  simp only [hs, if_true]
  rw [withSign_eq _ (RustHash.sqrt_sq h), Option.bind_eq_bind, Option.bind_some]
  rfl

theorem mapToG1_eq (t : Fq) {P : G1} (hP : RustHash.mapToCurve t = .ok P) :
    mapToG1 (wordOf t) = some (encodeG1 P) := by
  obtain ⟨x, y, hxy, hm, hcase⟩ := RustHash.mapToCurve_eq t
  rw [hm] at hP
  have hP' := Except.ok.inj hP
  have henc : encodeG1 P = ⟨wordOf x, wordOf (y * RustHash.sign t)⟩ := by rw [← hP']; rfl
  rw [henc, sign_eq]
  have hreq : require (decide ((wordOf t).toNat < Q.toNat)) = some () := by
    rw [toNat_Q]; simp [require, wordOf_lt_q]
  unfold mapToG1
  rw [hreq, Option.bind_eq_bind, Option.bind_some, x1Of_eq, Option.bind_eq_bind, Option.bind_some]
  rcases hcase with ⟨h1, rfl⟩ | ⟨h1, h2, rfl⟩ | ⟨h1, h2, h3, rfl⟩
  · rw [tryPoint_some _ h1, Option.bind_eq_bind, Option.bind_some]
    rfl
  · rw [tryPoint_none _ h1, Option.bind_eq_bind, Option.bind_some]
    simp only
    rw [x2Of_eq (x1_ne h1), ← RustHash.x2, Option.bind_some,
      tryPoint_some _ h2, Option.bind_some]
    rfl
  · rw [tryPoint_none _ h1, Option.bind_eq_bind, Option.bind_some]
    simp only
    rw [x2Of_eq (x1_ne h1), ← RustHash.x2, Option.bind_some,
      tryPoint_none _ h2, Option.bind_some]
    simp only
    rw [x3Of_eq, Option.bind_some, tryPoint_some _ h3, Option.bind_some]
    rfl

theorem leBytes_split (a b n : ℕ) : leBytes (a + b) n = leBytes a n ++ leBytes b (n / 256 ^ a) := by
  induction a generalizing n with
  | zero => simp [leBytes]
  | succ a ih =>
    rw [show a + 1 + b = (a + b) + 1 from by ring, leBytes, leBytes, ih, Nat.div_div_eq_div_mul,
      ← pow_succ', List.cons_append]

theorem leBytes_zero (a : ℕ) : leBytes a 0 = List.replicate a 0 := by
  induction a with
  | zero => rfl
  | succ a ih => rw [leBytes, Nat.zero_div, ih]; rfl

theorem packed_eq {n : ℕ} (h : n < 2 ^ 64) : packed n = RustHash.lenBytes n := by
  unfold packed RustHash.lenBytes beBytes
  rw [show (32 : ℕ) = 8 + 24 from rfl, leBytes_split, Nat.div_eq_of_lt (by norm_num; omega),
    leBytes_zero, List.reverse_append, List.reverse_replicate]

theorem frame_eq (domain message : List Byte)
    (hd : domain.length < 2 ^ 64) (hm : message.length < 2 ^ 64) :
    frame domain message = RustHash.frame domain message := by
  unfold frame RustHash.frame
  rw [packed_eq hd, packed_eq hm]
  rfl

theorem hashToField_eq (keccak : Keccak) (domain message : List Byte)
    (hd : domain.length < 2 ^ 64) (hm : message.length < 2 ^ 64) :
    hashToField keccak domain message =
      (wordOf (RustHash.hashToField keccak domain message).1,
        wordOf (RustHash.hashToField keccak domain message).2) := by
  unfold hashToField RustHash.hashToField
  simp only [frame_eq domain message hd hm, addmod_eq, mulmod_eq, cast_wordOf_q, R_word, fromRaw_word]
  rfl

theorem hashToG1_eq (keccak : Keccak) (domain message : List Byte)
    (hd : domain.length < 2 ^ 64) (hm : message.length < 2 ^ 64) {P : G1}
    (hP : RustHash.hashToCurve keccak domain message = .ok P) :
    hashToG1 keccak domain message = some (encodeG1 P) := by
  obtain ⟨xa, ya, ha, h1, _⟩ :=
    RustHash.mapToCurve_eq (RustHash.hashToField keccak domain message).1
  obtain ⟨xb, yb, hb, h2, _⟩ :=
    RustHash.mapToCurve_eq (RustHash.hashToField keccak domain message).2
  unfold RustHash.hashToCurve at hP
  simp only [h1, h2] at hP
  have hP' := Except.ok.inj hP
  unfold hashToG1
  simp only
  rw [hashToField_eq keccak domain message hd hm]
  simp only
  rw [mapToG1_eq _ h1, mapToG1_eq _ h2, Option.bind_eq_bind, Option.bind_some, Option.bind_some,
    addition_encode, hP']

end SolHash

namespace RustHash

theorem hashToCurve_ok (keccak : Keccak) (domain message : List Byte) :
    ∃ P, hashToCurve keccak domain message = .ok P := by
  obtain ⟨xa, ya, ha, h1, _⟩ := mapToCurve_eq (hashToField keccak domain message).1
  obtain ⟨xb, yb, hb, h2, _⟩ := mapToCurve_eq (hashToField keccak domain message).2
  unfold hashToCurve
  simp only [h1, h2]
  exact ⟨_, rfl⟩

end RustHash
end Verif
