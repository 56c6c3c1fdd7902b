import Verif.Lemmas.Instance
import Verif.Lemmas.Pairing
import Verif.Model.Gpp

/-! Helper lemmas about EVM words, the precompiles and `createGpp`. -/

namespace Verif
open WeierstrassCurve.Affine

theorem q_lt_256 : q < 2 ^ 256 := by decide +kernel
theorem r_lt_256 : r < 2 ^ 256 := by decide +kernel
theorem r_lt_q : r < q := by decide +kernel

theorem Fq_lt (x : Fq) : x.val < 2 ^ 256 := lt_trans (ZMod.val_lt x) q_lt_256
theorem Fr_lt (x : Fr) : x.val < 2 ^ 256 := lt_trans (ZMod.val_lt x) r_lt_256

theorem toNat_wordOf_q (x : Fq) : (wordOf x).toNat = x.val := by
  rw [wordOf, BitVec.toNat_ofNat, Nat.mod_eq_of_lt (Fq_lt x)]

theorem toNat_wordOf_r (x : Fr) : (wordOf x).toNat = x.val := by
  rw [wordOf, BitVec.toNat_ofNat, Nat.mod_eq_of_lt (Fr_lt x)]

theorem wordOf_q_inj {x y : Fq} (h : wordOf x = wordOf y) : x = y := by
  have := congrArg BitVec.toNat h
  rw [toNat_wordOf_q, toNat_wordOf_q] at this
  exact ZMod.val_injective _ this

theorem wordOf_r_inj {x y : Fr} (h : wordOf x = wordOf y) : x = y := by
  have := congrArg BitVec.toNat h
  rw [toNat_wordOf_r, toNat_wordOf_r] at this
  exact ZMod.val_injective _ this

theorem wordOf_of_lt_q {w : Word} (h : w.toNat < q) : wordOf ((w.toNat : ℕ) : Fq) = w := by
  apply BitVec.eq_of_toNat_eq
  rw [toNat_wordOf_q, ZMod.val_natCast, Nat.mod_eq_of_lt h]

theorem wordOf_of_lt_r {w : Word} (h : w.toNat < r) : wordOf ((w.toNat : ℕ) : Fr) = w := by
  apply BitVec.eq_of_toNat_eq
  rw [toNat_wordOf_r, ZMod.val_natCast, Nat.mod_eq_of_lt h]

theorem wordOf_lt_q (x : Fq) : (wordOf x).toNat < q := by rw [toNat_wordOf_q]; exact ZMod.val_lt x
theorem wordOf_lt_r (x : Fr) : (wordOf x).toNat < r := by rw [toNat_wordOf_r]; exact ZMod.val_lt x

theorem cast_wordOf_q (x : Fq) : (((wordOf x).toNat : ℕ) : Fq) = x := by
  rw [toNat_wordOf_q, ZMod.natCast_zmod_val]

theorem cast_wordOf_r (x : Fr) : (((wordOf x).toNat : ℕ) : Fr) = x := by
  rw [toNat_wordOf_r, ZMod.natCast_zmod_val]

theorem decode_encode (P : G1) : decodeG1 (encodeG1 P) = some P := by
  unfold decodeG1 encodeG1
  simp only
  rw [if_pos ⟨wordOf_lt_q _, wordOf_lt_q _⟩, cast_wordOf_q, cast_wordOf_q, bnFromXY_coords]

theorem fromXY_eq_some {F : Type*} [Field F] [DecidableEq F] {b : F}
    (hns : ∀ x y : F, y ^ 2 = x ^ 3 + b → (shortW b).Nonsingular x y) {x y : F}
    {P : (shortW b).Point} (h : fromXY hns x y = some P) : coords P = (x, y) := by
  unfold fromXY at h
  split at h
  · cases h; rfl
  · split at h
    · rename_i h2
      cases h
      simp [coords, h2.1, h2.2]
    · cases h

/-- Decoding is injective: only the canonical words of a point decode to it. -/
theorem decodeG1_eq_some {p : SolG1} {P : G1} : decodeG1 p = some P ↔ p = encodeG1 P := by
  constructor
  · intro h
    unfold decodeG1 at h
    split at h
    · rename_i hlt
      have hc := fromXY_eq_some _ h
      unfold encodeG1
      rw [hc]
      simp only
      rw [wordOf_of_lt_q hlt.1, wordOf_of_lt_q hlt.2]
    · cases h
  · rintro rfl
    exact decode_encode P

theorem encodeG1_inj {P Q : G1} (h : encodeG1 P = encodeG1 Q) : P = Q := by
  have := decode_encode P
  rw [h, decode_encode] at this
  exact (Option.some.inj this).symm

theorem ecAdd_encode (P Q : G1) : ecAdd (encodeG1 P) (encodeG1 Q) = some (encodeG1 (P + Q)) := by
  unfold ecAdd
  rw [decode_encode, decode_encode]
  rfl

theorem ecMul_encode (P : G1) (s : Word) :
    ecMul (encodeG1 P) s = some (encodeG1 (s.toNat • P)) := by
  unfold ecMul
  rw [decode_encode]
  rfl

theorem nat_smul_G1 (n : ℕ) (P : G1) : n • P = ((n : ℕ) : Fr) • P :=
  (Nat.cast_smul_eq_nsmul Fr n P).symm

theorem encode_zero : encodeG1 0 = ⟨0, 0⟩ := by
  unfold encodeG1
  rw [show coords (0 : G1) = (0, 0) from rfl]
  simp [wordOf]

theorem encode_g1 : encodeG1 g1 = Pairing.P1 := by
  unfold encodeG1 Pairing.P1
  have h1 : wordOf (1 : Fq) = 1 := by decide +kernel
  have h2 : wordOf (2 : Fq) = 2 := by decide +kernel
  rw [show coords g1 = (1, 2) from rfl]
  exact SolG1.mk.injEq .. ▸ ⟨h1, h2⟩

theorem toNat_qWord : Pairing.qWord.toNat = q := by decide +kernel

theorem coords_eq_zero {P : G1} (h : coords P = (0, 0)) : P = 0 := by
  cases P with
  | zero => rfl
  | some x y hxy =>
    exfalso
    simp only [coords, Prod.mk.injEq] at h
    obtain ⟨rfl, rfl⟩ := h
    have := (bn_nonsingular_iff 0 0).1 hxy
    exact three_ne_zero_q (by linear_combination -this)

theorem wordOf_eq_zero {x : Fq} : wordOf x = 0 ↔ x = 0 := by
  constructor
  · intro h
    apply wordOf_q_inj
    rw [h]; simp [wordOf]
  · rintro rfl; simp [wordOf]

theorem neg_word {y : Fq} (hy : y ≠ 0) : Pairing.qWord - wordOf y % Pairing.qWord = wordOf (-y) := by
  apply BitVec.eq_of_toNat_eq
  have hv : y.val < q := ZMod.val_lt y
  have hm : (wordOf y % Pairing.qWord).toNat = y.val := by
    rw [BitVec.toNat_umod, toNat_qWord, toNat_wordOf_q, Nat.mod_eq_of_lt hv]
  have hle : wordOf y % Pairing.qWord ≤ Pairing.qWord := by
    rw [BitVec.le_def, hm, toNat_qWord]; omega
  rw [BitVec.toNat_sub_of_le hle, hm, toNat_qWord, toNat_wordOf_q, ZMod.neg_val, if_neg hy]

theorem negate_encode (P : G1) : Pairing.negate (encodeG1 P) = encodeG1 (-P) := by
  cases P with
  | zero =>
    have h0 : (Point.zero : G1) = 0 := rfl
    rw [h0, neg_zero, encode_zero]
    rfl
  | some x y h =>
    have he := (bn_nonsingular_iff x y).1 h
    have hy : y ≠ 0 := bn_y_ne_zero he
    have hn := shortW_neg_some (b := (3 : Fq)) h
    obtain ⟨h', hn⟩ := hn
    have hn' : -(Point.some x y h : G1) = Point.some x (-y) h' := hn
    rw [hn']
    have e1 : encodeG1 (Point.some x y h) = ⟨wordOf x, wordOf y⟩ := rfl
    have e2 : encodeG1 (Point.some x (-y) h') = ⟨wordOf x, wordOf (-y)⟩ := rfl
    rw [e1, e2]
    have hc : ¬ ((⟨wordOf x, wordOf y⟩ : SolG1).x = 0 ∧ (⟨wordOf x, wordOf y⟩ : SolG1).y = 0) :=
      fun hc => hy (wordOf_eq_zero.1 hc.2)
    unfold Pairing.negate
    rw [if_neg hc, neg_word hy]

/-! ### G2 -/

theorem fq2_eta (z : Fq2) : (⟨z.re, z.im⟩ : Fq2) = z := rfl

theorem decodeG2_encode (Q : G2) : decodeG2 (encodeG2 Q) = if r • Q = 0 then some Q else none := by
  unfold decodeG2 decodeG2Words encodeG2
  simp only
  rw [if_pos ⟨wordOf_lt_q _, wordOf_lt_q _, wordOf_lt_q _, wordOf_lt_q _⟩]
  simp only [cast_wordOf_q]
  have := g2FromXY_coords Q
  rw [fq2_eta, fq2_eta, this]

theorem decodeG2_eq_some {p : SolG2} {Q : G2} :
    decodeG2 p = some Q ↔ p = encodeG2 Q ∧ r • Q = 0 := by
  constructor
  · intro h
    unfold decodeG2 decodeG2Words at h
    split at h
    · rename_i hlt
      split at h
      · cases h
      · rename_i Q' hQ'
        split at h
        · rename_i htor
          cases h
          have hc := fromXY_eq_some _ hQ'
          refine ⟨?_, htor⟩
          unfold encodeG2
          rw [hc]
          simp only
          rw [wordOf_of_lt_q hlt.1, wordOf_of_lt_q hlt.2.1, wordOf_of_lt_q hlt.2.2.1,
            wordOf_of_lt_q hlt.2.2.2]
        · cases h
    · cases h
  · rintro ⟨rfl, h⟩
    rw [decodeG2_encode, if_pos h]

theorem encodeG2_inj {P Q : G2} (h : encodeG2 P = encodeG2 Q) : P = Q := by
  have hc : coords P = coords Q := by
    unfold encodeG2 at h
    simp only [SolG2.mk.injEq] at h
    obtain ⟨h1, h2, h3, h4⟩ := h
    exact Prod.ext (QuadraticAlgebra.ext (wordOf_q_inj h1) (wordOf_q_inj h2))
      (QuadraticAlgebra.ext (wordOf_q_inj h3) (wordOf_q_inj h4))
  have := g2FromXY_coords P
  rw [hc, g2FromXY_coords] at this
  exact (Option.some.inj this).symm

theorem encode_g2 : encodeG2 g2 = Pairing.P2 := by
  unfold encodeG2 Pairing.P2
  rw [show coords g2 = (c2 g2N.1, c2 g2N.2) from rfl]
  have h : ∀ x y : ℕ, x < q → BitVec.ofNat 256 x = BitVec.ofNat 256 y →
      wordOf ((x : ℕ) : Fq) = BitVec.ofNat 256 y := by
    intro x y hx hxy
    rw [wordOf, ZMod.val_natCast, Nat.mod_eq_of_lt hx, hxy]
  have hs : ∀ a b c d a' b' c' d' : Word, a = a' → b = b' → c = c' → d = d' →
      (⟨a, b, c, d⟩ : SolG2) = ⟨a', b', c', d'⟩ := by
    rintro a b c d _ _ _ _ rfl rfl rfl rfl; rfl
  exact hs _ _ _ _ _ _ _ _ (h _ _ (by decide +kernel) (by decide +kernel))
    (h _ _ (by decide +kernel) (by decide +kernel)) (h _ _ (by decide +kernel) (by decide +kernel))
    (h _ _ (by decide +kernel) (by decide +kernel))

theorem decode_P2 : decodeG2 Pairing.P2 = some g2 := by
  rw [← encode_g2, decodeG2_encode, if_pos r_nsmul_g2]

theorem pairingProd2_eq (E : BnPairing) (A B : G1) {q1 q2 : SolG2} {Q1 Q2 : G2}
    (h1 : decodeG2 q1 = some Q1) (h2 : decodeG2 q2 = some Q2) :
    Pairing.pairingProd2 E (encodeG1 A) q1 (encodeG1 B) q2 = some (E.check2 A Q1 B Q2) := by
  unfold decodeG2 at h1 h2
  unfold Pairing.pairingProd2 Pairing.pairing ecPairing
  have e1 : decodeG1 ⟨(encodeG1 A).x, (encodeG1 A).y⟩ = some A := decode_encode A
  have e2 : decodeG1 ⟨(encodeG1 B).x, (encodeG1 B).y⟩ = some B := decode_encode B
  simp only [List.length_cons, List.length_nil, List.zipWith_cons_cons, List.zipWith_nil_left,
    List.mapM_cons, List.mapM_nil, e1, e2, h1, h2, require]
  simp [BnPairing.check2]

theorem pairingProd2_none_left (E : BnPairing) (a b : SolG1) {q1 q2 : SolG2}
    (h : decodeG2 q1 = none) : Pairing.pairingProd2 E a q1 b q2 = none := by
  unfold decodeG2 at h
  unfold Pairing.pairingProd2 Pairing.pairing ecPairing
  simp only [List.length_cons, List.length_nil, List.zipWith_cons_cons, List.zipWith_nil_left,
    List.mapM_cons, List.mapM_nil, h, require]
  cases decodeG1 ⟨a.x, a.y⟩ <;> simp

theorem pairingProd2_none_right (E : BnPairing) (a b : SolG1) {q1 q2 : SolG2}
    (h : decodeG2 q2 = none) : Pairing.pairingProd2 E a q1 b q2 = none := by
  unfold decodeG2 at h
  unfold Pairing.pairingProd2 Pairing.pairing ecPairing
  simp only [List.length_cons, List.length_nil, List.zipWith_cons_cons, List.zipWith_nil_left,
    List.mapM_cons, List.mapM_nil, h, require]
  cases decodeG1 ⟨a.x, a.y⟩ <;> cases decodeG2Words q1.x1 q1.x0 q1.y1 q1.y0 <;>
    cases decodeG1 ⟨b.x, b.y⟩ <;> simp

/-! ### createGpp -/

theorem length_wordsOf_enc1 (P : G1) : (wordsOf (enc1 P)).length = 4 := by
  rw [wordsOf, List.length_map, length_enc1]

theorem checked_coord (x : Fq) :
    (checkedMul (wordOf ((x.val / 2 ^ 136 : ℕ) : Fr)) Gpp.BASE).bind (fun m =>
      checkedAdd m (wordOf ((x.val % 2 ^ 136 : ℕ) : Fr))) = some (wordOf x) := by
  have hb : Gpp.BASE.toNat = 2 ^ 136 := by decide +kernel
  have h1 : x.val / 2 ^ 136 * 2 ^ 136 ≤ x.val := Nat.div_mul_le_self _ _
  have hx := Fq_lt x
  have hm : checkedMul (wordOf ((x.val / 2 ^ 136 : ℕ) : Fr)) Gpp.BASE =
      some (BitVec.ofNat 256 (x.val / 2 ^ 136 * 2 ^ 136)) := by
    unfold checkedMul
    rw [toNat_wordOf_r, val_hi, hb, if_pos (lt_of_le_of_lt h1 hx)]
  rw [hm]
  have hn : (BitVec.ofNat 256 (x.val / 2 ^ 136 * 2 ^ 136)).toNat = x.val / 2 ^ 136 * 2 ^ 136 := by
    rw [BitVec.toNat_ofNat, Nat.mod_eq_of_lt (lt_of_le_of_lt h1 hx)]
  have hs : x.val / 2 ^ 136 * 2 ^ 136 + x.val % 2 ^ 136 = x.val := by
    rw [mul_comm]; exact Nat.div_add_mod _ _
  rw [Option.bind_some]
  unfold checkedAdd
  rw [hn, toNat_wordOf_r, val_lo, hs, if_pos hx]
  rfl

theorem readBnG1_enc1 (P : G1) : Gpp.readBnG1 (wordsOf (enc1 P)) = some (encodeG1 P) := by
  have h1 := checked_coord (coords P).1
  have h2 := checked_coord (coords P).2
  have hw : wordsOf (enc1 P) = [wordOf (((coords P).1.val % 2 ^ 136 : ℕ) : Fr),
      wordOf (((coords P).1.val / 2 ^ 136 : ℕ) : Fr), wordOf (((coords P).2.val % 2 ^ 136 : ℕ) : Fr),
      wordOf (((coords P).2.val / 2 ^ 136 : ℕ) : Fr)] := rfl
  rw [hw]
  unfold Gpp.readBnG1
  simp only [Option.bind_eq_bind]
  rw [← Option.bind_assoc, h1, Option.bind_some, ← Option.bind_assoc, h2]
  rfl

/-- Words of a vector starting with the public data of `ga` and of `shares`. -/
def pointWords (d : (G1 × List G1) × List Word) : List Word :=
  wordsOf (enc1 d.1.1 ++ d.1.2.flatMap enc1) ++ d.2

theorem length_pointWords (d : (G1 × List G1) × List Word) :
    (pointWords d).length = 4 + 4 * d.1.2.length + d.2.length := by
  simp only [pointWords, wordsOf, List.length_append, List.length_map, length_enc1,
    length_flatMap_const enc1 4 (fun _ => rfl)]
  ring

theorem pointWords_flat (d : (G1 × List G1) × List Word) :
    pointWords d = (d.1.1 :: d.1.2).flatMap (fun P => wordsOf (enc1 P)) ++ d.2 := by
  rw [pointWords, List.flatMap_cons, wordsOf, List.map_append, List.map_flatMap]
  rfl

theorem slice_eq (a : List Word) (b : ℕ) (h : b + 4 ≤ a.length) :
    Gpp.slice a b (b + 4) = some ((a.drop b).take 4) := by
  unfold Gpp.slice
  rw [if_pos ⟨Nat.le_add_right _ _, h⟩, Nat.add_sub_cancel_left]

theorem slice_pointWords (d : (G1 × List G1) × List Word) (i : ℕ) (hi : i ≤ d.1.2.length) :
    Gpp.slice (pointWords d) (4 * i) (4 * i + 4) =
      some (wordsOf (enc1 ((d.1.1 :: d.1.2).getD i 0))) := by
  have hlt : i < (d.1.1 :: d.1.2).length := Nat.lt_succ_of_le hi
  have hget : (d.1.1 :: d.1.2)[i]? = some ((d.1.1 :: d.1.2).getD i 0) := by
    rw [List.getD_eq_getElem?_getD, List.getElem?_eq_getElem hlt]; rfl
  have hl : 4 * i + 4 ≤ (pointWords d).length := by rw [length_pointWords]; omega
  have hs := slice_flatMap (fun P => wordsOf (enc1 P)) 4 length_wordsOf_enc1 (d.1.1 :: d.1.2) i _
    d.2 hget
  rw [slice_eq _ _ hl, pointWords_flat, Nat.mul_comm 4 i, hs]

/-- The step of `Gpp.sumAt`. -/
def sumStep (b e : ℕ) (acc : SolG1) (v : List Word) : Evm SolG1 := do
  let p ← Gpp.readBnG1 (← Gpp.slice v b e)
  Pairing.addition acc p

theorem addition_encode (A B : G1) :
    Pairing.addition (encodeG1 A) (encodeG1 B) = some (encodeG1 (A + B)) := ecAdd_encode A B

theorem sumStep_eq (d : (G1 × List G1) × List Word) (i : ℕ) (hi : i ≤ d.1.2.length) (A : G1) :
    sumStep (4 * i) (4 * i + 4) (encodeG1 A) (pointWords d) =
      some (encodeG1 (A + (d.1.1 :: d.1.2).getD i 0)) := by
  unfold sumStep
  rw [slice_pointWords d i hi, Option.bind_eq_bind, Option.bind_some, readBnG1_enc1,
    Option.bind_eq_bind, Option.bind_some, addition_encode]

theorem sumAt_aux (ds : List ((G1 × List G1) × List Word)) (i : ℕ)
    (h : ∀ d ∈ ds, i ≤ d.1.2.length) (A : G1) :
    (ds.map pointWords).foldlM (sumStep (4 * i) (4 * i + 4)) (encodeG1 A) =
      some (encodeG1 (A + (ds.map (fun d => (d.1.1 :: d.1.2).getD i 0)).sum)) := by
  induction ds generalizing A with
  | nil => rw [List.map_nil, List.map_nil, List.foldlM_nil, List.sum_nil, add_zero]; rfl
  | cons d ds ih =>
    rw [List.map_cons, List.foldlM_cons, sumStep_eq d i (h d List.mem_cons_self),
      Option.bind_eq_bind, Option.bind_some,
      ih (fun d hd => h d (List.mem_cons_of_mem _ hd)), List.map_cons, List.sum_cons, add_assoc]

theorem sumAt_eq (ds : List ((G1 × List G1) × List Word)) (i : ℕ)
    (h : ∀ d ∈ ds, i ≤ d.1.2.length) :
    Gpp.sumAt (ds.map pointWords) (4 * i) (4 * i + 4) =
      some (encodeG1 (ds.map (fun d => (d.1.1 :: d.1.2).getD i 0)).sum) := by
  have := sumAt_aux ds i h 0
  rw [encode_zero, zero_add] at this
  exact this

theorem vkLoop_eq (ds : List ((G1 × List G1) × List Word)) (n : ℕ)
    (h : ∀ d ∈ ds, d.1.2.length = n) (hn : 4 * n + 8 < 2 ^ 32) :
    ∀ k i, i + k = n → Gpp.vkLoop (ds.map pointWords) k (4 * (i + 1)) (4 * (i + 1) + 4) =
      some ((List.range' i k).map (fun j => encodeG1 (ds.map (fun d => d.1.2.getD j 0)).sum)) := by
  intro k
  induction k with
  | zero => intro i _; rfl
  | succ k ih =>
    intro i hik
    have hu : u32 (4 * (i + 1) + 4 + Gpp.POINT_LEN) = some (4 * (i + 1 + 1) + 4) := by
      unfold u32 Gpp.POINT_LEN
      rw [if_pos (by omega)]
      congr 1
    unfold Gpp.vkLoop
    rw [sumAt_eq ds (i + 1) (fun d hd => by rw [h d hd]; omega), hu]
    simp only [Option.bind_eq_bind, Option.bind_some]
    have ih' := ih (i + 1) (by omega)
    rw [show 4 * (i + 1) + 4 = 4 * (i + 1 + 1) from by ring, ih']
    rfl

/-- What `createGpp` computes on vectors that start with point encodings. -/
theorem createGpp_eq (E : BnPairing) (n : ℕ) (ds : List ((G1 × List G1) × List Word))
    (hlen : ds.length ≤ n) (h : ∀ d ∈ ds, d.1.2.length = n) (hn : 4 * n + 8 < 2 ^ 32) (a : Fr)
    (ha : (ds.map (fun d => d.1.1)).sum = a • g1) (gpk : SolG2) (out : SolG2 × List SolG1) :
    Gpp.createGpp E n gpk (ds.map pointWords) = some out ↔
      gpk = encodeG2 (smul2 a g2) ∧ out = (gpk, (List.range n).map
        (fun j => encodeG1 (ds.map (fun d => d.1.2.getD j 0)).sum)) := by
  have hu1 : u32 (4 * n) = some (4 * n) := by unfold u32; rw [if_pos (by omega)]
  have hu2 : u32 (4 * n + 4) = some (4 * n + 4) := by unfold u32; rw [if_pos (by omega)]
  have hall : (ds.map pointWords).all (fun v => decide (4 * n + 4 ≤ v.length)) = true := by
    rw [List.all_eq_true]
    intro v hv
    obtain ⟨d, hd, rfl⟩ := List.mem_map.1 hv
    rw [decide_eq_true_eq, length_pointWords, h d hd]
    omega
  have hga : Gpp.sumAt (ds.map pointWords) 0 Gpp.POINT_LEN = some (encodeG1 (a • g1)) := by
    have := sumAt_eq ds 0 (fun d _ => Nat.zero_le _)
    simp only [List.getD_cons_zero, mul_zero, zero_add] at this
    rw [ha] at this
    exact this
  have hvk := vkLoop_eq ds n h hn n 0 (by omega)
  have hv0 : Gpp.vkLoop (ds.map pointWords) n Gpp.POINT_LEN (Gpp.POINT_LEN + Gpp.POINT_LEN) =
      some ((List.range n).map (fun j => encodeG1 (ds.map (fun d => d.1.2.getD j 0)).sum)) := by
    rw [List.range_eq_range']
    exact hvk
  have hneg : Pairing.negate Pairing.P1 = encodeG1 (-g1) := by rw [← encode_g1, negate_encode]
  unfold Gpp.createGpp
  simp only [List.length_map, hlen, decide_true, require, if_true, hu1, hu2, hall,
    Option.bind_eq_bind, Option.bind_some, hga, hv0, hneg]
  cases hd : decodeG2 gpk with
  | none =>
    rw [pairingProd2_none_right E _ _ hd]
    simp only [Option.bind_none, reduceCtorEq, false_iff]
    rintro ⟨rfl, _⟩
    rw [decodeG2_encode, if_pos (smul2_torsion a)] at hd
    cases hd
  | some Q =>
    obtain ⟨rfl, hQ⟩ := decodeG2_eq_some.1 hd
    rw [pairingProd2_eq E _ _ decode_P2 hd]
    obtain ⟨k, rfl⟩ := torsion_eq_smul2 hQ
    have hchk : E.check2 (a • g1) g2 (-g1) (smul2 k g2) = true ↔ a = k := by
      have hc := E.check2_iff g1 (a • g1) k
      unfold BnPairing.check2 at hc ⊢
      rw [decide_eq_true_eq] at hc ⊢
      rw [add_comm, hc]
      exact ⟨smul_g1_inj, fun h => by rw [h]⟩
    simp only [Option.bind_some]
    by_cases hak : a = k
    · subst hak
      rw [hchk.2 rfl]
      simp [eq_comm]
    · have hf : E.check2 (a • g1) g2 (-g1) (smul2 k g2) = false := by
        rw [Bool.eq_false_iff]; exact fun h => hak (hchk.1 h)
      rw [hf]
      simp only [Bool.false_eq_true, if_false, Option.bind_none, reduceCtorEq, false_iff]
      rintro ⟨h1, _⟩
      exact hak (smul2_inj (encodeG2_inj h1)).symm

end Verif
