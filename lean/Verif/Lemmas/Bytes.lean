import Verif.Model.Bytes
import Verif.Lemmas.Primes
import Mathlib.Tactic.Ring

/-! Helper lemmas about byte encodings. -/

namespace Verif

@[simp] theorem length_leBytes (len n : ℕ) : (leBytes len n).length = len := by
  induction len generalizing n with
  | zero => rfl
  | succ len ih => simp [leBytes, ih]

@[simp] theorem length_beBytes (len n : ℕ) : (beBytes len n).length = len := by simp [beBytes]

@[simp] theorem length_feBytes {p : ℕ} (x : ZMod p) : (feBytes x).length = 32 := by simp [feBytes]

@[simp] theorem length_wordBytes (w : Word) : (Word.bytes w).length = 32 := by simp [Word.bytes]

theorem ofLE_leBytes (len n : ℕ) : ofLE (leBytes len n) = n % 256 ^ len := by
  induction len generalizing n with
  | zero => simp [leBytes, ofLE, Nat.mod_one]
  | succ len ih =>
    simp only [leBytes, ofLE, ih, Fin.val_ofNat]
    rw [pow_succ, mul_comm (256 ^ len) 256, Nat.mod_mul]

theorem ofBE_beBytes (len n : ℕ) : ofBE (beBytes len n) = n % 256 ^ len := by
  simp [ofBE, beBytes, ofLE_leBytes]

theorem ofLE_lt (l : List Byte) : ofLE l < 256 ^ l.length := by
  induction l with
  | nil => simp [ofLE]
  | cons b l ih =>
    simp only [ofLE, List.length_cons, pow_succ]
    have := b.isLt
    omega

theorem leBytes_ofLE (l : List Byte) : leBytes l.length (ofLE l) = l := by
  induction l with
  | nil => rfl
  | cons b l ih =>
    have hb := b.isLt
    simp only [List.length_cons, leBytes, ofLE]
    have h1 : (b.val + 256 * ofLE l) / 256 = ofLE l := by omega
    rw [h1, ih]
    congr 1
    apply Fin.ext
    simp only [Fin.val_ofNat]
    omega

theorem leBytes_inj {len a b : ℕ} (ha : a < 256 ^ len) (hb : b < 256 ^ len)
    (h : leBytes len a = leBytes len b) : a = b := by
  have := congrArg ofLE h
  rwa [ofLE_leBytes, ofLE_leBytes, Nat.mod_eq_of_lt ha, Nat.mod_eq_of_lt hb] at this

theorem beBytes_inj {len a b : ℕ} (ha : a < 256 ^ len) (hb : b < 256 ^ len)
    (h : beBytes len a = beBytes len b) : a = b :=
  leBytes_inj ha hb (List.reverse_injective h)

theorem Fq_val_lt (x : Fq) : x.val < 256 ^ 32 := lt_trans (ZMod.val_lt x) (by decide +kernel)
theorem Fr_val_lt (x : Fr) : x.val < 256 ^ 32 := lt_trans (ZMod.val_lt x) (by decide +kernel)

theorem ofLE_append (a b : List Byte) : ofLE (a ++ b) = ofLE a + 256 ^ a.length * ofLE b := by
  induction a with
  | nil => simp [ofLE]
  | cons x a ih =>
    simp only [List.cons_append, ofLE, ih, List.length_cons, pow_succ]
    ring

theorem ofBE_append (a b : List Byte) : ofBE (a ++ b) = ofBE b + 256 ^ b.length * ofBE a := by
  simp [ofBE, ofLE_append]

theorem word_lt (w : Word) : w.toNat < 256 ^ 32 := by
  have := w.isLt
  exact lt_of_lt_of_le this (by norm_num)

theorem ofBE_wordBytes (w : Word) : ofBE (Word.bytes w) = w.toNat := by
  rw [Word.bytes, ofBE_beBytes, Nat.mod_eq_of_lt (word_lt w)]

theorem wordBytes_inj {a b : Word} (h : Word.bytes a = Word.bytes b) : a = b := by
  have := congrArg ofBE h
  rw [ofBE_wordBytes, ofBE_wordBytes] at this
  exact BitVec.eq_of_toNat_eq this

/-- Reading 32 bytes through four big-endian 64-bit limbs gives the big-endian number, reduced. -/
theorem fromRaw_fromBeBytes (p : ℕ) (l : List Byte) (hl : l.length = 32) :
    fromRaw p (fromBeBytes l) = ((ofBE l : ℕ) : ZMod p) := by
  have h1 : l = l.take 8 ++ ((l.drop 8).take 8 ++ ((l.drop 16).take 8 ++ (l.drop 24).take 8)) := by
    have e1 : l.drop 8 = (l.drop 8).take 8 ++ l.drop 16 := by
      conv_lhs => rw [← List.take_append_drop 8 (l.drop 8), List.drop_drop]
    have e2 : l.drop 16 = (l.drop 16).take 8 ++ l.drop 24 := by
      conv_lhs => rw [← List.take_append_drop 8 (l.drop 16), List.drop_drop]
    have e3 : (l.drop 24).take 8 = l.drop 24 := List.take_of_length_le (by simp [hl])
    rw [e3, ← e2, ← e1, List.take_append_drop]
  conv_rhs => rw [h1]
  rw [ofBE_append, ofBE_append, ofBE_append]
  simp only [fromRaw, fromBeBytes, List.length_append,
    List.length_take, List.length_drop, hl]
  push_cast
  norm_num
  ring

theorem fromRaw_word (p : ℕ) (w : Word) :
    fromRaw p (fromBeBytes (Word.bytes w)) = ((w.toNat : ℕ) : ZMod p) := by
  rw [fromRaw_fromBeBytes _ _ (length_wordBytes w), ofBE_wordBytes]

end Verif
