import Verif.Lemmas.SolHash
import Verif.Lemmas.Evm
import Verif.Lemmas.Dkg
import Verif.Model.PseudoRand

/-! Helper lemmas about contracts/PseudoRand.sol. -/

namespace Verif
open WeierstrassCurve.Affine

theorem wordBytes_wordOf (x : Fq) : Word.bytes (wordOf x) = beBytes 32 x.val := by
  rw [Word.bytes, toNat_wordOf_q]

theorem pack_eq (g h r1 r2 vk v : G1) :
    PseudoRandSol.pack [encodeG1 g, encodeG1 h, encodeG1 r1, encodeG1 r2, encodeG1 vk, encodeG1 v] =
      transcript g h r1 r2 vk v := by
  simp only [PseudoRandSol.pack, encodeG1, wordBytes_wordOf, transcript, feBytes, beBytes,
    List.reverse_append, List.flatMap_cons, List.flatMap_nil, List.append_assoc, List.append_nil]

theorem length_evalPrefix : (strBytes evalPrefix).length < 2 ^ 64 := by
  have h : (strBytes evalPrefix).length = 33 := by decide +kernel
  rw [h]; norm_num

private theorem ok_of_ok {x : Res G1} {P : G1} (h : x = .ok P) : x = .ok (okOrZero x) := by
  subst h; rfl

theorem evalHash_ok (keccak : Keccak) (m : List Byte) :
    RustHash.hashToCurve keccak (strBytes evalPrefix) m = .ok (evalHash keccak m) := by
  obtain ⟨P, hP⟩ := RustHash.hashToCurve_ok keccak (strBytes evalPrefix) m
  exact ok_of_ok hP

theorem solHash_eq (keccak : Keccak) (m : List Byte) (hm : m.length < 2 ^ 64) :
    SolHash.hashToG1 keccak PseudoRandSol.DOMAIN m = some (encodeG1 (evalHash keccak m)) :=
  SolHash.hashToG1_eq keccak (strBytes evalPrefix) m length_evalPrefix hm (evalHash_ok keccak m)

theorem toNat_R : PseudoRandSol.R.toNat = r := by decide +kernel

theorem scalarMul_encode (P : G1) (s : Word) :
    Pairing.scalarMul (encodeG1 P) s = some (encodeG1 (((s.toNat : ℕ) : Fr) • P)) := by
  unfold Pairing.scalarMul
  rw [ecMul_encode, nat_smul_G1]

theorem word_mod_eq (w c : Word) :
    w % PseudoRandSol.R = c ↔ c.toNat < r ∧ ((c.toNat : ℕ) : Fr) = ((w.toNat : ℕ) : Fr) := by
  constructor
  · intro h
    subst h
    rw [BitVec.toNat_umod, toNat_R]
    exact ⟨Nat.mod_lt _ (Nat.pos_of_ne_zero (by decide +kernel)), ZMod.natCast_mod _ _⟩
  · rintro ⟨h1, h2⟩
    apply BitVec.eq_of_toNat_eq
    rw [BitVec.toNat_umod, toNat_R]
    have := (ZMod.natCast_eq_natCast_iff' _ _ r).1 h2
    rw [Nat.mod_eq_of_lt h1] at this
    exact this.symm

theorem bind_some' {α β : Type} (a : α) (f : α → Evm β) : (some a >>= f) = f a := rfl

/-- Result of the contract's check on encoded points. -/
theorem fast_eq (keccak : Keccak) (H v V : G1) (p : PseudoRandSol.Proof) :
    PseudoRandSol.verifyPartialEvalFast keccak (encodeG1 H) (encodeG1 v) p (encodeG1 V) =
      some (decide (keccak (transcript g1 H
        (((p.z.toNat : ℕ) : Fr) • g1 - ((p.c.toNat : ℕ) : Fr) • V)
        (((p.z.toNat : ℕ) : Fr) • H - ((p.c.toNat : ℕ) : Fr) • v) V v) % PseudoRandSol.R = p.c)) := by
  unfold PseudoRandSol.verifyPartialEvalFast
  dsimp only
  rw [← encode_g1, scalarMul_encode, bind_some', scalarMul_encode, bind_some', negate_encode,
    addition_encode, bind_some', scalarMul_encode, bind_some', scalarMul_encode, bind_some',
    negate_encode, addition_encode, bind_some', pack_eq, ← sub_eq_add_neg, ← sub_eq_add_neg]
  rfl

theorem scalarMul_none {p : SolG1} (h : decodeG1 p = none) (s : Word) :
    Pairing.scalarMul p s = none := by
  unfold Pairing.scalarMul ecMul
  rw [h]; rfl

theorem decode_cases (p : SolG1) : decodeG1 p = none ∨ ∃ P, p = encodeG1 P := by
  cases h : decodeG1 p with
  | none => exact Or.inl rfl
  | some P => exact Or.inr ⟨P, decodeG1_eq_some.1 h⟩

theorem fast_none (keccak : Keccak) (h v V : SolG1) (p : PseudoRandSol.Proof)
    (hn : decodeG1 h = none ∨ decodeG1 v = none ∨ decodeG1 V = none) :
    PseudoRandSol.verifyPartialEvalFast keccak h v p V = none := by
  unfold PseudoRandSol.verifyPartialEvalFast
  dsimp only
  rw [← encode_g1, scalarMul_encode, bind_some']
  rcases decode_cases V with hV | ⟨V, rfl⟩
  · rw [scalarMul_none hV]; rfl
  rw [scalarMul_encode, bind_some', negate_encode, addition_encode, bind_some']
  rcases decode_cases h with hh | ⟨H, rfl⟩
  · rw [scalarMul_none hh]; rfl
  rw [scalarMul_encode, bind_some']
  rcases decode_cases v with hv | ⟨v, rfl⟩
  · rw [scalarMul_none hv]; rfl
  simp only [decode_encode] at hn
  simp at hn

theorem partial_eq_fast (keccak : Keccak) (m : List Byte) (hm : m.length < 2 ^ 64) (sigma vk : SolG1)
    (p : PseudoRandSol.Proof) :
    PseudoRandSol.verifyPartialEval keccak m sigma p vk =
      PseudoRandSol.verifyPartialEvalFast keccak (encodeG1 (evalHash keccak m)) sigma p vk := by
  unfold PseudoRandSol.verifyPartialEval PseudoRandSol.verifyPartialEvalFast
  rw [solHash_eq keccak m hm, bind_some']

end Verif
