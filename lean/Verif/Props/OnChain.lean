import Verif.Lemmas.OnChain
import Verif.Props.Dkg

/-! Properties C21, C22, C23 (challenge transcript) and C51: the contract's checks against the
library's. -/

namespace Verif.Props
open Verif WeierstrassCurve.Affine

/-! ### C23, challenge transcript -/

private theorem beq_inj {x y : Fq} (h : beBytes 32 x.val = beBytes 32 y.val) : x = y :=
  ZMod.val_injective _ (beBytes_inj (Fq_val_lt x) (Fq_val_lt y) h)

private theorem pt_inj {P Q : G1} {a b : List Byte}
    (h : beBytes 32 (coords P).1.val ++ (beBytes 32 (coords P).2.val ++ a) =
      beBytes 32 (coords Q).1.val ++ (beBytes 32 (coords Q).2.val ++ b)) : P = Q ∧ a = b := by
  have h1 := List.append_inj h (by simp)
  have h2 := List.append_inj h1.2 (by simp)
  refine ⟨?_, h2.2⟩
  apply encodeG1_inj
  rw [encodeG1, encodeG1, beq_inj h1.1, beq_inj h2.1]

private theorem transcript_be (g h r1 r2 vk v : G1) :
    transcript g h r1 r2 vk v = [g, h, r1, r2, vk, v].flatMap
      (fun P => beBytes 32 (coords P).1.val ++ beBytes 32 (coords P).2.val) := by
  simp only [transcript, feBytes, beBytes, List.reverse_append, List.flatMap_cons,
    List.flatMap_nil, List.append_assoc, List.append_nil]

/-- C23. The byte string hashed into the challenge by the library is, for every six points, the
concatenation of their big-endian coordinates, it is the string the contract hashes, and it
determines the six points. -/
theorem C23_transcript (g h r1 r2 vk v g' h' r1' r2' vk' v' : G1) :
    transcript g h r1 r2 vk v = [g, h, r1, r2, vk, v].flatMap
      (fun P => beBytes 32 (coords P).1.val ++ beBytes 32 (coords P).2.val) ∧
    PseudoRandSol.pack [encodeG1 g, encodeG1 h, encodeG1 r1, encodeG1 r2, encodeG1 vk,
      encodeG1 v] = transcript g h r1 r2 vk v ∧
    (transcript g h r1 r2 vk v = transcript g' h' r1' r2' vk' v' →
      g = g' ∧ h = h' ∧ r1 = r1' ∧ r2 = r2' ∧ vk = vk' ∧ v = v') := by
  refine ⟨transcript_be .., pack_eq .., ?_⟩
  intro e
  rw [transcript_be, transcript_be] at e
  simp only [List.flatMap_cons, List.append_assoc] at e
  obtain ⟨e1, e⟩ := pt_inj e
  obtain ⟨e2, e⟩ := pt_inj e
  obtain ⟨e3, e⟩ := pt_inj e
  obtain ⟨e4, e⟩ := pt_inj e
  obtain ⟨e5, e⟩ := pt_inj e
  obtain ⟨e6, e⟩ := pt_inj e
  exact ⟨e1, e2, e3, e4, e5, e6⟩

/-- Exchanging verification key and value changes the transcript. -/
example : transcript g1 g1 g1 g1 g1 (0 : G1) ≠ transcript g1 g1 g1 g1 0 g1 := fun h =>
  g1_ne_zero ((C23_transcript _ _ _ _ _ _ _ _ _ _ _ _).2.2 h).2.2.2.2.1

/-! ### C21 -/

private theorem accept_iff (keccak : Keccak) (H v V : G1) (p : PseudoRandSol.Proof)
    (h2c : List Byte → G1) (cfg : DkgConfig) (i : ℕ) (hi : 1 ≤ i ∧ i ≤ cfg.numberOfMembers)
    (m : List Byte) (hH : h2c m = H) :
    PseudoRandSol.verifyPartialEvalFast keccak (encodeG1 H) (encodeG1 v) p (encodeG1 V) =
        some true ↔
      p.c.toNat < r ∧ (PartialEval.mk i v ⟨((p.z.toNat : ℕ) : Fr), ((p.c.toNat : ℕ) : Fr)⟩).verify
        keccak h2c cfg m V = .ok () := by
  subst hH
  rw [fast_eq, verify_ok_iff, Option.some.injEq, decide_eq_true_eq, word_mod_eq, challenge_eq]
  exact ⟨fun h => ⟨h.1, hi, h.2⟩, fun h => ⟨h.1, h.2.2⟩⟩

/-- C21. The contract's check returns true exactly when the words denote points of the curve, the
challenge word is reduced, and the library accepts the partial evaluation (under any index in
range) with response and challenge read modulo the group order. -/
theorem C21_verifyPartialEval_iff (keccak : Keccak) (m : List Byte) (hm : m.length < 2 ^ 64)
    (sigma vk : SolG1) (p : PseudoRandSol.Proof) (cfg : DkgConfig) (i : ℕ) (hi : 1 ≤ i)
    (hn : i ≤ cfg.numberOfMembers) :
    PseudoRandSol.verifyPartialEval keccak m sigma p vk = some true ↔
      ∃ v V : G1, decodeG1 sigma = some v ∧ decodeG1 vk = some V ∧ p.c.toNat < r ∧
        (PartialEval.mk i v ⟨((p.z.toNat : ℕ) : Fr), ((p.c.toNat : ℕ) : Fr)⟩).verify
          keccak (evalHash keccak) cfg m V = .ok () := by
  rw [partial_eq_fast keccak m hm]
  constructor
  · intro h
    rcases decode_cases sigma with hs | ⟨v, rfl⟩
    · rw [fast_none _ _ _ _ _ (Or.inr (Or.inl hs))] at h; cases h
    rcases decode_cases vk with hv | ⟨V, rfl⟩
    · rw [fast_none _ _ _ _ _ (Or.inr (Or.inr hv))] at h; cases h
    exact ⟨v, V, decode_encode v, decode_encode V,
      (accept_iff keccak _ v V p (evalHash keccak) cfg i ⟨hi, hn⟩ m rfl).1 h⟩
  · rintro ⟨v, V, hs, hv, h⟩
    rw [decodeG1_eq_some.1 hs, decodeG1_eq_some.1 hv]
    exact (accept_iff keccak _ v V p (evalHash keccak) cfg i ⟨hi, hn⟩ m rfl).2 h

/-- C21. The check of the other contract, given the precomputed hash point, returns the same. It
reverts exactly when some word pair is not a point. -/
theorem C21_fast_variant (keccak : Keccak) (m : List Byte) (hm : m.length < 2 ^ 64)
    (sigma vk : SolG1) (p : PseudoRandSol.Proof) :
    (∃ h, PseudoRandSol.hashToG1 keccak m = some h ∧
      PseudoRandSol.verifyPartialEvalFast keccak h sigma p vk =
        PseudoRandSol.verifyPartialEval keccak m sigma p vk) ∧
    (PseudoRandSol.verifyPartialEval keccak m sigma p vk = none ↔
      decodeG1 sigma = none ∨ decodeG1 vk = none) := by
  refine ⟨⟨_, solHash_eq keccak m hm, (partial_eq_fast keccak m hm sigma vk p).symm⟩, ?_⟩
  rw [partial_eq_fast keccak m hm]
  constructor
  · intro h
    by_contra hc
    rw [not_or] at hc
    rcases decode_cases sigma with hs | ⟨v, rfl⟩
    · exact hc.1 hs
    rcases decode_cases vk with hv | ⟨V, rfl⟩
    · exact hc.2 hv
    rw [fast_eq] at h
    cases h
  · rintro h
    exact fast_none _ _ _ _ _ (Or.inr h)

/-- C21. What an honest member computes with the library passes the contract's check under the
words of its verification key, for every input, key and nonce. -/
theorem C21_honest_accepted (keccak : Keccak) (m : List Byte) (hm : m.length < 2 ^ 64)
    (sk nonce : Fr) (index : ℕ) :
    let pe := DkgShareKey.evaluate keccak (evalHash keccak) ⟨index, sk, sk • g1⟩ m nonce
    PseudoRandSol.verifyPartialEval keccak m (encodeG1 pe.value)
      ⟨BitVec.ofNat 256 pe.proof.z.val, BitVec.ofNat 256 pe.proof.c.val⟩ (encodeG1 (sk • g1)) =
        some true := by
  intro pe
  have key := C21_verifyPartialEval_iff keccak m hm (encodeG1 pe.value) (encodeG1 (sk • g1))
    ⟨wordOf pe.proof.z, wordOf pe.proof.c⟩ ⟨1, 1⟩ 1 le_rfl le_rfl
  refine key.2 ⟨pe.value, sk • g1, decode_encode _, decode_encode _, wordOf_lt_r _, ?_⟩
  dsimp only
  rw [cast_wordOf_r, cast_wordOf_r]
  exact evaluate_verifies keccak (evalHash keccak) ⟨1, 1⟩ ⟨1, sk, sk • g1⟩ rfl le_rfl le_rfl m nonce

/-! ### C22 -/

private theorem prod2_none (E : BnPairing) (a b : SolG1) (q1 q2 : SolG2) (h : decodeG1 b = none) :
    Pairing.pairingProd2 E a q1 b q2 = none := by
  unfold Pairing.pairingProd2 Pairing.pairing ecPairing
  have h' : decodeG1 ⟨b.x, b.y⟩ = none := h
  simp only [List.length_cons, List.length_nil, List.zipWith_cons_cons, List.zipWith_nil_left,
    List.mapM_cons, List.mapM_nil, h', require]
  cases decodeG1 ⟨a.x, a.y⟩ <;> cases decodeG2Words q1.x1 q1.x0 q1.y1 q1.y0 <;> simp

private theorem verifyRand_iff (E : BnPairing) (H : G1) (sigma : SolG1) (gpk : SolG2) :
    Pairing.pairingProd2 E (Pairing.negate (encodeG1 H)) gpk sigma Pairing.P2 = some true ↔
      ∃ (S : G1) (Q : G2), decodeG1 sigma = some S ∧ decodeG2 gpk = some Q ∧
        E.check2 (-H) Q S g2 = true := by
  rw [negate_encode]
  constructor
  · intro h
    rcases decode_cases sigma with hs | ⟨S, rfl⟩
    · rw [prod2_none _ _ _ _ _ hs] at h; cases h
    cases hq : decodeG2 gpk with
    | none => rw [pairingProd2_none_left _ _ _ hq] at h; cases h
    | some Q =>
      rw [pairingProd2_eq E _ _ hq decode_P2, Option.some.injEq] at h
      exact ⟨S, Q, decode_encode S, rfl, h⟩
  · rintro ⟨S, Q, hs, hq, h⟩
    rw [decodeG1_eq_some.1 hs, pairingProd2_eq E _ _ hq decode_P2, h]

/-- C22. The two conditions of `submitRandom` (pairing check, and value equal to the hash of the
proof's words) hold exactly when proof and key denote points of the prime-order groups and the
library's verifier accepts the proof and the value for the same input and key. -/
theorem C22_pseudorandom_iff (E : BnPairing) (keccak : Keccak) (m : List Byte)
    (hm : m.length < 2 ^ 64) (proof : SolG1) (value : Word) (gpk : SolG2) :
    (PseudoRandSol.verifyPseudoRand E keccak m proof gpk = some true ∧
      keccak (Word.bytes proof.x ++ Word.bytes proof.y) = value) ↔
    ∃ (S : G1) (Q : G2), decodeG1 proof = some S ∧ decodeG2 gpk = some Q ∧
      (PseudoRandom.mk S (Word.bytes value)).verify E keccak (evalHash keccak) m Q = .ok () := by
  have hval : ∀ S : G1, proof = encodeG1 S →
      (keccak (Word.bytes proof.x ++ Word.bytes proof.y) = value ↔
        Word.bytes value = hashPoint keccak S) := by
    rintro S rfl
    rw [hashPoint_eq, encodeG1]
    dsimp only
    rw [wordBytes_wordOf, wordBytes_wordOf]
    exact ⟨fun h => by rw [h], fun h => (wordBytes_inj h).symm⟩
  have hrust : ∀ (S : G1) (Q : G2),
      (PseudoRandom.mk S (Word.bytes value)).verify E keccak (evalHash keccak) m Q = .ok () ↔
        E.check2 (-(evalHash keccak m)) Q S g2 = true ∧ Word.bytes value = hashPoint keccak S := by
    intro S Q
    unfold PseudoRandom.verify
    dsimp only
    by_cases h1 : E.check2 (-(evalHash keccak m)) Q S g2 = true <;>
      by_cases h2 : Word.bytes value = hashPoint keccak S <;> simp [h1, h2]
  unfold PseudoRandSol.verifyPseudoRand
  rw [solHash_eq keccak m hm, bind_some', verifyRand_iff]
  constructor
  · rintro ⟨⟨S, Q, hs, hq, hc⟩, hv⟩
    exact ⟨S, Q, hs, hq, (hrust S Q).2 ⟨hc, (hval S (decodeG1_eq_some.1 hs)).1 hv⟩⟩
  · rintro ⟨S, Q, hs, hq, h⟩
    have h' := (hrust S Q).1 h
    exact ⟨⟨S, Q, hs, hq, h'.1⟩, (hval S (decodeG1_eq_some.1 hs)).2 h'.2⟩

/-- C22. The other contract's check, given the precomputed hash point, returns the same. -/
theorem C22_fast_variant (E : BnPairing) (keccak : Keccak) (m : List Byte) (hm : m.length < 2 ^ 64)
    (proof : SolG1) (gpk : SolG2) :
    ∃ h, PseudoRandSol.hashToG1 keccak m = some h ∧
      PseudoRandSol.verifyPseudoRandFast E h proof gpk =
        PseudoRandSol.verifyPseudoRand E keccak m proof gpk := by
  refine ⟨_, solHash_eq keccak m hm, ?_⟩
  unfold PseudoRandSol.verifyPseudoRand
  rw [solHash_eq keccak m hm, bind_some']
  rfl

/-- C22. On-chain uniqueness: under a stored key of exponent `k` the contract accepts, for an
input, exactly the words of the point `k·H(input)`; so all accepted proofs for an input are equal
word for word. -/
theorem C22_unique (E : BnPairing) (keccak : Keccak) (m : List Byte) (hm : m.length < 2 ^ 64)
    (proof : SolG1) (k : Fr) :
    PseudoRandSol.verifyPseudoRand E keccak m proof (encodeG2 (smul2 k g2)) = some true ↔
      proof = encodeG1 (k • evalHash keccak m) := by
  unfold PseudoRandSol.verifyPseudoRand
  rw [solHash_eq keccak m hm, bind_some', verifyRand_iff]
  have hd : decodeG2 (encodeG2 (smul2 k g2)) = some (smul2 k g2) := by
    rw [decodeG2_encode, if_pos (smul2_torsion k)]
  constructor
  · rintro ⟨S, Q, hs, hq, hc⟩
    rw [hd, Option.some.injEq] at hq
    subst hq
    rw [decodeG1_eq_some.1 hs, (E.check2_iff _ _ _).1 hc]
  · rintro rfl
    exact ⟨_, _, decode_encode _, hd, (E.check2_iff _ _ _).2 rfl⟩

/-- Accepted and rejected proofs both exist: under key `g2` the hash point itself is accepted, and
its negative is not (unless the hash is infinity). -/
example (keccak : Keccak) (h : evalHash keccak [1] ≠ 0) :
    PseudoRandSol.verifyPseudoRand toyPairing keccak [1] (encodeG1 ((1 : Fr) • evalHash keccak [1]))
      (encodeG2 (smul2 1 g2)) = some true ∧
    PseudoRandSol.verifyPseudoRand toyPairing keccak [1] (encodeG1 0)
      (encodeG2 (smul2 1 g2)) ≠ some true := by
  refine ⟨(C22_unique _ _ _ (by simp) _ _).2 rfl, fun hc => ?_⟩
  have := encodeG1_inj ((C22_unique _ _ _ (by simp) _ _).1 hc)
  rw [one_smul] at this
  exact h this.symm

/-! ### C51 -/

private theorem gk_r : GrumpkinSol.r.toNat = r := by decide +kernel
private theorem gk_r_ne : GrumpkinSol.r ≠ 0 := by decide +kernel
private theorem gk_17 : (17 : Word).toNat = 17 := by decide +kernel

/-- C51. The key check of `registerNode` accepts exactly the word pairs whose residues modulo the
scalar field satisfy `y² = x³ - 17`. -/
theorem C51_isOnCurve_iff (a : GrumpkinSol.Point) :
    GrumpkinSol.isOnCurve a = true ↔
      ((a.y.toNat : ℕ) : Fr) ^ 2 = ((a.x.toNat : ℕ) : Fr) ^ 3 - 17 := by
  unfold GrumpkinSol.isOnCurve
  dsimp only
  rw [decide_eq_true_eq, ← BitVec.toNat_inj, ModExp.toNat_addmod gk_r_ne,
    ModExp.toNat_mulmod gk_r_ne, ModExp.toNat_mulmod gk_r_ne, ModExp.toNat_mulmod gk_r_ne, gk_r,
    gk_17]
  have : (((a.y.toNat * a.y.toNat % r + 17 : ℕ) : Fr) = ((a.x.toNat * (a.x.toNat * a.x.toNat % r) : ℕ) : Fr)) ↔
      ((a.y.toNat : ℕ) : Fr) ^ 2 = ((a.x.toNat : ℕ) : Fr) ^ 3 - 17 := by
    rw [Nat.cast_add, Nat.cast_mul a.x.toNat, ZMod.natCast_mod, ZMod.natCast_mod, Nat.cast_mul,
      Nat.cast_mul, eq_sub_iff_add_eq, sq, pow_succ', sq]
    simp
  rw [← this, ZMod.natCast_eq_natCast_iff']

/-- C51. For canonical coordinates the accepted pairs are exactly the coordinates of the finite
Grumpkin points. -/
theorem C51_canonical (a : GrumpkinSol.Point) (hx : a.x.toNat < r) (hy : a.y.toNat < r) :
    GrumpkinSol.isOnCurve a = true ↔
      ∃ P : Gk, P ≠ 0 ∧ a.x = wordOf (coords P).1 ∧ a.y = wordOf (coords P).2 := by
  rw [C51_isOnCurve_iff]
  constructor
  · intro h
    refine ⟨.some ((a.x.toNat : ℕ) : Fr) ((a.y.toNat : ℕ) : Fr)
      ((gk_nonsingular_iff _ _).2 (by rw [h]; ring)), Point.some_ne_zero _, ?_, ?_⟩
    · exact (wordOf_of_lt_r hx).symm
    · exact (wordOf_of_lt_r hy).symm
  · rintro ⟨P, hP, h1, h2⟩
    rw [h1, h2, cast_wordOf_r, cast_wordOf_r]
    match P, hP with
    | .some x y h, _ =>
      have := (gk_nonsingular_iff x y).1 h
      change y ^ 2 = x ^ 3 - 17
      rw [this]; ring

/-- C51. The check also accepts a non-canonical pair: here the abscissa is `1 + r`, which no
element of a public instance can equal. -/
theorem C51_accepts_noncanonical :
    ∃ a : GrumpkinSol.Point, GrumpkinSol.isOnCurve a = true ∧ ∀ x : Fr, wordOf x ≠ a.x := by
  refine ⟨⟨BitVec.ofNat 256 (1 + r), wordOf (coords gk).2⟩, by decide +kernel, ?_⟩
  intro x h
  have := wordOf_lt_r x
  rw [h] at this
  revert this
  decide +kernel

/-- The generator passes the check; a point off the curve does not. -/
example : GrumpkinSol.isOnCurve ⟨wordOf (coords gk).1, wordOf (coords gk).2⟩ = true ∧
    GrumpkinSol.isOnCurve ⟨1, 1⟩ = false := by decide +kernel

end Verif.Props
