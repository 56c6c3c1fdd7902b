import Verif.Lemmas.Halo2Combi
import Verif.Props.Halo2Complete

/-! Property C73: the stand-alone verifier contract with an embedded key. -/

namespace Verif.Props
open Verif Verif.Halo2 Verif.Spec.Halo2

/-- C73. The stand-alone verifier answers every call as the verifier with a separate key contract
does when that contract holds the embedded key; so C59 to C65 apply to it. -/
theorem C73_same_verifier (E : BnPairing) (keccak : Keccak) (sel sel' : List Byte) (hs : sel.length = 4)
    (hs' : sel'.length = 4) (addr : Word) (proof : List Byte) (ins : List Word) :
    Combi.verifyProof E keccak sel proof ins =
      Halo2.verifyProof E keccak Combi.embeddedKey.words sel' addr proof ins := by
  rw [Combi.embedded_words]
  exact Combi.verifyProof_eq E keccak sel sel' hs hs' addr proof ins

/-- C73. The embedded key is well formed, for 49 public inputs and `2 ^ 18` rows, and its last point is minus a
multiple of the generator. -/
theorem C73_embedded_key : Combi.key = Combi.embeddedKey.words ∧ Combi.embeddedKey.Valid ∧
    Combi.embeddedKey.instances = 49 ∧ Combi.embeddedKey.k = 18 ∧ Combi.embeddedKey.g1 = g1 ∧
    Combi.embeddedKey.g2 = g2 ∧ (∀ i, Combi.embeddedKey.fixed i ≠ 0) ∧ (∀ i, Combi.embeddedKey.perm i ≠ 0) ∧
    ∃ s : Fr, Combi.embeddedKey.negSG2 = -smul2 s g2 := by
  refine ⟨Combi.embedded_words.symm, Combi.embedded_valid, rfl, rfl, rfl, rfl,
    fun i => (Combi.fixed_spec i).1, fun i => (Combi.perm_spec i).1, ?_⟩
  obtain ⟨m, hm⟩ := torsion_eq_smul2 Combi.embedded_valid.negSG2
  refine ⟨-m, ?_⟩
  rw [hm, eq_neg_iff_add_eq_zero, ← smul2_add, add_neg_cancel, smul2_zero']

/-- C73. What it accepts is one well-formed proof with 49 reduced inputs; it never answers false. -/
theorem C73_accepted_format (E : BnPairing) (keccak : Keccak) (sel : List Byte) (hs : sel.length = 4)
    (proof : List Byte) (ins : List Word) {b : Bool} (h : Combi.verifyProof E keccak sel proof ins = some b) :
    b = true ∧ proof.length = 4480 ∧ ins.length = 49 ∧ (∀ w ∈ ins, w.toNat < r) ∧
      ∃! π : Proof, π.Finite ∧ proof = π.bytes := by
  rw [C73_same_verifier E keccak sel sel hs hs 0] at h
  exact C59_accepted_format E keccak _ Combi.embedded_valid sel hs 0 proof ins h

/-- C73. It decides the verifier equation of the protocol for the embedded key. -/
theorem C73_verify_iff (E : BnPairing) (keccak : Keccak) (sel : List Byte) (hs : sel.length = 4) (π : Proof)
    (inst : List Fr) (hlen : inst.length = 49) (hfin : π.Finite)
    (hG : (challengesOf keccak Combi.embeddedKey inst π.words).Good Combi.embeddedKey) :
    Combi.verifyProof E keccak sel π.bytes (wordsOf inst) = some true ↔
      Spec.Halo2.Accepts E Combi.embeddedKey (challengesOf keccak Combi.embeddedKey inst π.words) inst π := by
  rw [C73_same_verifier E keccak sel sel hs hs 0]
  exact (C63_verify_iff E keccak _ Combi.embedded_valid sel hs 0 π inst hlen hfin hG).1

/-- C73 (violation). The embedded key is not the key of the separate key contract in the repository, nor from the
same setup: digest, setup point and all fixed and permutation commitments differ. -/
theorem C73_violation_other_key : Combi.embeddedKey.digest ≠ deployedKey.digest ∧
    Combi.embeddedKey.negSG2 ≠ deployedKey.negSG2 ∧
    (∀ i, Combi.embeddedKey.fixed i ≠ deployedKey.fixed i) ∧
    ∀ i, Combi.embeddedKey.perm i ≠ deployedKey.perm i := by
  have hw : ∀ i : Fin 32, Combi.key.getD (21 + 2 * i) 0 ≠ vkWords.getD (21 + 2 * i) 0 := by decide +kernel
  refine ⟨by decide +kernel, ?_, ?_, ?_⟩
  · intro h
    have h1 := Combi.g2Words_negSG2
    rw [show Combi.negSG2 = negSG2 from h, g2Words_negSG2] at h1
    have := (List.cons.inj h1).1
    revert this
    decide +kernel
  · intro i h
    have h1 := (Combi.fixed_spec i).2
    rw [h, (fixed_spec i).2] at h1
    exact hw (Fin.castLE (by decide) i) (List.cons.inj h1).1.symm
  · intro i h
    have h1 := (Combi.perm_spec i).2
    rw [h, (perm_spec i).2] at h1
    have h2 := hw (Fin.natAdd 23 i)
    rw [Fin.val_natAdd, show 21 + 2 * (23 + (i : ℕ)) = 67 + 2 * i by ring] at h2
    exact h2 (List.cons.inj h1).1.symm

/-- The selector of a call has four bytes, and there are inputs that are rejected: too short a proof. -/
example (E : BnPairing) (keccak : Keccak) (ins : List Word) :
    Combi.verifyProof E keccak [1, 2, 3, 4] [5] ins = none := by
  cases h : Combi.verifyProof E keccak [1, 2, 3, 4] [5] ins with
  | none => rfl
  | some b =>
    have := (C73_accepted_format E keccak [1, 2, 3, 4] rfl [5] ins h).2.1
    exact absurd this (by decide)

theorem exChallenges_good_embedded : exChallenges.Good Combi.embeddedKey := by
  have h5 : exChallenges.x = ((5 : ℕ) : Fr) := by decide +kernel
  have h2 : exChallenges.mu = ((2 : ℕ) : Fr) := by decide +kernel
  have hne : ∀ a b : ℕ, a % r ≠ b % r → ((a : ℕ) : Fr) ≠ ((b : ℕ) : Fr) := by
    intro a b h he
    exact h ((ZMod.natCast_eq_natCast_iff' _ _ r).1 he)
  have hn : Combi.embeddedKey.n = 2 ^ 18 := rfl
  refine ⟨?_, ?_, ?_, ?_, ?_, ?_⟩
  · rw [h5, ← Nat.cast_zero]
    exact hne _ _ (by decide +kernel)
  · rw [h5, hn, powMod_fr (c := powMod 5 (2 ^ 18) r) (by decide +kernel) rfl, ← Nat.cast_one]
    exact hne _ _ (by decide +kernel)
  · rw [h5, h2]
    exact hne _ _ (by decide +kernel)
  · rw [h5, h2, show Combi.embeddedKey.omega = ((Combi.keyNat 4 : ℕ) : Fr) from rfl, ← Nat.cast_mul]
    exact hne _ _ (by decide +kernel)
  · rw [h5, h2, Combi.omega_inv, ← Nat.cast_mul]
    exact hne _ _ (by decide +kernel)
  · rw [h5, h2, Combi.omega_inv6, ← Nat.cast_mul]
    exact hne _ _ (by decide +kernel)

theorem embedded_negSG2_ne : Combi.embeddedKey.negSG2 + smul2 2 g2 ≠ 0 := by
  intro h
  have e2 : smul2 2 g2 = g2 + g2 := by
    have h3 : smul2 1 g2 = g2 := by rw [smul2, ZMod.val_one, one_smul]
    exact (congrArg (fun k => smul2 k g2) one_add_one_eq_two.symm).trans
      ((smul2_add 1 1).trans (congrArg₂ (· + ·) h3 h3))
  obtain ⟨c, hc⟩ : ∃ c, dbl2N g2N = some c := Option.isSome_iff_exists.1 (by decide +kernel)
  obtain ⟨hns, hd⟩ := dbl2N_rep g2_rep hc
  have h1 := eq_neg_of_add_eq_zero_left h
  obtain ⟨h', hneg⟩ := shortW_neg_some hns
  rw [e2, hd, hneg, show Combi.embeddedKey.negSG2 = Combi.negSG2 from rfl, Combi.negSG2] at h1
  have hx := (WeierstrassCurve.Affine.Point.some.inj h1).1
  rw [← eq2N_iff] at hx
  have : ∀ c, dbl2N g2N = some c → eq2N Combi.negSG2N.1 c.1 = false := by
    intro c hc
    have : (dbl2N g2N).map (fun c => eq2N Combi.negSG2N.1 c.1) = some false := by decide +kernel
    rw [hc] at this
    exact Option.some.inj this
  rw [this c hc] at hx
  cases hx

/-- There are accepted proofs, too, and well-formed ones that are rejected. -/
example (E : BnPairing) (inst : List Fr) (hl : inst.length = 49) :
    (∃ π : Proof, π.Finite ∧ (challengesOf exHash Combi.embeddedKey inst π.words).Good Combi.embeddedKey ∧
      Combi.verifyProof E exHash [1, 2, 3, 4] π.bytes (wordsOf inst) = some true) ∧
    ∃ π : Proof, π.Finite ∧ Combi.verifyProof E exHash [1, 2, 3, 4] π.bytes (wordsOf inst) = none := by
  obtain ⟨⟨w, w', h1, h2⟩, v, v', h3, h4⟩ := ex_accepts_key E Combi.embeddedKey Combi.embedded_valid rfl rfl rfl
    exChallenges_good_embedded embedded_negSG2_ne inst hl
  rw [← C73_same_verifier E exHash [1, 2, 3, 4] [1, 2, 3, 4] rfl rfl 7] at h2 h4
  exact ⟨⟨_, h1, by rw [exChallenges_eq _ _ _ hl]; exact exChallenges_good_embedded, h2⟩, _, h3, h4⟩

end Verif.Props
