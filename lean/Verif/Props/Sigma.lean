import Verif.Props.Dkg

/-! Property C72 and the counting part of C06: how many hash values can make a wrong evaluation verify, and
what a correct evaluation reveals. -/

namespace Verif.Props
open Verif

/-- At most six 256-bit words have the same residue modulo `r`. -/
theorem words_with_residue (P : Word → Prop)
    (hP : ∀ w w', P w → P w' → ((w.toNat : ℕ) : Fr) = ((w'.toNat : ℕ) : Fr)) :
    Nat.card {w : Word // P w} ≤ 6 := by
  have hinj : Function.Injective
      (fun w : {w : Word // P w} => (⟨w.1.toNat / r, by
        have := w.1.isLt
        rw [Nat.div_lt_iff_lt_mul (by decide +kernel : 0 < r)]
        exact this.trans (by decide +kernel)⟩ : Fin 6)) := by
    rintro ⟨w, hw⟩ ⟨w', hw'⟩ h
    have h := congrArg Fin.val h
    dsimp only at h
    have hm : w.toNat % r = w'.toNat % r := (ZMod.natCast_eq_natCast_iff' _ _ r).1 (hP w w' hw hw')
    apply Subtype.ext
    apply BitVec.eq_of_toNat_eq
    rw [← Nat.div_add_mod w.toNat r, ← Nat.div_add_mod w'.toNat r, h, hm]
  have := Nat.card_le_card_of_injective _ hinj
  rwa [Nat.card_fin] at this

/-- C06 (count). If value and verification key do not share a secret, then for each pair of commitments
at most 6 of the `2 ^ 256` values of the hash can be completed to an accepted proof. -/
theorem C06_few_hash_values (h vk v : G1) (hfalse : ¬ Spec.SameLog h vk v) (r1 r2 : G1) :
    Nat.card {w : Word // ∃ z, Spec.Accepts h vk v r1 r2 ((w.toNat : ℕ) : Fr) z} ≤ 6 := by
  apply words_with_residue
  rintro w w' ⟨z, hz⟩ ⟨z', hz'⟩
  by_contra hne
  exact hfalse ⟨_, C06_special_soundness h vk v _ _ _ _ _ _ hne hz hz'⟩

/-- C72 (simulation). Let the key's verification key belong to its secret. A simulator that knows the
verification key and the value `sk · H(input)` but not `sk`, picks the hash word `w` and the response `z` and
sets the hash of the resulting transcript to `w`, produces exactly the honest evaluations: for every `w`
there is a bijection between its responses and the nonces such that the key with this nonce, under
the hash so programmed, queries this transcript and returns this proof. -/
theorem C72_simulation (keccak : Keccak) (h2c : List Byte → G1) (k : DkgShareKey)
    (hk : k.vk = k.sk • g1) (input : List Byte) (w : Word) :
    ∃ nonce : Fr ≃ Fr, ∀ z : Fr,
      let h := h2c input
      let v := k.sk • h
      let c : Fr := ((w.toNat : ℕ) : Fr)
      let query := transcript g1 h (z • g1 - c • k.vk) (z • h - c • v) k.vk v
      transcript g1 h (nonce z • g1) (nonce z • h) k.vk v = query ∧
      k.evaluate (Function.update keccak query w) h2c input (nonce z) = ⟨k.index, v, ⟨z, c⟩⟩ := by
  refine ⟨Equiv.subRight (((w.toNat : ℕ) : Fr) * k.sk), ?_⟩
  intro z
  obtain ⟨c, hc⟩ : ∃ c : Fr, c = ((w.toNat : ℕ) : Fr) := ⟨_, rfl⟩
  have e : ∀ B : G1, (z - c * k.sk) • B = z • B - c • (k.sk • B) := by
    intro B
    rw [sub_smul, mul_smul]
  dsimp only
  rw [← hc]
  have e1 : transcript g1 (h2c input) ((z - c * k.sk) • g1) ((z - c * k.sk) • h2c input) k.vk
      (k.sk • h2c input) = transcript g1 (h2c input) (z • g1 - c • k.vk)
        (z • h2c input - c • (k.sk • h2c input)) k.vk (k.sk • h2c input) := by
    rw [e, e, ← hk]
  refine ⟨e1, ?_⟩
  unfold DkgShareKey.evaluate
  dsimp only
  rw [Equiv.subRight_apply]
  rw [challenge_eq, e1, Function.update_self, ← hc]
  have e2 : c * k.sk + (z - c * k.sk) = z := add_sub_cancel _ _
  rw [e2]

/-- C72 (nonce reuse). Two evaluations of a key with the same nonce and different challenges reveal the
secret. -/
theorem C72_nonce_reuse (keccak : Keccak) (h2c : List Byte → G1) (k : DkgShareKey)
    (input input' : List Byte) (nonce : Fr) (p p' : PartialEvalProof)
    (hp : p = (k.evaluate keccak h2c input nonce).proof)
    (hp' : p' = (k.evaluate keccak h2c input' nonce).proof) (hne : p.c ≠ p'.c) :
    k.sk = (p.z - p'.z) / (p.c - p'.c) := by
  have h1 : p.z = p.c * k.sk + nonce := by rw [hp]; rfl
  have h2 : p'.z = p'.c * k.sk + nonce := by rw [hp']; rfl
  rw [eq_div_iff (sub_ne_zero.2 hne), h1, h2]
  generalize p.c = a
  generalize p'.c = b
  ring

/-- A key as in the theorems, and a wrong value for the count. -/
example : (⟨1, 5, (5 : Fr) • g1⟩ : DkgShareKey).vk = (⟨1, 5, (5 : Fr) • g1⟩ : DkgShareKey).sk • g1 ∧
    ∀ r1 r2, Nat.card {w : Word // ∃ z, Spec.Accepts g1 g1 ((2 : Fr) • g1) r1 r2 ((w.toNat : ℕ) : Fr) z} ≤ 6 := by
  refine ⟨rfl, C06_few_hash_values _ _ _ ?_⟩
  rintro ⟨sk, h1, h2⟩
  have e1 : (1 : Fr) = sk := smul_g1_inj (by rw [one_smul]; exact h1)
  have e2 := smul_g1_inj h2
  rw [← e1] at e2
  have : (1 : Fr) = 0 := by linear_combination e2
  exact one_ne_zero this

end Verif.Props
