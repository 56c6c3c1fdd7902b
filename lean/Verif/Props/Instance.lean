import Verif.Lemmas.Instance

/-! Properties C13 and C14: the public instance and the limb encoding; the client part of C16. -/

namespace Verif.Props
open Verif WeierstrassCurve.Affine

/-! ### C14 -/

/-- C14. Every coordinate splits into two scalar-field elements whose representatives are its low
136 bits and the remaining high bits (so nothing wraps), and recombining gives it back. -/
theorem C14_limb_encoding (x : Fq) :
    ∃ lo hi : Fr, wrapLimbs (limbsOf x) = [lo, hi] ∧ lo.val = x.val % 2 ^ 136 ∧
      hi.val = x.val / 2 ^ 136 ∧ hi.val < 2 ^ 118 ∧ lo.val + 2 ^ 136 * hi.val = x.val ∧
      joinCoord [lo, hi] = x := by
  refine ⟨_, _, wrap_limbs x, val_lo x, val_hi x, ?_, ?_, join_encCoord x⟩
  · rw [val_hi]
    apply Nat.div_lt_of_lt_mul
    exact lt_trans (ZMod.val_lt x) (by decide +kernel)
  · rw [val_lo, val_hi]
    exact Nat.mod_add_div _ _

/-- C14. The public data of a G1 (G2) point has 4 (8) elements, parses back to the point, and
different points have different public data. -/
theorem C14_points_lossless (ip : Bool) :
    (∀ (P : G1) (d : List Fr), pointToPublic ip P = .ok d →
      d.length = 4 ∧ publicToPoint d = .ok P) ∧
    (∀ (Q : G2) (d : List Fr), point2ToPublic ip Q = .ok d →
      d.length = 8 ∧ publicToPoint2 d = .ok Q) ∧
    (∀ (P P' : G1) (d : List Fr), pointToPublic ip P = .ok d → pointToPublic ip P' = .ok d →
      P = P') ∧
    (∀ (Q Q' : G2) (d : List Fr), point2ToPublic ip Q = .ok d → point2ToPublic ip Q' = .ok d →
      Q = Q') := by
  have h1 : ∀ (P : G1) (d : List Fr), pointToPublic ip P = .ok d → d = enc1 P := by
    intro P d h
    rw [pointToPublic_eq] at h
    split at h
    · cases h
    · exact (Except.ok.inj h).symm
  have h2 : ∀ (Q : G2) (d : List Fr), point2ToPublic ip Q = .ok d → d = enc2 Q := by
    intro P d h
    rw [point2ToPublic_eq] at h
    split at h
    · cases h
    · exact (Except.ok.inj h).symm
  refine ⟨?_, ?_, ?_, ?_⟩
  · intro P d h
    rw [h1 P d h]
    exact ⟨rfl, publicToPoint_enc1 P⟩
  · intro P d h
    rw [h2 P d h]
    exact ⟨rfl, publicToPoint2_enc2 P⟩
  · intro P P' d h h'
    have e := (h1 P d h).symm.trans (h1 P' d h')
    have := publicToPoint_enc1 P
    rw [e, publicToPoint_enc1] at this
    exact (Except.ok.inj this).symm
  · intro P P' d h h'
    have e := (h2 P d h).symm.trans (h2 P' d h')
    have := publicToPoint2_enc2 P
    rw [e, publicToPoint2_enc2] at this
    exact (Except.ok.inj this).symm

/-- Finite points are always encoded. -/
example (ip : Bool) : ∃ d d', pointToPublic ip g1 = .ok d ∧ point2ToPublic ip g2 = .ok d' := by
  refine ⟨enc1 g1, enc2 g2, ?_, ?_⟩
  · rw [pointToPublic_eq, if_neg (fun h => g1_ne_zero h.2)]
  · rw [point2ToPublic_eq, if_neg (fun h => g2_ne_zero h.2)]

/-! ### C13 -/

/-- C13. For parameters with `n` shares, `n` ciphers and `n` keys: the instance is produced (for
certain if the BN254 points are finite), has length `7n + 14`, which is the configured instance
size, and parsing it returns exactly the parameters and the keys. -/
theorem C13_instance_round_trip (ip : Bool) (t n : ℕ) (pp : DkgMemberPublicParams) (pks : List Gk)
    (hs : pp.publicShares.length = n) (hc : pp.ciphers.length = n) (hp : pks.length = n) :
    (pp.ga ≠ 0 → (∀ P ∈ pp.publicShares, P ≠ 0) → pp.g2a ≠ 0 → ∃ ins, pp.toInstance ip pks = .ok ins) ∧
    ∀ ins, pp.toInstance ip pks = .ok ins →
      ins.length = 7 * n + 14 ∧ ins.length = (DkgConfig.mk t n).instanceSize ∧
      fromInstance ⟨t, n⟩ ins = .ok (pp, pks) := by
  have h := toInstance_eq ip pp pks (by omega)
  constructor
  · intro h1 h2 h3
    refine ⟨encParams pp pks, ?_⟩
    rw [h, if_neg]
    rintro ⟨_, h4 | h4 | h4⟩
    · exact h1 h4
    · exact h2 0 h4 rfl
    · exact h3 h4
  · intro ins hins
    rw [h] at hins
    split at hins
    · cases hins
    · cases hins
      have hlen : (encParams pp pks).length = 7 * n + 14 := by
        simp only [encParams, List.length_append, length_enc1, length_enc2,
          length_flatMap_const enc1 4 (fun _ => rfl), length_flatMap_const encGk 2 (fun _ => rfl),
          hs, hp, hc, encGk, List.length_cons, List.length_nil]
        omega
      exact ⟨hlen, by rw [hlen]; rfl, fromInstance_encParams t n pp pks hs hc hp⟩

/-- C13. Instances of any other length make the parser panic. -/
theorem C13_wrong_length_panics (t n : ℕ) (ins : List Fr) (h : ins.length ≠ 7 * n + 14) :
    fromInstance ⟨t, n⟩ ins = .error .panic := by
  unfold fromInstance
  rw [if_pos (by simp only [DkgConfig.instanceSize]; omega)]
  rfl

/-- C13. Parameters and keys are determined by their instance. -/
theorem C13_instance_injective (ip ip' : Bool) (n : ℕ) (pp pp' : DkgMemberPublicParams)
    (pks pks' : List Gk)
    (hs : pp.publicShares.length = n) (hc : pp.ciphers.length = n) (hp : pks.length = n)
    (hs' : pp'.publicShares.length = n) (hc' : pp'.ciphers.length = n) (hp' : pks'.length = n)
    (ins : List Fr) (h : pp.toInstance ip pks = .ok ins) (h' : pp'.toInstance ip' pks' = .ok ins) :
    pp = pp' ∧ pks = pks' := by
  have h1 := ((C13_instance_round_trip ip 0 n pp pks hs hc hp).2 ins h).2.2
  have h2 := ((C13_instance_round_trip ip' 0 n pp' pks' hs' hc' hp').2 ins h').2.2
  have := Except.ok.inj (h1.symm.trans h2)
  exact ⟨congrArg Prod.fst this, congrArg Prod.snd this⟩

/-- Parameters with finite points exist for `n = 2`. -/
example : ∃ (pp : DkgMemberPublicParams) (pks : List Gk), pp.publicShares.length = 2 ∧
    pp.ciphers.length = 2 ∧ pks.length = 2 ∧ pp.ga ≠ 0 ∧ (∀ P ∈ pp.publicShares, P ≠ 0) ∧
    pp.g2a ≠ 0 :=
  ⟨⟨[g1, g1], [5, 6], gk, g1, g2⟩, [gk, 0], rfl, rfl, rfl, g1_ne_zero, by simp [g1_ne_zero],
    g2_ne_zero⟩

/-! ### C16, client side -/

/-- C16 (client side). The keys the client reads from the end of an instance are the keys the
library put there. -/
theorem C16_client_reads_keys (ip : Bool) (t n : ℕ) (pp : DkgMemberPublicParams) (pks : List Gk)
    (hs : pp.publicShares.length = n) (hc : pp.ciphers.length = n) (hp : pks.length = n)
    (ins : List Fr) (h : pp.toInstance ip pks = .ok ins) :
    clientPublicKeys ⟨t, n⟩ ins = .ok pks := by
  rw [toInstance_eq ip pp pks (by omega)] at h
  split at h
  · cases h
  · cases h
    exact clientPublicKeys_encParams t n pp pks hs hc hp

end Verif.Props
