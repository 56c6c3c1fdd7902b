import Verif.Lemmas.Evm
import Verif.Lemmas.Zkdvrf

/-! What success of `createGpp` says about the key, for arbitrary submitted words. -/

namespace Verif
open WeierstrassCurve.Affine

theorem addition_some {a b c : SolG1} (h : Pairing.addition a b = some c) :
    ∃ P : G1, c = encodeG1 P := by
  unfold Pairing.addition ecAdd at h
  cases ha : decodeG1 a with
  | none => rw [ha] at h; cases h
  | some A =>
    cases hb : decodeG1 b with
    | none => rw [ha, hb] at h; cases h
    | some B =>
      rw [ha, hb] at h
      exact ⟨A + B, (Option.some.inj h).symm⟩

theorem sumAt_some {inst : List (List Word)} {b e : ℕ} {p : SolG1}
    (h : Gpp.sumAt inst b e = some p) : ∃ P : G1, p = encodeG1 P := by
  have key : ∀ (l : List (List Word)) (acc : SolG1) (p : SolG1), (∃ P : G1, acc = encodeG1 P) →
      l.foldlM (sumStep b e) acc = some p → ∃ P : G1, p = encodeG1 P := by
    intro l
    induction l with
    | nil =>
      intro acc p h0 h
      rw [List.foldlM_nil] at h
      rw [← Option.some.inj h]; exact h0
    | cons v l ih =>
      intro acc p h0 h
      rw [List.foldlM_cons, g1_bind] at h
      obtain ⟨c, hc, h⟩ := h
      refine ih c p ?_ h
      unfold sumStep at hc
      rw [opt_bind] at hc
      obtain ⟨sl, _, hc⟩ := hc
      rw [g1_bind] at hc
      obtain ⟨pt, _, hc⟩ := hc
      exact addition_some hc
  exact key inst ⟨0, 0⟩ p ⟨0, encode_zero.symm⟩ h

theorem vkLoop_some (inst : List (List Word)) : ∀ (k b e : ℕ) (vks : List SolG1),
    Gpp.vkLoop inst k b e = some vks → vks.length = k ∧ ∀ v ∈ vks, ∃ P : G1, v = encodeG1 P
  | 0, b, e, vks, h => by
    unfold Gpp.vkLoop at h
    rw [← Option.some.inj h]
    exact ⟨rfl, by intro v hv; cases hv⟩
  | k + 1, b, e, vks, h => by
    unfold Gpp.vkLoop at h
    rw [g1_bind] at h
    obtain ⟨vk, h1, h⟩ := h
    rw [u32_bind] at h
    obtain ⟨_, h⟩ := h
    rw [opt_bind] at h
    obtain ⟨rest, h2, h⟩ := h
    have := vkLoop_some inst k _ _ rest h2
    rw [← Option.some.inj h]
    refine ⟨by simp [this.1], ?_⟩
    intro v hv
    rcases List.mem_cons.1 hv with rfl | hv
    · exact sumAt_some h1
    · exact this.2 v hv

theorem check2_key (E : BnPairing) (a k : Fr) :
    E.check2 (a • g1) g2 (-g1) (smul2 k g2) = true ↔ a = k := by
  have hc := E.check2_iff g1 (a • g1) k
  unfold BnPairing.check2 at hc ⊢
  rw [add_comm] at hc
  rw [hc]
  constructor
  · intro h; exact smul_g1_inj h
  · rintro rfl; rfl

/-- A successful `createGpp` fixes the key: it is the G2 encoding of the exponent of the sum of the
first points of the submissions. -/
theorem createGpp_key {E : BnPairing} {n : ℕ} {gpk : SolG2} {inst : List (List Word)}
    {out : SolG2 × List SolG1} (h : Gpp.createGpp E n gpk inst = some out) :
    ∃ a : Fr, Gpp.sumAt inst 0 4 = some (encodeG1 (a • g1)) ∧ gpk = encodeG2 (smul2 a g2) ∧
      out.1 = gpk ∧ Gpp.vkLoop inst n 4 8 = some out.2 ∧ out.2.length = n := by
  have h0 := h
  unfold Gpp.createGpp at h
  rw [require_bind] at h
  obtain ⟨_, h⟩ := h
  simp only [u32_bind] at h
  obtain ⟨_, _, h⟩ := h
  rw [require_bind] at h
  obtain ⟨_, h⟩ := h
  rw [g1_bind] at h
  obtain ⟨ga, hga, h⟩ := h
  rw [opt_bind] at h
  obtain ⟨vks, hvk, h⟩ := h
  rw [bool_bind] at h
  obtain ⟨ok, hok, h⟩ := h
  rw [require_bind] at h
  obtain ⟨rfl, h⟩ := h
  have ho := Option.some.inj h
  subst ho
  obtain ⟨G, rfl⟩ := sumAt_some hga
  obtain ⟨a, rfl⟩ := g1_generates G
  have hneg : Pairing.negate Pairing.P1 = encodeG1 (-g1) := by rw [← encode_g1, negate_encode]
  refine ⟨a, hga, ?_, rfl, hvk, (vkLoop_some _ _ _ _ _ hvk).1⟩
  rw [hneg] at hok
  cases hd : decodeG2 gpk with
  | none => rw [pairingProd2_none_right E _ _ hd] at hok; cases hok
  | some Q =>
    obtain ⟨rfl, hQ⟩ := decodeG2_eq_some.1 hd
    rw [pairingProd2_eq E _ _ decode_P2 hd, Option.some.injEq] at hok
    obtain ⟨k, rfl⟩ := torsion_eq_smul2 hQ
    rw [(check2_key E a k).1 hok]

/-- The accepted key and the output are unique. -/
theorem createGpp_unique {E : BnPairing} {n : ℕ} {gpk gpk' : SolG2} {inst : List (List Word)}
    {out out' : SolG2 × List SolG1} (h : Gpp.createGpp E n gpk inst = some out)
    (h' : Gpp.createGpp E n gpk' inst = some out') : gpk = gpk' ∧ out = out' := by
  obtain ⟨a, h1, h2, h3, h4, _⟩ := createGpp_key h
  obtain ⟨a', h1', h2', h3', h4', _⟩ := createGpp_key h'
  have := smul_g1_inj (encodeG1_inj (Option.some.inj (h1.symm.trans h1')))
  subst this
  have hg : gpk = gpk' := h2.trans h2'.symm
  refine ⟨hg, Prod.ext (h3.trans (hg.trans h3'.symm)) ?_⟩
  rw [h4] at h4'
  exact Option.some.inj h4'

end Verif
