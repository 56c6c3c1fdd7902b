import Verif.Lemmas.Evm

/-! Property C15: the contract's global parameters are those of the library. -/

namespace Verif.Props
open Verif WeierstrassCurve.Affine

/-- Parameters as the vectors `createGpp` reads: points first, then the rest. -/
private def split (pks : List Gk) (pp : DkgMemberPublicParams) : (G1 × List G1) × List Word :=
  ((pp.ga, pp.publicShares), wordsOf (enc2 pp.g2a ++ (encGk pp.gr ++ (pp.ciphers ++ pks.flatMap encGk))))

private theorem words_split (pks : List Gk) (pp : DkgMemberPublicParams) :
    wordsOf (encParams pp pks) = pointWords (split pks pp) := by
  simp only [encParams, pointWords, split, wordsOf, List.map_append, List.append_assoc]

private theorem insts_eq (ip : Bool) (pks : List Gk) {pps : List DkgMemberPublicParams}
    {insts : List (List Fr)} (hs : ∀ pp ∈ pps, pp.publicShares.length = pks.length)
    (h : List.Forall₂ (fun pp ins => pp.toInstance ip pks = .ok ins) pps insts) :
    insts.map wordsOf = (pps.map (split pks)).map pointWords := by
  induction h with
  | nil => rfl
  | @cons pp ins pps insts h1 _ ih =>
    rw [toInstance_eq ip pp pks (hs pp List.mem_cons_self)] at h1
    split at h1
    · cases h1
    · cases h1
      rw [List.map_cons, List.map_cons, List.map_cons, words_split,
        ih (fun pp hpp => hs pp (List.mem_cons_of_mem _ hpp))]

/-- C15. On the instances the library produces for at most `n` members, with the `n` registered
keys and `n` public shares each, the contract accepts exactly the G2 key whose exponent is that of
the library's `ga`, in canonical words; it then returns that key and the library's verification
keys.  (No `uint32`/`uint256` overflow check fires: with the right key the call does not revert.) -/
theorem C15_createGpp_agrees (E : BnPairing) (ip : Bool) (n : ℕ) (hn : 4 * n + 8 < 2 ^ 32)
    (pks : List Gk) (hp : pks.length = n) (pps : List DkgMemberPublicParams) (hne : pps ≠ [])
    (hlen : pps.length ≤ n) (hs : ∀ pp ∈ pps, pp.publicShares.length = n)
    (insts : List (List Fr))
    (hins : List.Forall₂ (fun pp ins => pp.toInstance ip pks = .ok ins) pps insts) :
    ∃ gp, dkgGlobalPublicParams pps = .ok gp ∧ ∃ a : Fr, gp.ga = a • g1 ∧
      ∀ gpk out, Gpp.createGpp E n gpk (insts.map wordsOf) = some out ↔
        gpk = encodeG2 (smul2 a g2) ∧ out = (gpk, gp.verifyKeys.map encodeG1) := by
  subst hp
  refine ⟨_, global_eq pps hne _ hs, ?_⟩
  obtain ⟨a, ha⟩ := g1_generates (pps.map (·.ga)).sum
  refine ⟨a, ha, ?_⟩
  intro gpk out
  rw [insts_eq ip pks hs hins, createGpp_eq E pks.length (pps.map (split pks)) (by simpa using hlen)
    (by
      intro d hd
      obtain ⟨pp, hpp, rfl⟩ := List.mem_map.1 hd
      exact hs pp hpp) hn a (by rw [List.map_map]; exact ha)]
  rw [List.map_map]
  have : ∀ j, (List.map (fun d => d.1.2.getD j 0) (List.map (split pks) pps)) =
      pps.map (fun pp => pp.publicShares.getD j 0) := by
    intro j; rw [List.map_map]; rfl
  simp only [this]
  rfl

/-- C15. When the members' parameters are consistent (`g2a` in the order-`r` group with the exponent
of `ga`), the key the library computes is the one the contract accepts. -/
theorem C15_library_key_accepted (E : BnPairing) (ip : Bool) (n : ℕ) (hn : 4 * n + 8 < 2 ^ 32)
    (pks : List Gk) (hp : pks.length = n) (pps : List DkgMemberPublicParams) (hne : pps ≠ [])
    (hlen : pps.length ≤ n) (hs : ∀ pp ∈ pps, pp.publicShares.length = n)
    (hc : ∀ pp ∈ pps, ∃ a : Fr, pp.ga = a • g1 ∧ pp.g2a = smul2 a g2)
    (insts : List (List Fr))
    (hins : List.Forall₂ (fun pp ins => pp.toInstance ip pks = .ok ins) pps insts) :
    ∃ gp, dkgGlobalPublicParams pps = .ok gp ∧
      ∀ gpk out, Gpp.createGpp E n gpk (insts.map wordsOf) = some out ↔
        gpk = encodeG2 gp.g2a ∧ out = (gpk, gp.verifyKeys.map encodeG1) := by
  obtain ⟨gp, hgp, a, ha, h⟩ := C15_createGpp_agrees E ip n hn pks hp pps hne hlen hs insts hins
  refine ⟨gp, hgp, ?_⟩
  have hk : gp.g2a = smul2 a g2 := by
    rw [global_eq pps hne n hs] at hgp
    cases hgp
    have : ∀ (l : List DkgMemberPublicParams),
        (∀ pp ∈ l, ∃ a : Fr, pp.ga = a • g1 ∧ pp.g2a = smul2 a g2) →
        ∃ b : Fr, (l.map (·.ga)).sum = b • g1 ∧ (l.map (·.g2a)).sum = smul2 b g2 := by
      intro l hl
      induction l with
      | nil => exact ⟨0, (zero_smul Fr g1).symm, by simp [smul2_zero']⟩
      | cons pp l ih =>
        obtain ⟨b, hb1, hb2⟩ := ih (fun pp hpp => hl pp (List.mem_cons_of_mem _ hpp))
        obtain ⟨a, ha1, ha2⟩ := hl pp List.mem_cons_self
        exact ⟨a + b, by rw [List.map_cons, List.sum_cons, ha1, hb1, add_smul],
          by rw [List.map_cons, List.sum_cons, ha2, hb2, smul2_add]⟩
    obtain ⟨b, hb1, hb2⟩ := this pps hc
    simp only at ha ⊢
    rw [hb2, smul_g1_inj (hb1.symm.trans ha)]
  rw [hk]
  exact h

/-- Two members with different exponents meet the hypotheses. -/
example : ∃ (pks : List Gk) (pps : List DkgMemberPublicParams) (insts : List (List Fr)),
    pks.length = 2 ∧ pps ≠ [] ∧ pps.length ≤ 2 ∧ (∀ pp ∈ pps, pp.publicShares.length = 2) ∧
    (∀ pp ∈ pps, ∃ a : Fr, pp.ga = a • g1 ∧ pp.g2a = smul2 a g2) ∧
    List.Forall₂ (fun pp ins => pp.toInstance true pks = .ok ins) pps insts := by
  have hne : ∀ k : Fr, k ≠ 0 → k • g1 ≠ 0 := fun k hk h => by
    rcases smul_G1_eq_zero h with h | h
    · exact hk h
    · exact g1_ne_zero h
  have hne2 : ∀ k : Fr, k ≠ 0 → smul2 k g2 ≠ 0 := fun k hk h => hk (smul2_inj (h.trans smul2_zero'.symm))
  have h3 : (3 : Fr) ≠ 0 := three_ne_zero_r
  have h2 : (2 : Fr) ≠ 0 := two_ne_zero_r
  let p1 : DkgMemberPublicParams := ⟨[(2 : Fr) • g1, (3 : Fr) • g1], [5, 6], gk, (2 : Fr) • g1, smul2 2 g2⟩
  let p2 : DkgMemberPublicParams := ⟨[(3 : Fr) • g1, (3 : Fr) • g1], [7, 8], gk, (3 : Fr) • g1, smul2 3 g2⟩
  refine ⟨[gk, gk], [p1, p2], [encParams p1 [gk, gk], encParams p2 [gk, gk]], rfl, by simp, by simp,
    by simp [p1, p2], ?_, ?_⟩
  · intro pp hpp
    simp only [List.mem_cons, List.not_mem_nil, or_false] at hpp
    rcases hpp with rfl | rfl
    · exact ⟨2, rfl, rfl⟩
    · exact ⟨3, rfl, rfl⟩
  · refine List.Forall₂.cons ?_ (List.Forall₂.cons ?_ List.Forall₂.nil)
    · rw [toInstance_eq true p1 _ rfl, if_neg]
      rintro ⟨_, h | h | h⟩
      · exact hne 2 h2 h
      · simp only [p1, List.mem_cons, List.not_mem_nil, or_false] at h
        rcases h with h | h
        · exact hne 2 h2 h.symm
        · exact hne 3 h3 h.symm
      · exact hne2 2 h2 h
    · rw [toInstance_eq true p2 _ rfl, if_neg]
      rintro ⟨_, h | h | h⟩
      · exact hne 3 h3 h
      · simp only [p2, List.mem_cons, List.not_mem_nil, or_false, or_self] at h
        exact hne 3 h3 h.symm
      · exact hne2 3 h3 h

end Verif.Props
