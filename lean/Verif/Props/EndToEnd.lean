import Verif.Lemmas.Lib
import Verif.Props.Dkg

/-!
Properties C08, C10, C11, C12 and C50: share encryption, member index, derived share keys, the
whole pipeline and the discrete-log equality check.
-/

namespace Verif.Props
open Verif WeierstrassCurve.Affine

/-! ### C10 -/

/-- C10. A cipher made for `pk = sk·gg` with randomness `ρ` is opened by `sk` and the published
`ρ·gg` to exactly the share; another secret gets the share iff its derived mask is the same. -/
theorem C10_encryption_round_trip (mask : Mask) (sk ρ : Fq) (share : Fr) :
    let cipher := maskOf mask (ρ • (MemberKey.random sk).pk) + share
    (MemberKey.random sk).decryptShare mask (ρ • gk) cipher = share ∧
    ∀ sk' : Fq, (MemberKey.random sk').decryptShare mask (ρ • gk) cipher = share ↔
      maskOf mask (sk' • ρ • gk) = maskOf mask (sk • ρ • gk) := by
  intro cipher
  have e : ρ • (MemberKey.random sk).pk = sk • ρ • gk := by
    simp only [MemberKey.random]
    rw [smul_comm]
  constructor
  · simp only [cipher, e]
    exact decrypt_mask mask (MemberKey.random sk) (ρ • gk) share
  · intro sk'
    have e' : ρ • sk • gk = sk • ρ • gk := e
    simp only [cipher, e', MemberKey.decryptShare, MemberKey.random]
    constructor
    · intro h; linear_combination -h
    · intro h; rw [h]; ring

/-- C10, for the ciphers the library actually produces: in honest parameters, the cipher at
position `i` opens under the secret of the `i`-th public key to the `i`-th share, which is the
drawn polynomial at `i`. -/
theorem C10_new_ciphers_open (mask : Mask) (t n : ℕ) (ht : 0 < t) (htn : t ≤ n) (pks : List Gk)
    (hl : pks.length = n) (draw : ℕ → Fr) :
    ∃ mp, DkgMemberParams.new mask ⟨t, n⟩ pks draw = .ok mp ∧
      ∀ i, 1 ≤ i → i ≤ n → ∀ sk : Fq, pks[i - 1]? = some (sk • gk) →
        ∃ c, mp.publicParams.ciphers[i - 1]? = some c ∧
          (MemberKey.random sk).decryptShare mask mp.publicParams.gr c =
            Spec.poly ((List.range t).map draw) (i : Fr) ∧
          mp.shares[i - 1]? = some (Spec.poly ((List.range t).map draw) (i : Fr)) ∧
          mp.publicParams.publicShares[i - 1]? =
            some (Spec.poly ((List.range t).map draw) (i : Fr) • g1) := by
  refine ⟨_, memberParams_eq mask ⟨t, n⟩ ht (by simp only; omega) pks hl draw, ?_⟩
  intro i h1 h2 sk hpk
  have hs : ((List.range' 1 n).map (fun i : ℕ =>
      Spec.poly ((List.range t).map draw) (i : Fr)))[i - 1]? = _ := shares_getElem h1 h2
  have hi : i - 1 < n := by omega
  refine ⟨maskOf mask (toGkScalar (draw t) • pks.getD (i - 1) 0) +
      ((List.range' 1 n).map (fun i : ℕ =>
        Spec.poly ((List.range t).map draw) (i : Fr))).getD (i - 1) 0, ?_, ?_, hs, ?_⟩
  · simp only
    rw [List.getElem?_map, List.getElem?_range hi]
    rfl
  · rw [List.getD_eq_getElem?_getD, hpk, List.getD_eq_getElem?_getD, hs]
    exact (C10_encryption_round_trip mask sk (toGkScalar (draw t)) _).1
  · simp only [List.getElem?_map]
    rw [List.getElem?_map] at hs
    rw [hs]; rfl

/-- Non-trivial keys meet the hypotheses of `C10_new_ciphers_open`. -/
example : ([(3 : Fq) • gk, (5 : Fq) • gk] : List Gk).length = 2 ∧
    ([(3 : Fq) • gk, (5 : Fq) • gk] : List Gk)[2 - 1]? = some ((5 : Fq) • gk) := by simp

/-! ### C11 -/

/-- C11. `index` returns one plus the first position of the key, and `None` exactly when absent. -/
theorem C11_member_index (k : MemberKey) (pks : List Gk) :
    (∀ i, k.index pks = some i ↔
      1 ≤ i ∧ pks[i - 1]? = some k.pk ∧ ∀ j < i - 1, pks[j]? ≠ some k.pk) ∧
    (k.index pks = none ↔ k.pk ∉ pks) := by
  constructor
  · intro i
    simp only [MemberKey.index, Option.map_eq_some_iff, List.findIdx?_eq_some_iff_getElem]
    constructor
    · rintro ⟨j, ⟨hj, h1, h2⟩, rfl⟩
      refine ⟨by omega, ?_, ?_⟩
      · rw [Nat.add_sub_cancel, List.getElem?_eq_getElem hj]
        simpa using h1
      · intro m hm h
        have hm' : m < j := by omega
        have := h2 m hm'
        rw [List.getElem?_eq_getElem (by omega)] at h
        simp at this
        exact this (Option.some.inj h)
    · rintro ⟨h1, h2, h3⟩
      have hl : i - 1 < pks.length := by
        by_contra hc
        rw [List.getElem?_eq_none (by omega)] at h2
        cases h2
      refine ⟨i - 1, ⟨hl, ?_, ?_⟩, by omega⟩
      · rw [List.getElem?_eq_getElem hl] at h2
        simpa using Option.some.inj h2
      · intro j hj
        have := h3 j hj
        rw [List.getElem?_eq_getElem (by omega)] at this
        simpa using fun h => this (by rw [h])
  · simp only [MemberKey.index, Option.map_eq_none_iff, List.findIdx?_eq_none_iff]
    constructor
    · intro h hm
      have := h _ hm
      simp at this
    · intro h x hx
      simp only [decide_eq_false_iff_not]
      rintro rfl
      exact h hx

/-- C11. With pairwise distinct keys the member at position `i` gets exactly `i + 1`. -/
theorem C11_distinct_keys (pks : List Gk) (hd : pks.Nodup) (k : MemberKey) (i : ℕ)
    (h : pks[i]? = some k.pk) : k.index pks = some (i + 1) := by
  refine ((C11_member_index k pks).1 (i + 1)).2 ⟨by omega, by simpa using h, ?_⟩
  intro j hj hj'
  have hi : i < pks.length := by
    by_contra hc
    rw [List.getElem?_eq_none (by omega)] at h
    cases h
  have : i = j := (List.getElem?_inj hi hd).1 (h.trans hj'.symm)
  omega

example : ([gk, (0 : Gk)] : List Gk).Nodup ∧ ([gk, (0 : Gk)] : List Gk)[0]? = some (MemberKey.random 1).pk := by
  simp [MemberKey.random, gk_ne_zero]

/-! ### C12 -/

/-- C12. If in every member's parameters the cipher at position `i` masks (under this member's key)
a share whose commitment is the `i`-th public share, then the key derived at index `i` has secret
the sum of those shares, is a correct key pair, and passes verification against the aggregate. -/
theorem C12_share_key_matches (mask : Mask) (k : MemberKey) (cfg : DkgConfig) (i : ℕ)
    (h1 : 1 ≤ i) (h2 : i ≤ cfg.numberOfMembers) (pps : List DkgMemberPublicParams) (hne : pps ≠ [])
    (share : DkgMemberPublicParams → Fr)
    (hlen : ∀ pp ∈ pps, pp.publicShares.length = cfg.numberOfMembers)
    (hvalid : ∀ pp ∈ pps,
      pp.ciphers[i - 1]? = some (maskOf mask (k.sk • pp.gr) + share pp) ∧
      pp.publicShares[i - 1]? = some (share pp • g1)) :
    ∃ gp key, dkgGlobalPublicParams pps = .ok gp ∧ k.dkgShareKey mask cfg i pps = .ok key ∧
      key.index = i ∧ key.sk = (pps.map share).sum ∧ key.vk = key.sk • g1 ∧
      gp.verifyKeys[i - 1]? = some key.vk ∧ key.verify cfg gp.verifyKeys = .ok () := by
  have hc : ∀ pp ∈ pps, i ≤ pp.ciphers.length := by
    intro pp hpp
    have := (hvalid pp hpp).1
    by_contra hcon
    rw [List.getElem?_eq_none (by omega)] at this
    cases this
  have hk := dkgShareKey_eq mask k cfg i h1 h2 pps hc
  have hsum : pps.map (fun pp => k.decryptShare mask pp.gr (pp.ciphers.getD (i - 1) 0)) =
      pps.map share := by
    apply List.map_congr_left
    intro pp hpp
    rw [List.getD_eq_getElem?_getD, (hvalid pp hpp).1]
    exact decrypt_mask mask k pp.gr (share pp)
  rw [hsum] at hk
  have hg := global_eq pps hne _ hlen
  have hvk : ((List.range cfg.numberOfMembers).map (fun i =>
      (pps.map (fun pp => pp.publicShares.getD i 0)).sum))[i - 1]? = some ((pps.map share).sum • g1) := by
    rw [List.getElem?_map, List.getElem?_range (by omega)]
    simp only [Option.map_some, Option.some.injEq]
    rw [List.sum_smul, List.map_map]
    congr 1
    apply List.map_congr_left
    intro pp hpp
    rw [List.getD_eq_getElem?_getD, (hvalid pp hpp).2]
    rfl
  refine ⟨_, _, hg, hk, rfl, rfl, rfl, hvk, ?_⟩
  unfold DkgShareKey.verify
  rw [if_neg (by simp only; omega)]
  simp only
  rw [hvk]
  simp

/-- One dealer, whose ciphers carry the shares 7 and 9 for two members; the member with secret 3 is the second. -/
example (mask : Mask) : ∃ key, (MemberKey.random 3).dkgShareKey mask ⟨1, 2⟩ 2
    [⟨[(7 : Fr) • g1, (9 : Fr) • g1], [0, maskOf mask ((3 : Fq) • gk) + 9], gk, g1, g2⟩] = .ok key ∧
    key.index = 2 ∧ key.sk = 9 ∧ key.vk = (9 : Fr) • g1 := by
  obtain ⟨gp, key, _, h1, h2, h3, h4, _⟩ := C12_share_key_matches mask (MemberKey.random 3) ⟨1, 2⟩ 2 (by norm_num)
    (by norm_num) [⟨[(7 : Fr) • g1, (9 : Fr) • g1], [0, maskOf mask ((3 : Fq) • gk) + 9], gk, g1, g2⟩]
    (List.cons_ne_nil _ _) (fun _ => 9)
    (fun pp h => by rw [List.mem_singleton.1 h]; rfl)
    (fun pp h => by rw [List.mem_singleton.1 h]; exact ⟨rfl, rfl⟩)
  rw [List.map_cons, List.map_nil, List.sum_cons, List.sum_nil, add_zero] at h3
  exact ⟨key, h1, h2, h3, by rw [h4, h3]⟩

/-- C12. An index outside `1..n` is rejected with `InvalidIndex`, whatever the parameters. -/
theorem C12_index_rejected (mask : Mask) (k : MemberKey) (cfg : DkgConfig) (i : ℕ)
    (h : i < 1 ∨ cfg.numberOfMembers < i) (pps : List DkgMemberPublicParams) :
    k.dkgShareKey mask cfg i pps = .error (.err (.InvalidIndex i)) := by
  unfold MemberKey.dkgShareKey
  rw [if_pos (by omega)]

/-- C12. Verification of a share key succeeds only if the aggregated key at its index is its own. -/
theorem C12_verify_iff (key : DkgShareKey) (cfg : DkgConfig) (vks : List G1)
    (hl : vks.length = cfg.numberOfMembers) :
    key.verify cfg vks = .ok () ↔
      1 ≤ key.index ∧ key.index ≤ cfg.numberOfMembers ∧ vks[key.index - 1]? = some key.vk := by
  unfold DkgShareKey.verify
  split
  · rename_i h
    constructor
    · intro h'; cases h'
    · rintro ⟨h1, h2, _⟩; omega
  · rename_i h
    have hlt : key.index - 1 < vks.length := by omega
    rw [List.getElem?_eq_getElem hlt]
    simp only
    split
    · rename_i hne
      constructor
      · intro h'; cases h'
      · rintro ⟨_, _, h'⟩; exact absurd (Option.some.inj h').symm hne
    · rename_i heq
      exact ⟨fun _ => ⟨by omega, by omega, by rw [not_not.1 heq]⟩, fun _ => rfl⟩

/-- Index 3 of two members is refused; of the indices 1 and 2 the key in place decides. -/
example (mask : Mask) (k : MemberKey) : k.dkgShareKey mask ⟨1, 2⟩ 3 [] = .error (.err (.InvalidIndex 3)) ∧
    (⟨2, 0, g1⟩ : DkgShareKey).verify ⟨1, 2⟩ [0, g1] = .ok () ∧
    (⟨1, 0, g1⟩ : DkgShareKey).verify ⟨1, 2⟩ [0, g1] ≠ .ok () := by
  refine ⟨C12_index_rejected mask k ⟨1, 2⟩ 3 (Or.inr (by norm_num)) [],
    (C12_verify_iff ⟨2, 0, g1⟩ ⟨1, 2⟩ [0, g1] rfl).2 ⟨by norm_num, by norm_num, rfl⟩, fun h => ?_⟩
  have := ((C12_verify_iff ⟨1, 0, g1⟩ ⟨1, 2⟩ [0, g1] rfl).1 h).2.2
  exact g1_ne_zero (Option.some.inj this).symm

/-! ### C08 -/

/-- C08. Honest setup followed by evaluation: for every `0 < t ≤ n`, all members' Grumpkin secrets,
all drawn coefficients and encryption randomness, all nonces and inputs.  There are a global key
passing its check and, for each member, a derived share key that verifies, all of whose partial
evaluations verify; and for every input there is one output, verifying under the global key, that
every quorum of `t` members in increasing order obtains. -/
theorem C08_end_to_end (E : BnPairing) (keccak : Keccak) (h2c : List Byte → G1) (mask : Mask)
    (t n : ℕ) (ht : 0 < t) (htn : t ≤ n) (hn : n < 2 ^ 64) (sks : List Fq) (hs : sks.length = n)
    (draw : ℕ → ℕ → Fr) :
    ∃ cfg, DkgConfig.new t n = .ok cfg ∧
    ∃ dealings, (List.range n).mapM (fun j => DkgMemberParams.new mask cfg
        (sks.map (fun sk => (MemberKey.random sk).pk)) (draw j)) = .ok dealings ∧
    ∃ gp, dkgGlobalPublicParams (dealings.map (·.publicParams)) = .ok gp ∧
      gp.checkPublic E = .ok () ∧
    ∃ key : ℕ → DkgShareKey,
      (∀ i, 1 ≤ i → i ≤ n → ∃ sk vk, sks[i - 1]? = some sk ∧ gp.verifyKeys[i - 1]? = some vk ∧
        (MemberKey.random sk).dkgShareKey mask cfg i (dealings.map (·.publicParams)) =
          .ok (key i) ∧
        (key i).verify cfg gp.verifyKeys = .ok () ∧
        ∀ input nonce,
          ((key i).evaluate keccak h2c input nonce).verify keccak h2c cfg input vk = .ok ()) ∧
      ∀ input, ∃ out : PseudoRandom, out.verify E keccak h2c input gp.g2a = .ok () ∧
        ∀ (quorum : List ℕ) (nonce : ℕ → Fr), quorum.length = t → Spec.ValidIndices n quorum →
          combinePartialEvaluations keccak cfg
            (quorum.map (fun i => (key i).evaluate keccak h2c input (nonce i))) = .ok out := by
  have hn1 : 1 ≤ n := by omega
  set pks := sks.map (fun sk => (MemberKey.random sk).pk) with hpks
  have hpl : pks.length = n := by simp [hpks, hs]
  set co : ℕ → List Fr := fun j => (List.range t).map (draw j) with hco
  set sh : ℕ → List Fr := fun j =>
    (List.range' 1 n).map (fun i : ℕ => Spec.poly (co j) (i : Fr)) with hsh
  set pp : ℕ → DkgMemberPublicParams := fun j =>
    ⟨(sh j).map (fun s => s • g1), (List.range n).map
        (fun i => maskOf mask (toGkScalar (draw j t) • pks.getD i 0) + (sh j).getD i 0),
        toGkScalar (draw j t) • gk, draw j 0 • g1, smul2 (draw j 0) g2⟩ with hpp
  refine ⟨⟨t, n⟩, ((C01_config_new t n).1 _).2 ⟨⟨ht, htn⟩, rfl, rfl⟩, ?_⟩
  refine ⟨(List.range n).map (fun j => ⟨⟨t, n⟩, co j, sh j, draw j t, pks, pp j⟩),
    mapM_ok _ _ _ (fun j _ => memberParams_eq mask ⟨t, n⟩ ht hn1 pks hpl (draw j)), ?_⟩
  have hmm : (List.map (fun j => (⟨⟨t, n⟩, co j, sh j, draw j t, pks, pp j⟩ : DkgMemberParams))
      (List.range n)).map
      (·.publicParams) = (List.range n).map pp := by
    rw [List.map_map]; rfl
  rw [hmm]
  have hne : (List.range n).map pp ≠ [] := by
    intro h
    have := congrArg List.length h
    simp at this; omega
  -- the group secret and the group polynomial
  set S : ℕ → Fr := fun i => ∑ j ∈ Finset.range n, draw j i with hS
  have hgl : ∀ p ∈ (List.range n).map pp, p.publicShares.length = n := by
    intro p hp
    obtain ⟨j, _, rfl⟩ := List.mem_map.1 hp
    simp [hpp, hsh]
  have hg := global_eq ((List.range n).map pp) hne n hgl
  refine ⟨_, hg, ?_, ?_⟩
  · -- check_public
    unfold DkgGlobalPubParams.checkPublic isDlEqual
    simp only
    have e1 : (((List.range n).map pp).map (·.ga)).sum = (S 0) • g1 := by
      rw [List.map_map]
      change ((List.range n).map (fun j => draw j 0 • g1)).sum = _
      rw [list_sum_range, hS, Finset.sum_smul]
    have e2 : (((List.range n).map pp).map (·.g2a)).sum = smul2 (S 0) g2 := by
      rw [List.map_map]
      change ((List.range n).map (fun j => smul2 (draw j 0) g2)).sum = _
      rw [sum_smul2, list_sum_range]
    rw [e1, e2]
    have := (E.check2_iff g1 (S 0 • g1) (S 0)).2 rfl
    rw [this]
    simp
  · set F : List Fr := (List.range t).map S with hF
    refine ⟨fun i => ⟨i, Spec.poly F (i : Fr), Spec.poly F (i : Fr) • g1⟩, ?_, ?_⟩
    · intro i h1 h2
      have hi : i - 1 < sks.length := by omega
      set sk := sks[i - 1] with hsk
      have hgetpk : pks.getD (i - 1) 0 = sk • gk := by
        rw [List.getD_eq_getElem?_getD, hpks, List.getElem?_map, List.getElem?_eq_getElem hi]
        rfl
      have hshi : ∀ j, (sh j)[i - 1]? = some (Spec.poly (co j) (i : Fr)) := fun j =>
        shares_getElem h1 h2
      -- the share each dealer gives to this member
      have hex : ∀ p ∈ (List.range n).map pp, ∃ s, p.ciphers[i - 1]? =
          some (maskOf mask ((MemberKey.random sk).sk • p.gr) + s) ∧
          p.publicShares[i - 1]? = some (s • g1) := by
        intro p hp
        obtain ⟨j, _, rfl⟩ := List.mem_map.1 hp
        refine ⟨Spec.poly (co j) (i : Fr), ?_, ?_⟩
        · simp only [hpp]
          rw [List.getElem?_map, List.getElem?_range (by omega)]
          simp only [Option.map_some, Option.some.injEq]
          rw [hgetpk, List.getD_eq_getElem?_getD, hshi j, smul_comm]
          rfl
        · simp only [hpp]
          rw [List.getElem?_map, hshi j]
          rfl
      classical
      let share : DkgMemberPublicParams → Fr := fun p =>
        if hx : ∃ s, p.ciphers[i - 1]? = some (maskOf mask ((MemberKey.random sk).sk • p.gr) + s) ∧
          p.publicShares[i - 1]? = some (s • g1) then hx.choose else 0
      have hshare : ∀ j ∈ List.range n, share (pp j) = Spec.poly (co j) (i : Fr) := by
        intro j hj
        have hx := hex (pp j) (List.mem_map.2 ⟨j, hj, rfl⟩)
        simp only [share]
        rw [dif_pos hx]
        have h3 := hx.choose_spec.2
        have h4 : (pp j).publicShares[i - 1]? = some (Spec.poly (co j) (i : Fr) • g1) := by
          simp only [hpp]
          rw [List.getElem?_map, hshi j]
          rfl
        exact smul_g1_inj (Option.some.inj (h3.symm.trans h4))
      obtain ⟨gp', key, hgp', hkey, hki, hksk, hkvk, hvk, hver⟩ :=
        C12_share_key_matches mask (MemberKey.random sk) ⟨t, n⟩ i h1 h2 ((List.range n).map pp) hne
          share hgl (by
            intro p hp
            have hx := hex p hp
            simp only [share]
            rw [dif_pos hx]
            exact hx.choose_spec)
      rw [hg] at hgp'
      cases hgp'
      have hksk' : key.sk = Spec.poly F (i : Fr) := by
        rw [hksk, List.map_map]
        have : (List.range n).map (share ∘ pp) =
            (List.range n).map (fun j => Spec.poly (co j) (i : Fr)) := by
          apply List.map_congr_left
          intro j hj
          rw [Function.comp_apply]
          exact hshare j hj
        rw [this, list_sum_range, hF, hco, sum_poly_map_range]
      have hkeq : key = ⟨i, Spec.poly F (i : Fr), Spec.poly F (i : Fr) • g1⟩ := by
        cases key
        simp only at hki hksk' hkvk
        subst hki hksk' hkvk
        rfl
      rw [hkeq] at hkey hver hvk
      refine ⟨sk, _, by rw [List.getElem?_eq_getElem hi], hvk, hkey, hver, ?_⟩
      intro input nonce
      exact (C05_honest_evaluation_verifies keccak h2c ⟨t, n⟩
        ⟨i, Spec.poly F (i : Fr), Spec.poly F (i : Fr) • g1⟩ rfl h1 h2 input nonce).2.2
    · intro input
      refine ⟨⟨S 0 • h2c input, hashPoint keccak (S 0 • h2c input)⟩, ?_, ?_⟩
      · have e2 : (((List.range n).map pp).map (·.g2a)).sum = smul2 (S 0) g2 := by
          rw [List.map_map]
          change ((List.range n).map (fun j => smul2 (draw j 0) g2)).sum = _
          rw [sum_smul2, list_sum_range]
        rw [e2]
        exact (C07_pseudorandom_verify_iff E keccak h2c _ input (S 0)).1.2 ⟨rfl, hashPoint_eq _ _⟩
      · intro quorum nonce hq hv
        have hF0 : F = S 0 :: ((List.range (t - 1)).map (fun i => S (i + 1))) := by
          obtain ⟨m, rfl⟩ : ∃ m, t = m + 1 := ⟨t - 1, by omega⟩
          rw [hF, List.range_succ_eq_map, List.map_cons, List.map_map]
          rfl
        have hFl : (S 0 :: ((List.range (t - 1)).map (fun i => S (i + 1)))).length = t := by
          rw [← hF0]; simp [hF]
        obtain ⟨pr, h3, h4, h5⟩ := C03_recombination keccak ⟨t, n⟩ ht hn (S 0)
          ((List.range (t - 1)).map (fun i => S (i + 1))) hFl (h2c input)
          (quorum.map (fun i => (⟨i, Spec.poly F (i : Fr), Spec.poly F (i : Fr) • g1⟩ :
            DkgShareKey).evaluate keccak h2c input (nonce i)))
          (by simpa using hq)
          (by
            rw [List.map_map]
            have : (PartialEval.index ∘ fun i : ℕ => (⟨i, Spec.poly F (i : Fr),
              Spec.poly F (i : Fr) • g1⟩ : DkgShareKey).evaluate keccak h2c input (nonce i)) = id :=
              rfl
            rw [this, List.map_id]
            exact hv)
          (by
            intro s hs'
            obtain ⟨i, _, rfl⟩ := List.mem_map.1 hs'
            rw [← hF0]
            rfl)
        rw [h3]
        obtain ⟨pf, v⟩ := pr
        simp only at h4 h5
        rw [h4, h5, hashPoint_eq]

/-- The hypotheses of C08 are met, e.g. by `(t, n) = (3, 5)`, and there are several quorums. -/
example : Spec.ValidIndices 5 [1, 2, 5] ∧ Spec.ValidIndices 5 [2, 3, 4] ∧ 0 < 3 ∧ 3 ≤ 5 := by
  simp [Spec.ValidIndices]

/-! ### C50 -/

/-- C50. With `g2a` in the prime-order group the check accepts exactly equal exponents. -/
theorem C50_dl_equal_iff (E : BnPairing) (a b : Fr) :
    (isDlEqual E (a • g1) (smul2 b g2) = .ok () ↔ a = b) ∧
    (isDlEqual E (a • g1) (smul2 b g2) = .ok () ∨
      isDlEqual E (a • g1) (smul2 b g2) = .error (.err .VerifyFailed)) := by
  have h := E.check2_iff g1 (a • g1) b
  have h2 : E.check2 (-g1) (smul2 b g2) (a • g1) g2 = true ↔ a = b :=
    h.trans ⟨smul_g1_inj, fun h => by rw [h]⟩
  unfold isDlEqual
  by_cases hc : E.check2 (-g1) (smul2 b g2) (a • g1) g2 = true
  · have := h2.1 hc
    simp only [hc, not_true_eq_false, if_false, true_iff, true_or, and_true]
    exact this
  · have : a ≠ b := fun h => hc (h2.2 h)
    simp [hc, this]

/-- C50. Aggregating individually accepted parameters gives parameters that are accepted. -/
theorem C50_aggregate_accepted (E : BnPairing) (pps : List DkgMemberPublicParams) (hne : pps ≠ [])
    (n : ℕ) (hlen : ∀ pp ∈ pps, pp.publicShares.length = n) (hsub : ∀ pp ∈ pps, r • pp.g2a = 0)
    (hok : ∀ pp ∈ pps, pp.checkPublic E = .ok ()) :
    ∃ gp, dkgGlobalPublicParams pps = .ok gp ∧ gp.checkPublic E = .ok () := by
  refine ⟨_, global_eq pps hne n hlen, ?_⟩
  have key : ∀ l : List DkgMemberPublicParams, (∀ pp ∈ l, r • pp.g2a = 0) →
      (∀ pp ∈ l, pp.checkPublic E = .ok ()) →
      ∃ a : Fr, (l.map (·.ga)).sum = a • g1 ∧ (l.map (·.g2a)).sum = smul2 a g2 := by
    intro l
    induction l with
    | nil => intro _ _; exact ⟨0, (zero_smul Fr g1).symm, by simp [smul2_zero']⟩
    | cons p l ih =>
      intro h1 h2
      obtain ⟨a, ha, hb⟩ := ih (fun pp h => h1 pp (by simp [h])) (fun pp h => h2 pp (by simp [h]))
      obtain ⟨b, hb'⟩ := torsion_eq_smul2 (h1 p (by simp))
      obtain ⟨c, hc⟩ := g1_generates p.ga
      have h3 : isDlEqual E p.ga p.g2a = .ok () := h2 p (by simp)
      rw [hb', hc] at h3
      have hcb := (C50_dl_equal_iff E c b).1.1 h3
      refine ⟨c + a, ?_, ?_⟩
      · rw [List.map_cons, List.sum_cons, ha, hc, add_smul]
      · rw [List.map_cons, List.sum_cons, hb, hb', smul2_add, hcb]
  obtain ⟨a, ha, hb⟩ := key pps hsub hok
  unfold DkgGlobalPubParams.checkPublic
  simp only
  rw [ha, hb]
  exact (C50_dl_equal_iff E a a).1.2 rfl

/-- Parameters meeting the hypotheses. -/
example : ∃ pp : DkgMemberPublicParams, pp.publicShares.length = 1 ∧ r • pp.g2a = 0 ∧
    pp.checkPublic toyPairing = .ok () ∧ pp.ga ≠ 0 :=
  ⟨⟨[g1], [0], gk, (1 : Fr) • g1, smul2 1 g2⟩, rfl, smul2_torsion 1,
    (C50_dl_equal_iff toyPairing 1 1).1.2 rfl, by rw [one_smul]; exact g1_ne_zero⟩

end Verif.Props
