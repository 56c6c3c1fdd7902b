import Verif.Spec.Secrecy
import Verif.Props.EndToEnd

/-! Property C71: one honest member makes the group key uniform, also for a coalition that sees fewer
than `t` shares. -/

namespace Verif.Props
open Verif

theorem range_withCoeffs {t : ℕ} (c : Fin t → Fr) (d : ℕ → Fr) :
    (List.range t).map (Spec.withCoeffs c d) = List.ofFn c := by
  apply List.ext_getElem
  · rw [List.length_map, List.length_range, List.length_ofFn]
  · intro i h1 h2
    rw [List.length_map, List.length_range] at h1
    rw [List.getElem_map, List.getElem_range, List.getElem_ofFn]
    unfold Spec.withCoeffs
    rw [dif_pos h1]

theorem ofFn_of_length {t : ℕ} {l : List Fr} (h : l.length = t) : ∃ c : Fin t → Fr, List.ofFn c = l := by
  subst h
  exact ⟨fun i => l[i], List.ofFn_getElem⟩

/-- The number of polynomials through given values. -/
theorem count_through {n t : ℕ} (htn : t ≤ n) (hr : n < 2 ^ 64) (S : Finset ℕ)
    (hS : ∀ i ∈ S, 1 ≤ i ∧ i ≤ n) (hcard : S.card < t) (obs : ℕ → Fr) (s : Fr) :
    Nat.card {c : Fin t → Fr // Spec.poly (List.ofFn c) 0 = s ∧
      ∀ i ∈ S, Spec.poly (List.ofFn c) (i : Fr) = obs i} = r ^ (t - 1 - S.card) := by
  have hsub : S ⊆ Finset.Icc 1 n := fun i hi => Finset.mem_Icc.2 (hS i hi)
  obtain ⟨T, h1, h2, h3⟩ := Finset.exists_subsuperset_card_eq hsub (show S.card ≤ t - 1 by omega)
    (by rw [Nat.card_Icc]; omega)
  have hT : ∀ i ∈ T, 1 ≤ i ∧ i ≤ n := fun i hi => Finset.mem_Icc.1 (h2 hi)
  have hlt := lt_of_usize hr
  obtain ⟨hk, _, _⟩ := nodes_facts hlt hT
  have hcong : Nat.card {c : Fin t → Fr // Spec.poly (List.ofFn c) 0 = s ∧
      ∀ i ∈ S, Spec.poly (List.ofFn c) (i : Fr) = obs i} = Nat.card ((T \ S : Finset ℕ) → Fr) := by
    apply Nat.card_congr
    refine Equiv.ofBijective (fun c i => Spec.poly (List.ofFn c.1) ((i.1 : ℕ) : Fr)) ⟨?_, ?_⟩
    · rintro ⟨c, c1, c2⟩ ⟨d, d1, d2⟩ h
      have h := congrFun h
      apply Subtype.ext
      apply List.ofFn_injective
      apply coeffs_unique (t := t) (nodes T) (by omega) (by simp) (by simp)
      intro x hx
      simp only [nodes, Finset.mem_insert, Finset.mem_image] at hx
      rcases hx with rfl | ⟨i, hi, rfl⟩
      · rw [c1, d1]
      · by_cases hiS : i ∈ S
        · rw [c2 i hiS, d2 i hiS]
        · exact h ⟨i, Finset.mem_sdiff.2 ⟨hi, hiS⟩⟩
    · intro v
      obtain ⟨l, l1, l2, l3⟩ := exists_through (t := t) hlt hT (by omega)
        (fun i => if h : i ∈ T \ S then v ⟨i, h⟩ else obs i) s
      obtain ⟨c, rfl⟩ := ofFn_of_length l1
      refine ⟨⟨c, l2, ?_⟩, ?_⟩
      · intro i hi
        rw [l3 i (h1 hi), dif_neg (fun h => (Finset.mem_sdiff.1 h).2 hi)]
      · funext i
        dsimp only
        rw [l3 i.1 (Finset.mem_sdiff.1 i.2).1, dif_pos i.2]
  have hF : Nat.card Fr = r := Nat.card_zmod r
  rw [hcong, Nat.card_fun, hF, Nat.card_eq_fintype_card, Fintype.card_coe,
    Finset.card_sdiff_of_subset h1, h3]

/-- C09 (count). The dealings consistent with the observation of fewer than `t` shares are exactly
`r ^ (t - 1 - |S|)`, for every secret. -/
theorem C09_number_of_dealings (n t : ℕ) (htn : t ≤ n) (hr : n < 2 ^ 64) (S : Finset ℕ)
    (hS : ∀ i ∈ S, 1 ≤ i ∧ i ≤ n) (hcard : S.card < t) (obs : ℕ → Fr) (s : Fr) :
    Nat.card {c // Spec.ConsistentWith n t S obs s c} = r ^ (t - 1 - S.card) := by
  rw [← count_through htn hr S hS hcard obs s]
  symm
  apply Nat.card_congr
  refine Equiv.ofBijective (fun c => ⟨List.ofFn c.1, (consistent_iff (by omega) (by omega) hS obs s _).2
    ⟨by simp, c.2⟩⟩) ⟨?_, ?_⟩
  · rintro ⟨c, hc⟩ ⟨d, hd⟩ h
    exact Subtype.ext (List.ofFn_injective (congrArg Subtype.val h))
  · rintro ⟨l, hl⟩
    obtain ⟨l1, l2⟩ := (consistent_iff (by omega) (by omega) hS obs s _).1 hl
    obtain ⟨c, rfl⟩ := ofFn_of_length l1
    exact ⟨⟨c, l2⟩, rfl⟩

/-- What a run computes. -/
theorem run_facts (mask : Mask) (t n : ℕ) (ht : 0 < t) (htn : t ≤ n) (sks : List Fq)
    (hs : sks.length = n) (draw : ℕ → ℕ → Fr) :
    ∃ ds gp, Spec.Run mask t n sks draw ds gp ∧
      gp.g2a = smul2 (∑ j ∈ Finset.range n, draw j 0) g2 ∧
      ∀ h, h < n → ∃ d, ds[h]? = some d ∧ ∀ (S : Finset ℕ) (obs : ℕ → Fr), (∀ i ∈ S, 1 ≤ i ∧ i ≤ n) →
        (Spec.Sees mask sks S d obs ↔
          ∀ i ∈ S, Spec.poly ((List.range t).map (draw h)) (i : Fr) = obs i) := by
  obtain ⟨pks, hpks⟩ : ∃ pks, pks = sks.map (fun sk => (MemberKey.random sk).pk) := ⟨_, rfl⟩
  have hpl : pks.length = n := by rw [hpks, List.length_map, hs]
  have hnew := fun j => memberParams_eq mask ⟨t, n⟩ ht (show 1 ≤ n by omega) pks hpl (draw j)
  have hds := mapM_ok (fun j => DkgMemberParams.new mask ⟨t, n⟩ pks (draw j)) _ (List.range n)
    (fun j _ => hnew j)
  obtain ⟨mp, hmp⟩ : ∃ mp : ℕ → DkgMemberParams, ∀ j, DkgMemberParams.new mask ⟨t, n⟩ pks (draw j) = .ok (mp j) :=
    ⟨_, hnew⟩
  have hmpe : ∀ j, (mp j).publicParams.g2a = smul2 (draw j 0) g2 ∧ (mp j).publicParams.publicShares.length = n := by
    intro j
    have h := hmp j
    rw [hnew j] at h
    rw [← Except.ok.inj h]
    exact ⟨rfl, by dsimp only; rw [List.length_map, List.length_map, List.length_range']⟩
  have hds : (List.range n).mapM (fun j => DkgMemberParams.new mask ⟨t, n⟩ pks (draw j)) =
      .ok ((List.range n).map mp) := mapM_ok _ _ _ (fun j _ => hmp j)
  have hne : ((List.range n).map mp).map (·.publicParams) ≠ [] := by
    intro h
    have := congrArg List.length h
    rw [List.length_map, List.length_map, List.length_range, List.length_nil] at this
    omega
  have hg := global_eq (((List.range n).map mp).map (·.publicParams)) hne n (by
    intro pp hpp
    obtain ⟨m, hm, rfl⟩ := List.mem_map.1 hpp
    obtain ⟨j, _, rfl⟩ := List.mem_map.1 hm
    exact (hmpe j).2)
  refine ⟨(List.range n).map mp, _, ⟨by rw [← hpks]; exact hds, hg⟩, ?_, ?_⟩
  · dsimp only
    rw [List.map_map, List.map_map, ← list_sum_range, ← sum_smul2]
    congr 1
    apply List.map_congr_left
    intro j _
    exact (hmpe j).1
  · intro h hh
    refine ⟨mp h, by rw [List.getElem?_map, List.getElem?_range hh]; rfl, ?_⟩
    intro S obs hS
    obtain ⟨m', e1, e2⟩ := C10_new_ciphers_open mask t n ht htn pks hpl (draw h)
    rw [hmp h] at e1
    cases e1
    have hget : ∀ i ∈ S, ∃ sk, sks[i - 1]? = some sk ∧ pks[i - 1]? = some (sk • gk) := by
      intro i hi
      have := hS i hi
      have hlt : i - 1 < sks.length := by omega
      refine ⟨sks[i - 1], List.getElem?_eq_getElem hlt, ?_⟩
      rw [hpks, List.getElem?_map, List.getElem?_eq_getElem hlt]
      rfl
    constructor
    · intro hsee i hi
      obtain ⟨sk, c, h1, h2, h3⟩ := hsee i hi
      obtain ⟨sk', h4, h5⟩ := hget i hi
      rw [h1] at h4
      cases h4
      obtain ⟨c', h6, h7, _⟩ := e2 i (hS i hi).1 (hS i hi).2 sk h5
      rw [h2] at h6
      cases h6
      rw [← h3, h7]
    · intro hp i hi
      obtain ⟨sk, h4, h5⟩ := hget i hi
      obtain ⟨c, h6, h7, _⟩ := e2 i (hS i hi).1 (hS i hi).2 sk h5
      exact ⟨sk, c, h4, h6, by rw [h7, hp i hi]⟩

/-- C71. Let `h + 1` be one member who draws its coefficients at random; let all other draws be
arbitrary.  For every coalition of fewer than `t` members, all shares it may see of this dealing and
every `k`, the number of coefficient vectors of member `h + 1` with which the coalition decrypts these
shares and the group key is `k · g2` is `r ^ (t - 1 - |S|)`: the same for all `k`. So the coalition's
shares say nothing about the group secret; with the empty coalition, the group secret is uniform as soon as
one member is honest. -/
theorem C71_group_key_uniform (mask : Mask) (t n : ℕ) (htn : t ≤ n) (hn : n < 2 ^ 64)
    (sks : List Fq) (hs : sks.length = n) (draw : ℕ → ℕ → Fr) (h : ℕ) (hh : h < n) (S : Finset ℕ)
    (hS : ∀ i ∈ S, 1 ≤ i ∧ i ≤ n) (hcard : S.card < t) (obs : ℕ → Fr) (k : Fr) :
    Nat.card {c : Fin t → Fr // ∃ dealings gp d,
      Spec.Run mask t n sks (Function.update draw h (Spec.withCoeffs c (draw h))) dealings gp ∧
      dealings[h]? = some d ∧ Spec.Sees mask sks S d obs ∧ gp.g2a = smul2 k g2} =
    r ^ (t - 1 - S.card) := by
  have ht : 0 < t := by omega
  rw [← count_through htn hn S hS hcard obs (k - ∑ j ∈ Finset.range n \ {h}, draw j 0)]
  apply Nat.card_congr
  apply Equiv.subtypeEquivRight
  intro c
  obtain ⟨ds, gp, hrun, hg, hd⟩ := run_facts mask t n ht htn sks hs
    (Function.update draw h (Spec.withCoeffs c (draw h)))
  obtain ⟨d, hdh, hsee⟩ := hd h hh
  have hsum : ∑ j ∈ Finset.range n, Function.update draw h (Spec.withCoeffs c (draw h)) j 0 =
      Spec.poly (List.ofFn c) 0 + ∑ j ∈ Finset.range n \ {h}, draw j 0 := by
    rw [Finset.sum_eq_add_sum_sdiff_singleton_of_mem (Finset.mem_range.2 hh)]
    congr 1
    · rw [Function.update_self, ← range_withCoeffs c (draw h)]
      obtain ⟨m, rfl⟩ : ∃ m, t = m + 1 := ⟨t - 1, by omega⟩
      rw [List.range_succ_eq_map, List.map_cons, poly_zero_eval]
    · apply Finset.sum_congr rfl
      intro j hj
      rw [Function.update_of_ne]
      intro e
      exact (Finset.mem_sdiff.1 hj).2 (Finset.mem_singleton.2 e)
  rw [hsum] at hg
  have hsee := hsee S obs hS
  rw [Function.update_self, range_withCoeffs] at hsee
  constructor
  · rintro ⟨ds', gp', d', hrun', hd', hsee', hg'⟩
    have e1 := hrun.1.symm.trans hrun'.1
    cases e1
    have e2 := hrun.2.symm.trans hrun'.2
    cases e2
    rw [hdh] at hd'
    cases hd'
    rw [hg] at hg'
    exact ⟨by rw [← smul2_inj hg', add_sub_cancel_right], hsee.1 hsee'⟩
  · rintro ⟨h1, h2⟩
    exact ⟨ds, gp, d, hrun, hdh, hsee.2 h2, by rw [hg, h1, sub_add_cancel]⟩

/-- C71. The same for the outputs: for every input whose hash is not the point at infinity, all points are equally
possible as the (unique, C07) verifying output: for every point `P`, the number of coefficient vectors
of member `h + 1` for which the coalition sees these shares and the verifying output for the input has
proof `P` is `r ^ (t - 1 - |S|)`. -/
theorem C71_output_uniform (E : BnPairing) (keccak : Keccak) (h2c : List Byte → G1)
    (mask : Mask) (t n : ℕ) (htn : t ≤ n) (hn : n < 2 ^ 64)
    (sks : List Fq) (hs : sks.length = n) (draw : ℕ → ℕ → Fr) (h : ℕ) (hh : h < n) (S : Finset ℕ)
    (hS : ∀ i ∈ S, 1 ≤ i ∧ i ≤ n) (hcard : S.card < t) (obs : ℕ → Fr) (input : List Byte)
    (hin : h2c input ≠ 0) (P : G1) :
    Nat.card {c : Fin t → Fr // ∃ dealings gp d, ∃ out : PseudoRandom,
      Spec.Run mask t n sks (Function.update draw h (Spec.withCoeffs c (draw h))) dealings gp ∧
      dealings[h]? = some d ∧ Spec.Sees mask sks S d obs ∧
      out.verify E keccak h2c input gp.g2a = .ok () ∧ out.proof = P} =
    r ^ (t - 1 - S.card) := by
  have ht : 0 < t := by omega
  obtain ⟨k, hk⟩ : ∃ k : Fr, P = k • h2c input := by
    obtain ⟨a, ha⟩ := g1_generates (h2c input)
    obtain ⟨b, hb⟩ := g1_generates P
    have ha0 : a ≠ 0 := by
      rintro rfl
      rw [zero_smul Fr g1] at ha
      exact hin ha
    refine ⟨b * a⁻¹, ?_⟩
    rw [ha, smul_smul, mul_assoc, inv_mul_cancel₀ ha0, mul_one, hb]
  rw [← C71_group_key_uniform mask t n htn hn sks hs draw h hh S hS hcard obs k]
  apply Nat.card_congr
  apply Equiv.subtypeEquivRight
  intro c
  have hinj : ∀ a b : Fr, a • h2c input = b • h2c input → a = b := by
    intro a b hab
    by_contra hne
    have : (a - b) • h2c input = 0 := by rw [sub_smul, hab, sub_self]
    rcases smul_G1_eq_zero this with h' | h'
    · exact hne (sub_eq_zero.1 h')
    · exact hin h'
  constructor
  · rintro ⟨ds, gp, d, out, hrun, hd, hsee, hv, hp⟩
    obtain ⟨ds', gp', hrun', hg, _⟩ := run_facts mask t n ht htn sks hs
      (Function.update draw h (Spec.withCoeffs c (draw h)))
    have e1 := hrun.1.symm.trans hrun'.1
    cases e1
    have e2 := hrun.2.symm.trans hrun'.2
    cases e2
    refine ⟨ds, gp, d, hrun, hd, hsee, ?_⟩
    rw [hg] at hv ⊢
    have := ((C07_pseudorandom_verify_iff E keccak h2c out input _).1.1 hv).1
    rw [hp, hk] at this
    rw [hinj _ _ this]
  · rintro ⟨ds, gp, d, hrun, hd, hsee, hg⟩
    refine ⟨ds, gp, d, ⟨P, hashPoint keccak P⟩, hrun, hd, hsee, ?_, rfl⟩
    rw [hg]
    exact (C07_pseudorandom_verify_iff E keccak h2c _ input k).1.2 ⟨hk, hashPoint_eq _ _⟩

/-- The hypotheses are met by members 2 and 4 of 5 with threshold 3, and then one vector is left for
each group key; and with the empty coalition there are `r ^ 2`. -/
example (mask : Mask) (draw : ℕ → ℕ → Fr) (obs : ℕ → Fr) (k : Fr) :
    Nat.card {c : Fin 3 → Fr // ∃ dealings gp d,
      Spec.Run mask 3 5 [1, 2, 3, 4, 5] (Function.update draw 0 (Spec.withCoeffs c (draw 0))) dealings gp ∧
      dealings[0]? = some d ∧ Spec.Sees mask [1, 2, 3, 4, 5] {2, 4} d obs ∧ gp.g2a = smul2 k g2} = 1 ∧
    Nat.card {c : Fin 3 → Fr // ∃ dealings gp d,
      Spec.Run mask 3 5 [1, 2, 3, 4, 5] (Function.update draw 0 (Spec.withCoeffs c (draw 0))) dealings gp ∧
      dealings[0]? = some d ∧ Spec.Sees mask [1, 2, 3, 4, 5] ∅ d obs ∧ gp.g2a = smul2 k g2} = r ^ 2 :=
  ⟨(C71_group_key_uniform mask 3 5 (by norm_num) (by norm_num) [1, 2, 3, 4, 5] rfl draw 0 (by norm_num)
    {2, 4} (by simp) (by simp) obs k).trans (by simp),
   (C71_group_key_uniform mask 3 5 (by norm_num) (by norm_num) [1, 2, 3, 4, 5] rfl draw 0 (by norm_num)
    ∅ (by simp) (by simp) obs k).trans (by rw [Finset.card_empty])⟩

end Verif.Props
