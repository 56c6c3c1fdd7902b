import Verif.Lemmas.DkgCircuitNoG2
import Verif.Props.DkgCircuit
import Verif.Props.EndToEnd

/-!
Property C74: the library built without the feature `g2chip`.
-/

namespace Verif.Props
open Verif Verif.Spec Verif.DkgCircuit

/-- C74. Soundness: if the instance rebuilt from published parameters and the registered keys
satisfies the circuit, and `check_public` accepts the parameters (with `g2a` in the prime-order group),
then the parameters are those of a dealing: a polynomial `f` with `threshold` coefficients, the public
value `f(0)` in both groups, the public shares `f(i)·g1`, and ciphers that every member decrypts to its
share. -/
theorem C74_sound (E : BnPairing) (ip : Bool) (t n : ℕ) (ht : 0 < t) (auxG1 : G1)
    (pp : DkgMemberPublicParams) (pks : List Gk) (hl : pks.length = n) (ins : List Fr)
    (hi : pp.toInstanceNoG2 ip pks = .ok ins) (hsat : synthesizeNoG2 ⟨t, n⟩ auxG1 ins)
    (hsub : r • pp.g2a = 0) (hc : pp.checkPublic E = .ok ()) :
    ∃ (coeffs : List Fr) (R : ℕ), coeffs.length = t ∧
      pp.ga = poly coeffs 0 • g1 ∧ pp.g2a = smul2 (poly coeffs 0) g2 ∧ pp.gr = R • gk ∧
      pp.publicShares.take n = (List.range' 1 n).map (fun i : ℕ => poly coeffs (i : Fr) • g1) ∧
      pp.ciphers = (List.range' 1 n).map (fun i : ℕ =>
        poly coeffs (i : Fr) + maskOf Poseidon.hash2 (R • pks.getD (i - 1) 0)) ∧
      poly coeffs 0 ≠ 0 ∧ (∀ i, 1 ≤ i → i ≤ n → poly coeffs (i : Fr) ≠ 0) ∧
      (∀ pk ∈ pks, pk ≠ 0) ∧ R • gk ≠ 0 ∧
      ∀ i, 1 ≤ i → i ≤ n → ∀ sk : Fq, pks[i - 1]? = some (sk • gk) →
        ∃ c, pp.ciphers[i - 1]? = some c ∧
          (MemberKey.random sk).decryptShare Poseidon.hash2 pp.gr c = poly coeffs (i : Fr) := by
  obtain ⟨_, coeffs, bs, pks', A, hcl, hbl, hpl, hpk, hA0, hgood, hnz, h3, h4, h6⟩ :=
    (synthesizeNoG2_iff_aux ht auxG1 ins).1 hsat
  obtain ⟨hle, rfl⟩ := toInstanceNoG2_ok hi
  rw [hl] at hle h6
  have hz : poly coeffs 0 ≠ 0 := fun e => usable_ne_zero h3 (by rw [e, zero_smul Fr g1])
  have hz2 : smul2 (poly coeffs 0) g2 ≠ 0 := by
    intro e
    exact hz (smul2_inj (e.trans smul2_zero'.symm))
  obtain ⟨e, rfl⟩ := dealingNoG2_params (pp := { pp with publicShares := pp.publicShares.take n })
    (by simpa using hle) hl hpl hz2 h6
  have ega : pp.ga = poly coeffs 0 • g1 := congrArg DkgMemberPublicParams.ga e
  have egr : pp.gr = binary bs • gk := congrArg DkgMemberPublicParams.gr e
  have esh : pp.publicShares.take n = (List.range' 1 n).map (fun i : ℕ => poly coeffs (i : Fr) • g1) :=
    congrArg DkgMemberPublicParams.publicShares e
  have eci : pp.ciphers = (List.range' 1 n).map (fun i : ℕ =>
        poly coeffs (i : Fr) + maskOf Poseidon.hash2 (binary bs • pks.getD (i - 1) 0)) := by
    have := congrArg DkgMemberPublicParams.ciphers e
    simp only [dealtParams] at this
    rw [this, List.range'_eq_map_range, List.map_map]
    apply List.map_congr_left
    intro i _
    simp only [Function.comp, maskOf, Nat.add_comm 1 i, Nat.add_sub_cancel]
  have eg2 : pp.g2a = smul2 (poly coeffs 0) g2 := by
    obtain ⟨b, hb⟩ := torsion_eq_smul2 hsub
    have hc' : isDlEqual E pp.ga pp.g2a = .ok () := hc
    rw [ega, hb] at hc'
    rw [hb, ← (C50_dl_equal_iff E _ b).1.1 hc']
  refine ⟨coeffs, binary bs, hcl, ega, eg2, egr, esh, eci, hz, ?_, hpk, hnz gk (by simp), ?_⟩
  · intro i h1 h2 e'
    exact usable_ne_zero (h4 i (List.mem_range'_1.2 ⟨h1, by simp only; omega⟩))
      (by rw [e', zero_smul Fr g1])
  · intro i h1 h2 sk hsk
    have hr : (List.range' 1 n)[i - 1]? = some i := by
      have e0 : 1 + 1 * (i - 1) = i := by omega
      rw [List.getElem?_range' (by omega), e0]
    have hg : pks.getD (i - 1) 0 = sk • gk := by
      rw [List.getD_eq_getElem?_getD, hsk]; rfl
    refine ⟨poly coeffs (i : Fr) + maskOf Poseidon.hash2 (binary bs • pks.getD (i - 1) 0),
      by rw [eci, List.getElem?_map, hr]; rfl, ?_⟩
    rw [hg, egr, smul_comm (binary bs) sk gk, add_comm]
    exact decrypt_mask Poseidon.hash2 (MemberKey.random sk) (binary bs • gk) _

/-- C74. `check_public` is needed: the instance does not depend on `g2a`, so parameters with any
other `g2a` have the same instance, and `check_public` accepts only one element of the prime-order
group. -/
theorem C74_g2a_only_checked_outside (E : BnPairing) (ip : Bool) (pp : DkgMemberPublicParams)
    (pks : List Gk) (Q : G2) :
    ({ pp with g2a := Q } : DkgMemberPublicParams).toInstanceNoG2 ip pks = pp.toInstanceNoG2 ip pks ∧
    (r • pp.g2a = 0 → r • Q = 0 → pp.checkPublic E = .ok () →
      (({ pp with g2a := Q } : DkgMemberPublicParams).checkPublic E = .ok () ↔ Q = pp.g2a)) := by
  refine ⟨rfl, fun h1 h2 h3 => ?_⟩
  obtain ⟨a, ha⟩ := torsion_eq_smul2 h1
  obtain ⟨b, hb⟩ := torsion_eq_smul2 h2
  obtain ⟨c, hc⟩ := g1_generates pp.ga
  have h3' : isDlEqual E pp.ga pp.g2a = .ok () := h3
  rw [hc, ha] at h3'
  have hca := (C50_dl_equal_iff E c a).1.1 h3'
  unfold DkgMemberPublicParams.checkPublic
  simp only
  rw [hc, hb, (C50_dl_equal_iff E c b).1, ha, hca]
  exact ⟨fun h => by rw [h], fun h => (smul2_inj h).symm⟩

/-- C74, exactly what the circuit accepts (compare `C28_circuit_exact`). -/
theorem C74_circuit_exact (t n : ℕ) (ht : 0 < t) (hn : n < 2 ^ 64) (auxG1 : G1) (ins : List Fr) :
    synthesizeNoG2 ⟨t, n⟩ auxG1 ins ↔
      TableFits 3 g1 auxG1 ∧
      ∃ (coeffs : List Fr) (R : ℕ) (pks : List Gk),
        coeffs.length = t ∧ pks.length = n ∧ (∀ pk ∈ pks, pk ≠ 0) ∧ R < 2 ^ 254 ∧ ¬ q ∣ R ∧
        Usable g1 auxG1 (poly coeffs 0) ∧
        (∀ i, 1 ≤ i → i ≤ n → Usable g1 auxG1 (poly coeffs (i : Fr))) ∧
        DealingCellsNoG2 n coeffs R pks ins := by
  have hq : (n + 1) * 510 + 1 < q := by
    have h0 : (2 ^ 64 + 1) * 510 + 1 < q := by decide +kernel
    exact lt_of_le_of_lt (Nat.add_le_add_right (Nat.mul_le_mul_right _ (by omega)) 1) h0
  rw [synthesizeNoG2_iff (cfg := ⟨t, n⟩) ht hq, windowSize,
    C26_table_assignable 3 ⟨by decide, by decide⟩ g1 auxG1 g1_ne_zero]
  constructor
  · rintro ⟨h1, coeffs, R, pks, a, b, c, d, e, f, g, k⟩
    exact ⟨h1, coeffs, R, pks, a, b, c, d, e, f,
      fun i h1 h2 => g i (List.mem_range'_1.2 ⟨h1, by simp only; omega⟩), k⟩
  · rintro ⟨h1, coeffs, R, pks, a, b, c, d, e, f, g, k⟩
    refine ⟨h1, coeffs, R, pks, a, b, c, d, e, f, fun i hi => ?_, k⟩
    rw [List.mem_range'_1] at hi
    exact g i hi.1 (by simp only at hi; omega)

/-- C74. Honest parameters: they are created, `check_public` accepts them, the instance has the length
`instance_size`, and it satisfies the circuit, provided the auxiliary point fits the table, the
encryption randomness is nonzero, the keys are finite and the scalars can be handled. -/
theorem C74_honest_instance_satisfies (E : BnPairing) (ip : Bool) (t n : ℕ) (ht : 0 < t) (hn1 : 1 ≤ n)
    (hn : n < 2 ^ 64) (auxG1 : G1) (h1 : TableFits 3 g1 auxG1)
    (pks : List Gk) (hl : pks.length = n) (hpk : ∀ pk ∈ pks, pk ≠ 0)
    (draw : ℕ → Fr) (hr : draw t ≠ 0) (hu1 : Usable g1 auxG1 (draw 0))
    (hu : ∀ i, 1 ≤ i → i ≤ n → Usable g1 auxG1 (poly ((List.range t).map draw) (i : Fr))) :
    ∃ mp ins, DkgMemberParams.new Poseidon.hash2 ⟨t, n⟩ pks draw = .ok mp ∧
      mp.publicParams.checkPublic E = .ok () ∧ r • mp.publicParams.g2a = 0 ∧
      mp.publicParams.toInstanceNoG2 ip pks = .ok ins ∧
      ins.length = (⟨t, n⟩ : DkgConfig).instanceSizeNoG2 ∧ synthesizeNoG2 ⟨t, n⟩ auxG1 ins := by
  have hnew := memberParams_eq Poseidon.hash2 ⟨t, n⟩ ht hn1 pks hl draw
  have hd := new_eq_dealt t n ht hn1 pks hl _ _ hnew
  have h0 : poly ((List.range t).map draw) 0 = draw 0 := poly_range_zero ht draw
  obtain ⟨hls, hlc⟩ := length_dealt n ((List.range t).map draw) (draw t).val pks
  have hga : (dealtParams n ((List.range t).map draw) (draw t).val pks).ga ≠ 0 := by
    simp only [dealtParams, h0]
    exact usable_ne_zero hu1
  have hgs : (0 : G1) ∉ (dealtParams n ((List.range t).map draw) (draw t).val pks).publicShares := by
    simp only [dealtParams, List.mem_map, List.mem_range'_1]
    rintro ⟨i, hi, e⟩
    exact usable_ne_zero (hu i hi.1 (by omega)) e
  have hins := toInstanceNoG2_eq ip _ pks (hls.trans hl.symm) hga hgs
  refine ⟨_, _, hnew, ?_, ?_, by rw [hd]; exact hins, ?_, ?_⟩
  · rw [hd]
    exact (C50_dl_equal_iff E _ _).1.2 rfl
  · rw [hd]
    exact smul2_torsion _
  · simp only [encParamsNoG2, List.length_append, length_enc1,
      length_flatMap_const enc1 4 (fun _ => rfl), length_flatMap_const encGk 2 (fun _ => rfl),
      hls, hlc, hl, encGk, List.length_cons, List.length_nil, DkgConfig.instanceSizeNoG2]
    omega
  · rw [C74_circuit_exact t n ht hn]
    refine ⟨h1, (List.range t).map draw, (draw t).val, pks, by simp, hl, hpk, ?_, val_not_dvd.2 hr,
      by rwa [h0], hu, ?_⟩
    · exact lt_trans (ZMod.val_lt _) (by decide +kernel)
    · refine dealingNoG2_enc ?_ ?_
      · rw [h0]; exact usable_ne_zero hu1
      · intro i hi
        rw [List.mem_range'_1] at hi
        exact usable_ne_zero (hu i hi.1 (by omega))

/-- The hypotheses are met: three members, threshold 2, the polynomial `7 + 11 x` and the auxiliary
point `5 g1`; the result also meets the hypotheses of `C74_sound`. -/
example : ∃ mp ins, DkgMemberParams.new Poseidon.hash2 ⟨2, 3⟩ [gk, 2 • gk, 3 • gk]
      (fun i => [7, 11, 13].getD i 0) = .ok mp ∧
    mp.publicParams.checkPublic toyPairing = .ok () ∧ r • mp.publicParams.g2a = 0 ∧
    mp.publicParams.toInstanceNoG2 true [gk, 2 • gk, 3 • gk] = .ok ins ∧
    ins.length = 27 ∧ synthesizeNoG2 ⟨2, 3⟩ (5 • g1) ins := by
  have hpk : ∀ pk ∈ [gk, 2 • gk, 3 • gk], pk ≠ 0 := by
    intro pk h
    simp only [List.mem_cons, List.not_mem_nil, or_false] at h
    rcases h with rfl | rfl | rfl
    · exact gk_ne_zero
    · exact nsmul_gk_ne_zero gk_ne_zero (by decide +kernel)
    · exact nsmul_gk_ne_zero gk_ne_zero (by decide +kernel)
  have hu : ∀ K : ℕ, K < 2 ^ 254 → FixedPoint.fitsN 3 K 5 = true → Usable g1 (5 • g1) ((K : ℕ) : Fr) :=
    fun K h h' => ⟨K, h, rfl, FixedPoint.fitsN_spec addOrderOf_g1 h'⟩
  have hp : ∀ x : Fr, poly ((List.range 2).map (fun i => ([7, 11, 13] : List Fr).getD i 0)) x =
      7 + x * 11 := by
    intro x
    have e : (List.range 2).map (fun i => ([7, 11, 13] : List Fr).getD i 0) = [7, 11] := rfl
    rw [e, poly_cons, poly_cons, poly_nil]; ring
  have hs : ∀ i : ℕ, 1 ≤ i → i ≤ 3 → Usable g1 (5 • g1)
      (poly ((List.range 2).map (fun i => ([7, 11, 13] : List Fr).getD i 0)) (i : Fr)) := by
    intro i h1 h2
    rw [hp]
    obtain rfl | rfl | rfl : i = 1 ∨ i = 2 ∨ i = 3 := by omega
    · have := hu 18 (by norm_num) (by decide +kernel)
      norm_num at this ⊢; exact this
    · have := hu 29 (by norm_num) (by decide +kernel)
      norm_num at this ⊢; exact this
    · have := hu 40 (by norm_num) (by decide +kernel)
      norm_num at this ⊢; exact this
  exact C74_honest_instance_satisfies toyPairing true 2 3 (by decide) (by decide) (by decide) _
    (FixedPoint.tableFitsN_spec addOrderOf_g1 (by decide +kernel)) _ rfl hpk _
    (by decide +kernel : (13 : Fr) ≠ 0) (hu 7 (by norm_num) (by decide +kernel)) hs

end Verif.Props
