import Verif.Lemmas.DkgCircuitParams
import Verif.Lemmas.Lib
import Verif.Lemmas.FewBad
import Verif.Props.FixedPoint

/-!
Properties C28 and C29: what the DKG circuit enforces and that honest parameters can be proved.
-/

namespace Verif.Props
open Verif Verif.Spec Verif.DkgCircuit

/-- C28. Soundness of the circuit: if some cells satisfy the circuit with the instance `ins`, then
the library reads from `ins` the public parameters of a dealing: a polynomial with `threshold`
coefficients, public shares `f(i)·g1`, the public value `f(0)` in both groups, encryption randomness
`R`, and the `i`-th cipher is `f(i)` plus the Poseidon mask of `R·pk_i`. The secret and all shares are
nonzero, the keys are finite and `R·gg` is not infinity. -/
theorem C28_circuit_sound (t n : ℕ) (ht : 0 < t) (auxG1 : G1) (auxG2 : G2) (ins : List Fr)
    (h : synthesize ⟨t, n⟩ auxG1 auxG2 ins) :
    ∃ (coeffs : List Fr) (R : ℕ) (pp : DkgMemberPublicParams) (pks : List Gk),
      fromInstance ⟨t, n⟩ ins = .ok (pp, pks) ∧
      coeffs.length = t ∧ pks.length = n ∧
      pp.ga = poly coeffs 0 • g1 ∧ pp.g2a = smul2 (poly coeffs 0) g2 ∧ pp.gr = R • gk ∧
      pp.publicShares = (List.range' 1 n).map (fun i : ℕ => poly coeffs (i : Fr) • g1) ∧
      pp.ciphers = (List.range' 1 n).map (fun i : ℕ =>
        poly coeffs (i : Fr) + maskOf Poseidon.hash2 (R • pks.getD (i - 1) 0)) ∧
      poly coeffs 0 ≠ 0 ∧ (∀ i, 1 ≤ i → i ≤ n → poly coeffs (i : Fr) ≠ 0) ∧
      (∀ pk ∈ pks, pk ≠ 0) ∧ R • gk ≠ 0 := by
  obtain ⟨_, _, coeffs, bs, pks, A, hl, hbl, hpl, hpk, hA0, hgood, hnz, h3, h4, h5, h6⟩ :=
    (synthesize_iff_aux ht auxG1 auxG2 ins).1 h
  refine ⟨coeffs, binary bs, _, pks, dealingCells_fromInstance h6 hpl, hl, hpl, rfl, rfl, rfl, rfl, ?_,
    ?_, ?_, hpk, hnz gk (by simp)⟩
  · simp only [dealtParams, List.range'_eq_map_range, List.map_map]
    apply List.map_congr_left
    intro i _
    simp only [Function.comp, maskOf, Nat.add_comm 1 i, Nat.add_sub_cancel]
  · intro e
    exact usable_ne_zero h3 (by rw [e, zero_smul Fr g1])
  · intro i h1 h2 e
    exact usable_ne_zero (h4 i (List.mem_range'_1.2 ⟨h1, by simp only; omega⟩))
      (by rw [e, zero_smul Fr g1])

/-- C28. Every member decrypts its cipher to exactly its share of the dealt polynomial: `sk` is the
secret of the `i`-th key of the instance. -/
theorem C28_members_decrypt_shares (t n : ℕ) (ht : 0 < t) (auxG1 : G1) (auxG2 : G2) (ins : List Fr)
    (h : synthesize ⟨t, n⟩ auxG1 auxG2 ins) :
    ∃ (coeffs : List Fr) (pp : DkgMemberPublicParams) (pks : List Gk),
      fromInstance ⟨t, n⟩ ins = .ok (pp, pks) ∧ coeffs.length = t ∧ pp.ga = poly coeffs 0 • g1 ∧
      pp.publicShares.length = n ∧ pks.length = n ∧
      ∀ i, 1 ≤ i → i ≤ n → ∃ pk c, pks[i - 1]? = some pk ∧ pp.ciphers[i - 1]? = some c ∧
        pp.publicShares[i - 1]? = some (poly coeffs (i : Fr) • g1) ∧
        ∀ sk : Fq, sk • gk = pk →
          (MemberKey.random sk).decryptShare Poseidon.hash2 pp.gr c = poly coeffs (i : Fr) := by
  obtain ⟨coeffs, R, pp, pks, h1, hl, hpl, hga, _, hgr, hsh, hci, _⟩ :=
    C28_circuit_sound t n ht auxG1 auxG2 ins h
  refine ⟨coeffs, pp, pks, h1, hl, hga, by rw [hsh]; simp, hpl, ?_⟩
  intro i hi1 hi2
  have hlt : i - 1 < pks.length := by omega
  have hr : (List.range' 1 n)[i - 1]? = some i := by
    rw [List.getElem?_range' (by omega)]
    congr 1; omega
  refine ⟨pks.getD (i - 1) 0, poly coeffs (i : Fr) + maskOf Poseidon.hash2 (R • pks.getD (i - 1) 0),
    ?_, ?_, ?_, ?_⟩
  · rw [List.getD_eq_getElem?_getD, List.getElem?_eq_getElem hlt]; rfl
  · rw [hci, List.getElem?_map, hr]; rfl
  · rw [hsh, List.getElem?_map, hr]; rfl
  · intro sk e
    rw [← e, hgr]
    have e2 : R • sk • gk = sk • R • gk := smul_comm _ _ _
    rw [e2, add_comm]
    exact decrypt_mask Poseidon.hash2 (MemberKey.random sk) (R • gk) _

/-- C28, exactly: the circuit is satisfiable with the instance `ins` iff `ins` is the instance of a
dealing with finite keys whose scalars the windowed multiplications can handle, and the tables of the
auxiliary points can be assigned.  A coordinate in the instance is any integer below `2^254` congruent
to the coordinate modulo `q`. -/
theorem C28_circuit_exact (t n : ℕ) (ht : 0 < t) (hn : n < 2 ^ 64) (auxG1 : G1) (auxG2 : G2)
    (ins : List Fr) :
    synthesize ⟨t, n⟩ auxG1 auxG2 ins ↔
      TableFits 3 g1 auxG1 ∧ r • auxG2 = 0 ∧ TableFits 3 g2 auxG2 ∧
      ∃ (coeffs : List Fr) (R : ℕ) (pks : List Gk),
        coeffs.length = t ∧ pks.length = n ∧ (∀ pk ∈ pks, pk ≠ 0) ∧ R < 2 ^ 254 ∧ ¬ q ∣ R ∧
        Usable g1 auxG1 (poly coeffs 0) ∧ Usable g2 auxG2 (poly coeffs 0) ∧
        (∀ i, 1 ≤ i → i ≤ n → Usable g1 auxG1 (poly coeffs (i : Fr))) ∧
        DealingCells n coeffs R pks ins := by
  have hq : (n + 1) * 510 + 1 < q := by
    have h0 : (2 ^ 64 + 1) * 510 + 1 < q := by decide +kernel
    exact lt_of_le_of_lt (Nat.add_le_add_right (Nat.mul_le_mul_right _ (by omega)) 1) h0
  rw [synthesize_iff (cfg := ⟨t, n⟩) ht hq, windowSize,
    C26_table_assignable 3 ⟨by decide, by decide⟩ g1 auxG1 g1_ne_zero,
    C26_table_assignable_g2 3 ⟨by decide, by decide⟩ g2 auxG2 g2_ne_zero r_nsmul_g2]
  constructor
  · rintro ⟨h1, h2, coeffs, R, pks, a, b, c, d, e, f, g, h, k⟩
    exact ⟨h1, h2.1, h2.2, coeffs, R, pks, a, b, c, d, e, f, h,
      fun i h1 h2 => g i (List.mem_range'_1.2 ⟨h1, by simp only; omega⟩), k⟩
  · rintro ⟨h1, h2, h2', coeffs, R, pks, a, b, c, d, e, f, h, g, k⟩
    refine ⟨h1, ⟨h2, h2'⟩, coeffs, R, pks, a, b, c, d, e, f, fun i hi => ?_, h, k⟩
    rw [List.mem_range'_1] at hi
    exact g i hi.1 (by simp only at hi; omega)

/-- C28, the secret is bound: with at least `threshold` members, two satisfying assignments for the
same instance deal the same polynomial to the same keys. -/
theorem C28_unique_polynomial (t n : ℕ) (coeffs coeffs' : List Fr) (R R' : ℕ) (pks pks' : List Gk)
    (ins : List Fr) (hl : pks.length = n) (hl' : pks'.length = n)
    (h : DealingCells n coeffs R pks ins) (h' : DealingCells n coeffs' R' pks' ins) :
    pks = pks' ∧ poly coeffs 0 = poly coeffs' 0 ∧
      ∀ i, 1 ≤ i → i ≤ n → poly coeffs (i : Fr) = poly coeffs' (i : Fr) := by
  have e := dealingCells_fromInstance (t := t) h hl
  rw [dealingCells_fromInstance (t := t) h' hl'] at e
  have e1 := Except.ok.inj e
  obtain ⟨h0, _, h1⟩ := dealtParams_inj (congrArg Prod.fst e1).symm
  exact ⟨(congrArg Prod.snd e1).symm, h0, h1⟩

/-- The full statement of C28 would ask that the coordinates in the instance be reduced. They need
not be: whenever the first coordinate `x` of the published `f(0)·g1` leaves room (`x + q < 2^254`),
the instance with `x + q` in place of `x` satisfies the circuit too, with the same dealing; the
library reads the same parameters from it.  (The contract does not.) -/
theorem C28_violation_unreduced_coordinates (t n : ℕ) (ht : 0 < t) (hn : n < 2 ^ 64)
    (auxG1 : G1) (auxG2 : G2) (x : Fq) (rest : List Fr) (hx : x.val + q < 2 ^ 254)
    (h : synthesize ⟨t, n⟩ auxG1 auxG2
      (((x.val % 2 ^ 136 : ℕ) : Fr) :: ((x.val / 2 ^ 136 : ℕ) : Fr) :: rest)) :
    let ins' := (((x.val + q) % 2 ^ 136 : ℕ) : Fr) :: (((x.val + q) / 2 ^ 136 : ℕ) : Fr) :: rest
    synthesize ⟨t, n⟩ auxG1 auxG2 ins' ∧
    fromInstance ⟨t, n⟩ ins' = fromInstance ⟨t, n⟩
      (((x.val % 2 ^ 136 : ℕ) : Fr) :: ((x.val / 2 ^ 136 : ℕ) : Fr) :: rest) := by
  intro ins'
  obtain ⟨h1, h2, h3, coeffs, R, pks, a, b, c, d, e, f, g, k, hd⟩ :=
    (C28_circuit_exact t n ht hn auxG1 auxG2 _).1 h
  have hd' : DealingCells n coeffs R pks ins' := by
    obtain ⟨cga, cgs, cg2a, ⟨hP, dx, dy, hX, hY, rfl⟩, hgs, hg2, hins⟩ := hd
    have hX' : CoordCells (coords (poly coeffs 0 • g1)).1
        [(((x.val + q) % 2 ^ 136 : ℕ) : Fr), (((x.val + q) / 2 ^ 136 : ℕ) : Fr)] := by
      have hxe : x = (coords (poly coeffs 0 • g1)).1 := by
        have e1 : dx = [((x.val % 2 ^ 136 : ℕ) : Fr), ((x.val / 2 ^ 136 : ℕ) : Fr)] := by
          have := congrArg (List.take 2) hins
          simp only [List.append_assoc] at this
          rw [List.take_left' hX.length] at this
          rw [← this]; rfl
        rw [e1] at hX
        have := join_coordCells hX
        rw [← this]
        exact (join_encCoord x).symm
      refine ⟨x.val + q, hx, ?_, rfl⟩
      rw [Nat.cast_add, ZMod.natCast_self, add_zero, ZMod.natCast_zmod_val, hxe]
    refine ⟨_, cgs, cg2a, ⟨hP, _, dy, hX', hY, rfl⟩, hgs, hg2, ?_⟩
    have := congrArg (List.drop 2) hins
    simp only [List.append_assoc] at this ⊢
    rw [List.drop_left' hX.length] at this
    simp only [List.drop_succ_cons, List.drop_zero] at this
    rw [← this]
    rfl
  refine ⟨(C28_circuit_exact t n ht hn auxG1 auxG2 _).2
    ⟨h1, h2, h3, coeffs, R, pks, a, b, c, d, e, f, g, k, hd'⟩, ?_⟩
  rw [dealingCells_fromInstance hd' b, dealingCells_fromInstance hd b]

/-! ### C29 -/

/-- C29. The instance of honest parameters satisfies the circuit for some witness if and only if the
tables can be assigned, the encryption randomness is nonzero, the keys are finite, and the secret and
the shares are scalars that the windowed multiplications can handle. -/
theorem C29_honest_provable_iff (ip : Bool) (t n : ℕ) (ht : 0 < t) (hn1 : 1 ≤ n) (hn : n < 2 ^ 64)
    (auxG1 : G1) (auxG2 : G2) (pks : List Gk) (hl : pks.length = n) (draw : ℕ → Fr)
    (mp : DkgMemberParams) (hmp : DkgMemberParams.new Poseidon.hash2 ⟨t, n⟩ pks draw = .ok mp)
    (ins : List Fr) (hins : mp.publicParams.toInstance ip pks = .ok ins) :
    synthesize ⟨t, n⟩ auxG1 auxG2 ins ↔
      TableFits 3 g1 auxG1 ∧ r • auxG2 = 0 ∧ TableFits 3 g2 auxG2 ∧
      draw t ≠ 0 ∧ (∀ pk ∈ pks, pk ≠ 0) ∧
      Usable g1 auxG1 (draw 0) ∧ Usable g2 auxG2 (draw 0) ∧
      ∀ i, 1 ≤ i → i ≤ n → Usable g1 auxG1 (poly ((List.range t).map draw) (i : Fr)) := by
  have hd := new_eq_dealt t n ht hn1 pks hl draw mp hmp
  obtain ⟨hls, hlc⟩ := length_dealt n ((List.range t).map draw) (draw t).val pks
  have he : ins = encParams (dealtParams n ((List.range t).map draw) (draw t).val pks) pks := by
    rw [hd, toInstance_eq ip _ pks (by rw [hls, hl])] at hins
    split at hins
    · cases hins
    · exact (Except.ok.inj hins).symm
  rw [C28_circuit_exact t n ht hn]
  refine and_congr_right fun h1 => and_congr_right fun h2 => and_congr_right fun h3 => ?_
  have h0 := poly_range_zero ht draw
  constructor
  · rintro ⟨coeffs, R, pks', a, b, c, d, e, f, g, k, m⟩
    have e1 := dealingCells_fromInstance (t := t) m b
    rw [he, fromInstance_encParams t n _ pks hls hlc hl] at e1
    have e2 := Except.ok.inj e1
    obtain ⟨i0, i1, i2⟩ := dealtParams_inj (congrArg Prod.fst e2)
    have i3 : pks = pks' := congrArg Prod.snd e2
    rw [← i0, h0] at f g
    subst i3
    refine ⟨?_, c, f, g, fun i h1 h2 => by rw [i2 i h1 h2]; exact k i h1 h2⟩
    rw [← val_not_dvd]
    apply not_dvd_of_nsmul (P := gk)
    rw [i1]
    exact nsmul_gk_ne_zero gk_ne_zero e
  · rintro ⟨i0, c, f, g, k⟩
    refine ⟨(List.range t).map draw, (draw t).val, pks, by simp, hl, c, ?_, val_not_dvd.2 i0,
      by rwa [h0], by rwa [h0], k, ?_⟩
    · exact lt_trans (ZMod.val_lt _) (by decide +kernel)
    · rw [he]
      refine dealingCells_enc ?_ ?_ ?_
      · rw [h0]; exact usable_ne_zero f
      · intro i hi
        rw [List.mem_range'_1] at hi
        exact usable_ne_zero (k i hi.1 (by omega))
      · rw [h0]; exact usable2_ne_zero r_nsmul_g2 g

/-- C29, in the other direction: when the conditions hold the library does produce parameters and an
instance, and the circuit can be satisfied with it. -/
theorem C29_honest_instance_satisfies (ip : Bool) (t n : ℕ) (ht : 0 < t) (hn1 : 1 ≤ n) (hn : n < 2 ^ 64)
    (auxG1 : G1) (auxG2 : G2) (h1 : TableFits 3 g1 auxG1) (h2 : r • auxG2 = 0)
    (h3 : TableFits 3 g2 auxG2) (pks : List Gk) (hl : pks.length = n) (hpk : ∀ pk ∈ pks, pk ≠ 0)
    (draw : ℕ → Fr) (hr : draw t ≠ 0)
    (hu1 : Usable g1 auxG1 (draw 0)) (hu2 : Usable g2 auxG2 (draw 0))
    (hu : ∀ i, 1 ≤ i → i ≤ n → Usable g1 auxG1 (poly ((List.range t).map draw) (i : Fr))) :
    ∃ mp ins, DkgMemberParams.new Poseidon.hash2 ⟨t, n⟩ pks draw = .ok mp ∧
      mp.publicParams.toInstance ip pks = .ok ins ∧ synthesize ⟨t, n⟩ auxG1 auxG2 ins := by
  have hnew := memberParams_eq Poseidon.hash2 ⟨t, n⟩ ht hn1 pks hl draw
  have hd := new_eq_dealt t n ht hn1 pks hl _ _ hnew
  have h0 : poly ((List.range t).map draw) 0 = draw 0 := poly_range_zero ht draw
  have hins := toInstance_eq ip _ pks ((length_dealt n ((List.range t).map draw)
    (draw t).val pks).1.trans hl.symm)
  rw [if_neg] at hins
  · rw [← hd] at hins
    refine ⟨_, _, hnew, hins, ?_⟩
    rw [C29_honest_provable_iff ip t n ht hn1 hn auxG1 auxG2 pks hl _ _ hnew _ hins]
    exact ⟨h1, h2, h3, hr, hpk, hu1, hu2, hu⟩
  · rintro ⟨-, h | h | h⟩
    · simp only [dealtParams, h0] at h
      exact usable_ne_zero hu1 h
    · simp only [dealtParams, List.mem_map, List.mem_range'_1] at h
      obtain ⟨i, hi, e⟩ := h
      exact usable_ne_zero (hu i hi.1 (by omega)) e
    · simp only [dealtParams, h0] at h
      exact usable2_ne_zero r_nsmul_g2 hu2 h

/-- C29. For every auxiliary point at most 69 of the `r` scalars cannot be handled by the windowed
multiplication, on G1 and on G2. -/
theorem C29_few_unusable_scalars (auxG1 : G1) (auxG2 : G2) :
    (∃ bad : Finset Fr, bad.card ≤ 69 ∧ ∀ s ∉ bad, Usable g1 auxG1 s) ∧
    ∃ bad : Finset Fr, bad.card ≤ 69 ∧ ∀ s ∉ bad, Usable g2 auxG2 s :=
  ⟨FixedPoint.few_bad addOrderOf_g1 auxG1, FixedPoint.few_bad addOrderOf_g2 auxG2⟩

/-- C29. Whatever the other coefficients and the (nonzero) encryption randomness are, and for all
finite keys, all but at most `69 (n + 2)` of the `r` secrets give honest parameters whose instance
satisfies the circuit. -/
theorem C29_honest_provable (ip : Bool) (t n : ℕ) (ht : 0 < t) (hn1 : 1 ≤ n) (hn : n < 2 ^ 64)
    (auxG1 : G1) (auxG2 : G2) (h1 : TableFits 3 g1 auxG1) (h2 : r • auxG2 = 0)
    (h3 : TableFits 3 g2 auxG2) (pks : List Gk) (hl : pks.length = n) (hpk : ∀ pk ∈ pks, pk ≠ 0)
    (draw : ℕ → Fr) (hr : draw t ≠ 0) :
    ∃ bad : Finset Fr, bad.card ≤ 69 * (n + 2) ∧ ∀ a ∉ bad, ∃ mp ins,
      DkgMemberParams.new Poseidon.hash2 ⟨t, n⟩ pks (Function.update draw 0 a) = .ok mp ∧
      mp.publicParams.toInstance ip pks = .ok ins ∧ synthesize ⟨t, n⟩ auxG1 auxG2 ins := by
  classical
  obtain ⟨⟨b1, hb1, hu1⟩, b2, hb2, hu2⟩ := C29_few_unusable_scalars auxG1 auxG2
  have hp : ∀ a x : Fr, poly ((List.range t).map (Function.update draw 0 a)) x =
      a + poly ((List.range t).map (Function.update draw 0 0)) x := fun a x => poly_update ht draw a x
  refine ⟨b1 ∪ b2 ∪ (Finset.Icc 1 n).biUnion (fun i => b1.image (fun b =>
    b - poly ((List.range t).map (Function.update draw 0 0)) (i : Fr))), ?_, ?_⟩
  · have e1 : ((Finset.Icc 1 n).biUnion (fun i => b1.image (fun b =>
        b - poly ((List.range t).map (Function.update draw 0 0)) (i : Fr)))).card ≤ n * 69 := by
      have := Finset.card_biUnion_le_card_mul (Finset.Icc 1 n) (fun i => b1.image (fun b =>
        b - poly ((List.range t).map (Function.update draw 0 0)) (i : Fr))) 69
        (fun i _ => le_trans Finset.card_image_le hb1)
      rwa [Nat.card_Icc, Nat.add_sub_cancel] at this
    have e2 := Finset.card_union_le b1 b2
    refine le_trans (Finset.card_union_le _ _) ?_
    omega
  · intro a ha
    simp only [Finset.mem_union, Finset.mem_biUnion, Finset.mem_image, Finset.mem_Icc, not_or,
      not_exists, not_and] at ha
    obtain ⟨⟨ha1, ha2⟩, ha3⟩ := ha
    have hrt : Function.update draw 0 a t ≠ 0 := by
      rw [Function.update_of_ne (by omega)]; exact hr
    have hu : ∀ i : ℕ, 1 ≤ i → i ≤ n →
        Usable g1 auxG1 (poly ((List.range t).map (Function.update draw 0 a)) (i : Fr)) := by
      intro i hi1 hi2
      apply hu1
      rw [hp]
      intro hm
      exact ha3 i ⟨hi1, hi2⟩ _ hm (add_sub_cancel_right _ _)
    exact C29_honest_instance_satisfies ip t n ht hn1 hn auxG1 auxG2 h1 h2 h3 pks hl hpk _ hrt
      (by rw [Function.update_self]; exact hu1 a ha1) (by rw [Function.update_self]; exact hu2 a ha2) hu

/-- A scalar that the multiplication of `g2` in the circuit can handle. -/
theorem toy_usable2 : Usable g2 FixedPoint.aux2 (7 : Fr) :=
  ⟨7, by norm_num, rfl, FixedPoint.fits3N_spec (by decide +kernel)⟩

/-- The hypotheses of C28 and C29 are met: with the auxiliary points `5 g1` and the one of the code,
three members, threshold 2 and the polynomial `7 + 11 x`. -/
example : ∃ mp ins, DkgMemberParams.new Poseidon.hash2 ⟨2, 3⟩ [gk, 2 • gk, 3 • gk]
      (fun i => [7, 11, 13].getD i 0) = .ok mp ∧
    mp.publicParams.toInstance true [gk, 2 • gk, 3 • gk] = .ok ins ∧
    synthesize ⟨2, 3⟩ (5 • g1) FixedPoint.aux2 ins := by
  have hpk : ∀ pk ∈ [gk, 2 • gk, 3 • gk], pk ≠ 0 := by
    intro pk h
    simp only [List.mem_cons, List.not_mem_nil, or_false] at h
    rcases h with rfl | rfl | rfl
    · exact gk_ne_zero
    · exact nsmul_gk_ne_zero gk_ne_zero (by decide +kernel)
    · exact nsmul_gk_ne_zero gk_ne_zero (by decide +kernel)
  have hu : ∀ K : ℕ, K < 2 ^ 254 → FixedPoint.fitsN 3 K 5 = true → Usable g1 (5 • g1) ((K : ℕ) : Fr) :=
    fun K h h' => ⟨K, h, rfl, FixedPoint.fitsN_spec addOrderOf_g1 h'⟩
  have hu2 : Usable g2 FixedPoint.aux2 ((7 : ℕ) : Fr) := toy_usable2
  have hp : ∀ x : Fr, poly ((List.range 2).map (fun i => ([7, 11, 13] : List Fr).getD i 0)) x =
      7 + x * 11 := by
    intro x
    have e : (List.range 2).map (fun i => ([7, 11, 13] : List Fr).getD i 0) = [7, 11] := rfl
    rw [e, poly_cons, poly_cons, poly_nil]; ring
  have hs : ∀ i : ℕ, 1 ≤ i → i ≤ 3 → Usable g1 (5 • g1)
      (poly ((List.range 2).map (fun i => ([7, 11, 13] : List Fr).getD i 0)) (i : Fr)) := by
    intro i h1 h2
    rw [hp]
    obtain rfl | rfl | rfl : i = 1 ∨ i = 2 ∨ i = 3 := by omega
    · have := hu 18 (by norm_num) (by decide +kernel)
      norm_num at this ⊢; exact this
    · have := hu 29 (by norm_num) (by decide +kernel)
      norm_num at this ⊢; exact this
    · have := hu 40 (by norm_num) (by decide +kernel)
      norm_num at this ⊢; exact this
  exact C29_honest_instance_satisfies true 2 3 (by decide) (by decide) (by decide) _ _
    (FixedPoint.tableFitsN_spec addOrderOf_g1 (by decide +kernel)) FixedPoint.r_nsmul_aux2
    FixedPoint.aux2_tableFits _ rfl hpk _ (by decide +kernel : (13 : Fr) ≠ 0)
    (hu 7 (by norm_num) (by decide +kernel)) hu2 hs

end Verif.Props
