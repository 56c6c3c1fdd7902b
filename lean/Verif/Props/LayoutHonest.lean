import Verif.Model.LayoutProver
import Verif.Lemmas.HonestCircuit
import Verif.Lemmas.LayoutTree
import Verif.Props.Layout

/-!
Property C80: the honest prover fills a table that satisfies the layout.
-/

namespace Verif.Props
open Verif Verif.Spec Verif.Layout Verif.DkgCircuit

open Classical in
/-- All but few auxiliary points are good for all bases. -/
theorem few_bad_aux (bs : List Bool) (Ps : List Gk) (hP : ∀ P ∈ Ps, binary bs • P ≠ 0) :
    ∃ bad : Finset Gk, bad.card ≤ Ps.length * (2 * bs.length + 2) + 1 ∧ ∀ A ∉ bad, A ≠ 0 ∧ ∀ P ∈ Ps, GoodAux bs A P := by
  refine ⟨(0 :: Ps.flatMap (GrumpkinChip.badAux bs)).toFinset, ?_, fun A hA => ?_⟩
  · refine (List.toFinset_card_le _).trans ?_
    rw [List.length_cons, Layout.length_flatMap_const (f := GrumpkinChip.badAux bs) (GrumpkinChip.badAux_length bs)]
    exact (by ring : _ = _).le
  · rw [List.mem_toFinset, List.mem_cons, not_or, List.mem_flatMap] at hA
    refine ⟨hA.1, fun P h => ?_⟩
    obtain ⟨h1, h2, h3⟩ := GrumpkinChip.good_of_not_bad fun h' => hA.2 ⟨P, h, h'⟩
    exact ⟨h1, h3, hP P h⟩

theorem length_encParams (pp : DkgMemberPublicParams) (pks : List Gk) :
    (encParams pp pks).length = 14 + 4 * pp.publicShares.length + pp.ciphers.length + 2 * pks.length := by
  unfold encParams
  have h2 : (enc2 pp.g2a).length = 8 := rfl
  have h3 : (encGk pp.gr).length = 2 := rfl
  rw [List.length_append, List.length_append, List.length_append, List.length_append, List.length_append, length_enc1,
    Layout.length_flatMap_const (fun _ => length_enc1 _), h2, h3, Layout.length_flatMap_const (f := encGk) (k := 2) fun _ => rfl]
  ring

/-- C80. The honest prover succeeds: when the tables can be assigned, the encryption randomness is nonzero, the keys are
finite, and the secret and the shares are scalars that the windowed multiplications can handle, the library produces
parameters and an instance, and, for all but at most `510 (n + 1) + 1` of the auxiliary Grumpkin points that it may draw,
running `synthesize` fills a table that satisfies all gates, copy constraints, constants and public inputs of the layout
with that instance. -/
theorem C80_honest_prover (J : IntegerImpl) (range : Fr → Fr → Prop)
    (hJ : ∀ inp inst, ∃ Is, J.Complete ⟨inp, inst, range⟩ Is) (ip : Bool) (t n : ℕ) (ht : 0 < t) (hn : 1 ≤ n)
    (auxG1 : G1) (auxG2 : G2) (h1 : TableFits 3 g1 auxG1) (h2 : r • auxG2 = 0) (h3 : TableFits 3 g2 auxG2)
    (pks : List Gk) (hl : pks.length = n) (hpk : ∀ pk ∈ pks, pk ≠ 0) (draw : ℕ → Fr) (hr : draw t ≠ 0)
    (hf1 : AuxFits 3 (draw 0).val g1 auxG1) (hf2 : AuxFits 3 (draw 0).val g2 auxG2)
    (hfs : ∀ i, 1 ≤ i → i ≤ n → AuxFits 3 (poly ((List.range t).map draw) (i : Fr)).val g1 auxG1) :
    ∃ mp ins, DkgMemberParams.new Poseidon.hash2 ⟨t, n⟩ pks draw = .ok mp ∧
      mp.publicParams.toInstance ip pks = .ok ins ∧
      ∃ bad : Finset Gk, bad.card ≤ 510 * (n + 1) + 1 ∧ ∀ A ∉ bad, ∀ w0, ∃ inp S T,
        circuitOf mp A = some inp ∧ honestTable J ⟨t, n⟩ auxG1 auxG2 inp ins range w0 = some (S, T) ∧
        layout J ⟨t, n⟩ auxG1 auxG2 = some (S, ins.length) ∧ Layout.Holds S T := by
  have hnew := memberParams_eq Poseidon.hash2 ⟨t, n⟩ ht hn pks hl draw
  have hd := new_eq_dealt t n ht hn pks hl _ _ hnew
  have h0 : poly ((List.range t).map draw) 0 = draw 0 := poly_range_zero ht draw
  obtain ⟨hls, hlc⟩ := length_dealt n ((List.range t).map draw) (draw t).val pks
  have hins := toInstance_eq ip _ pks (hls.trans hl.symm)
  rw [if_neg] at hins
  · rw [← hd] at hins
    refine ⟨_, _, hnew, hins, ?_⟩
    have hnz : ∀ P ∈ gk :: pks, binary (canonBits (draw t)) • P ≠ 0 := by
      intro P hP
      rw [canonBits_binary]
      refine nsmul_gk_ne_zero ?_ (val_not_dvd.2 hr)
      rcases List.mem_cons.1 hP with rfl | hP
      · exact gk_ne_zero
      · exact hpk P hP
    obtain ⟨bad, hb, hgood⟩ := few_bad_aux (canonBits (draw t)) (gk :: pks) hnz
    refine ⟨bad, ?_, fun A hA w0 => ?_⟩
    · rw [List.length_cons, hl, canonBits_length] at hb
      exact hb.trans (by omega)
    obtain ⟨hA0, hg⟩ := hgood A hA
    have hc : circuitOf (⟨⟨t, n⟩, (List.range t).map draw, (List.range' 1 n).map (fun i : ℕ => poly ((List.range t).map draw) (i : Fr)),
        draw t, pks, dealtParams n ((List.range t).map draw) (draw t).val pks⟩ : DkgMemberParams) A =
        some ⟨fun i => ((List.range t).map draw).getD i 0, draw t, fun i => coords (pks.getD i 0), coords A⟩ :=
      if_pos ⟨by rw [List.length_map, List.length_range], hl⟩
    rw [← hd] at hc
    obtain ⟨Is, hIs⟩ := hJ ⟨fun i => ((List.range t).map draw).getD i 0, draw t, fun i => coords (pks.getD i 0), coords A⟩
      fun j => (encParams (dealtParams n ((List.range t).map draw) (draw t).val pks) pks).getD j 0
    have hrun := runsR_synthesize (s := ⟨∅, w0⟩) hIs ht hn h1 h2 h3 (cs := (List.range t).map draw) (by
          refine List.map_congr_left fun i hi => ?_
          dsimp only
          rw [FixedPoint.getD_lt _ _ (by rw [List.length_map]; exact (List.length_range).symm ▸ List.mem_range.1 hi), List.getElem_map,
            List.getElem_range]) hl hpk (fun i _ => rfl) hA0 rfl hg
        (by rw [h0]; exact hf1) (by rw [h0]; exact hf2) hfs (by
          intro j v hv
          rw [Nat.zero_add]
          dsimp only
          rw [List.getD_eq_getElem?_getD, hv]
          rfl)
    obtain ⟨o, s', e1, e2, -, ⟨-, e3⟩, e4⟩ := hrun ⟨0, 0⟩ (fun x hx => absurd hx (Set.notMem_empty x))
    refine ⟨_, o.shape, _, hc, ?_, ?_, e4 s'.val (keeps_self s')⟩
    · unfold honestTable
      rw [e1, e2, hd]
      rfl
    · unfold layout
      rw [e1]
      have := length_encParams (dealtParams n ((List.range t).map draw) (draw t).val pks) pks
      rw [hls, hlc, hl, (by ring : 14 + 4 * n + n + 2 * n = 7 * n + 14)] at this
      rw [hd, this, ← e3]
      rfl
  · rintro ⟨-, h | h | h⟩
    · simp only [dealtParams, h0] at h
      exact usable_ne_zero (FixedPoint.usable_of_val hf1) h
    · simp only [dealtParams, List.mem_map, List.mem_range'_1] at h
      obtain ⟨i, hi, e⟩ := h
      exact usable_ne_zero (FixedPoint.usable_of_val (hfs i hi.1 (by omega))) e
    · simp only [dealtParams, h0] at h
      exact usable2_ne_zero r_nsmul_g2 (FixedPoint.usable_of_val hf2) h

/-- C80. For all draws of the other random numbers, all but at most `69 (n + 2)` secrets `a` can be proved honestly: the honest
prover succeeds for all but at most `510 (n + 1) + 1` of the auxiliary Grumpkin points. -/
theorem C80_most_secrets (J : IntegerImpl) (range : Fr → Fr → Prop)
    (hJ : ∀ inp inst, ∃ Is, J.Complete ⟨inp, inst, range⟩ Is) (ip : Bool) (t n : ℕ) (ht : 0 < t) (hn : 1 ≤ n)
    (auxG1 : G1) (auxG2 : G2) (h1 : TableFits 3 g1 auxG1) (h2 : r • auxG2 = 0) (h3 : TableFits 3 g2 auxG2)
    (pks : List Gk) (hl : pks.length = n) (hpk : ∀ pk ∈ pks, pk ≠ 0) (draw : ℕ → Fr) (hr : draw t ≠ 0) :
    ∃ badSecret : Finset Fr, badSecret.card ≤ 69 * (n + 2) ∧ ∀ a ∉ badSecret, ∃ mp ins,
      DkgMemberParams.new Poseidon.hash2 ⟨t, n⟩ pks (Function.update draw 0 a) = .ok mp ∧
      mp.publicParams.toInstance ip pks = .ok ins ∧
      ∃ bad : Finset Gk, bad.card ≤ 510 * (n + 1) + 1 ∧ ∀ A ∉ bad, ∀ w0, ∃ inp S T,
        circuitOf mp A = some inp ∧ honestTable J ⟨t, n⟩ auxG1 auxG2 inp ins range w0 = some (S, T) ∧
        layout J ⟨t, n⟩ auxG1 auxG2 = some (S, ins.length) ∧ Layout.Holds S T := by
  classical
  obtain ⟨b1, hb1, hu1⟩ := FixedPoint.few_bad_val addOrderOf_g1 auxG1
  obtain ⟨b2, hb2, hu2⟩ := FixedPoint.few_bad_val addOrderOf_g2 auxG2
  have hp : ∀ a x : Fr, poly ((List.range t).map (Function.update draw 0 a)) x =
      a + poly ((List.range t).map (Function.update draw 0 0)) x := fun a x => poly_update ht draw a x
  refine ⟨b1 ∪ b2 ∪ (Finset.Icc 1 n).biUnion (fun i => b1.image (fun b =>
    b - poly ((List.range t).map (Function.update draw 0 0)) (i : Fr))), ?_, ?_⟩
  · have e1 : ((Finset.Icc 1 n).biUnion (fun i => b1.image (fun b =>
        b - poly ((List.range t).map (Function.update draw 0 0)) (i : Fr)))).card ≤ n * 69 := by
      have := Finset.card_biUnion_le_card_mul (Finset.Icc 1 n) (fun i => b1.image (fun b =>
        b - poly ((List.range t).map (Function.update draw 0 0)) (i : Fr))) 69
        (fun i _ => le_trans Finset.card_image_le hb1)
      rwa [Nat.card_Icc, Nat.add_sub_cancel] at this
    have e2 := Finset.card_union_le b1 b2
    refine le_trans (Finset.card_union_le _ _) ?_
    omega
  · intro a ha
    simp only [Finset.mem_union, Finset.mem_biUnion, Finset.mem_image, Finset.mem_Icc, not_or,
      not_exists, not_and] at ha
    obtain ⟨⟨ha1, ha2⟩, ha3⟩ := ha
    have hrt : Function.update draw 0 a t ≠ 0 := by
      rw [Function.update_of_ne (by omega)]; exact hr
    refine C80_honest_prover J range hJ ip t n ht hn auxG1 auxG2 h1 h2 h3 pks hl hpk _ hrt
      (by rw [Function.update_self]; exact hu1 a ha1) (by rw [Function.update_self]; exact hu2 a ha2) fun i hi1 hi2 => ?_
    apply hu1
    rw [hp]
    intro hm
    exact ha3 i ⟨hi1, hi2⟩ _ hm (add_sub_cancel_right _ _)

/-- The hypotheses of C80 and of C78 are met: with the chip `treeChip`, three members, threshold 2 and the polynomial `7 + 11 x`
the honest prover fills a table of the layout; the layout has `35` public inputs, its constraints hold, and the
chip is correct in that table. -/
example : ∃ (S : Shape) (T : Table) (good : TreeInt → Prop) (val : TreeInt → Fq),
    layout treeChip ⟨2, 3⟩ (5 • g1) FixedPoint.aux2 = some (S, 35) ∧ Layout.Holds S T ∧ treeChip.Correct T good val ∧
    ∃ mp, DkgMemberParams.new Poseidon.hash2 ⟨2, 3⟩ [gk, 2 • gk, 3 • gk] (fun i => [7, 11, 13].getD i 0) = .ok mp ∧
      mp.publicParams.toInstance true [gk, 2 • gk, 3 • gk] = .ok ((List.range 35).map T.inst) := by
  have hpk : ∀ pk ∈ [gk, 2 • gk, 3 • gk], pk ≠ 0 := by
    intro pk h
    simp only [List.mem_cons, List.not_mem_nil, or_false] at h
    rcases h with rfl | rfl | rfl
    · exact gk_ne_zero
    · exact nsmul_gk_ne_zero gk_ne_zero (by decide +kernel)
    · exact nsmul_gk_ne_zero gk_ne_zero (by decide +kernel)
  have hp : ∀ x : Fr, poly ((List.range 2).map (fun i => ([7, 11, 13] : List Fr).getD i 0)) x = 7 + x * 11 := by
    intro x
    have e : (List.range 2).map (fun i => ([7, 11, 13] : List Fr).getD i 0) = [7, 11] := rfl
    rw [e, poly_cons, poly_cons, poly_nil]; ring
  have hu : ∀ K : ℕ, K < r → FixedPoint.fitsN 3 K 5 = true → AuxFits 3 ((K : ℕ) : Fr).val g1 (5 • g1) := by
    intro K h h'
    rw [ZMod.val_natCast, Nat.mod_eq_of_lt h]
    exact FixedPoint.fitsN_spec addOrderOf_g1 h'
  have hs : ∀ i : ℕ, 1 ≤ i → i ≤ 3 → AuxFits 3
      (poly ((List.range 2).map (fun i => ([7, 11, 13] : List Fr).getD i 0)) (i : Fr)).val g1 (5 • g1) := by
    intro i h1 h2
    rw [hp]
    obtain rfl | rfl | rfl : i = 1 ∨ i = 2 ∨ i = 3 := by omega
    · rw [show (7 + ((1 : ℕ) : Fr) * 11) = ((18 : ℕ) : Fr) from by norm_num]
      exact hu 18 (by decide +kernel) (by decide +kernel)
    · rw [show (7 + ((2 : ℕ) : Fr) * 11) = ((29 : ℕ) : Fr) from by norm_num]
      exact hu 29 (by decide +kernel) (by decide +kernel)
    · rw [show (7 + ((3 : ℕ) : Fr) * 11) = ((40 : ℕ) : Fr) from by norm_num]
      exact hu 40 (by decide +kernel) (by decide +kernel)
  obtain ⟨mp, ins, e1, e2, bad, hb, h⟩ := C80_honest_prover treeChip (fun _ _ => True) (fun inp inst => ⟨_, treeChip_complete _⟩)
    true 2 3 (by norm_num) (by norm_num) (5 • g1) FixedPoint.aux2
    (FixedPoint.tableFitsN_spec addOrderOf_g1 (by decide +kernel)) FixedPoint.r_nsmul_aux2 FixedPoint.aux2_tableFits
    [gk, 2 • gk, 3 • gk] rfl hpk (fun i => [7, 11, 13].getD i 0) (by decide +kernel) (hu 7 (by decide +kernel) (by decide +kernel))
    (FixedPoint.fits3N_spec (by decide +kernel)) hs
  obtain ⟨A, hA⟩ : ∃ A, A ∉ bad := by
    by_contra hall
    push Not at hall
    have hc : Nat.card Gk ≤ bad.card := by
      have h1 := Set.ncard_le_ncard (s := Set.univ) (t := (bad : Set Gk)) (fun A _ => hall A) (Finset.finite_toSet _)
      rwa [Set.ncard_univ, Set.ncard_coe_finset] at h1
    rw [card_Gk] at hc
    exact absurd (hc.trans hb) (by decide +kernel)
  obtain ⟨inp, S, T, f1, f2, f3, f4⟩ := h A hA fun _ => 0
  have hN := C78_public_inputs _ _ _ _ _ _ _ f3
  rw [hN] at f3
  refine ⟨S, T, _, _, f3, f4, treeChip_correct T, mp, e1, ?_⟩
  obtain ⟨o, -, f5⟩ := Option.map_eq_some_iff.1 f2
  rw [e2, ← (Prod.mk.inj f5).2]
  dsimp only
  rw [map_getD_range ins 0 hN]

end Verif.Props
