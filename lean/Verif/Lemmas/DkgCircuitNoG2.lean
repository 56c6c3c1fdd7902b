import Verif.Model.DkgCircuitNoG2
import Verif.Lemmas.DkgCircuitMain
import Verif.Lemmas.DkgCircuitParams

namespace Verif.DkgCircuit
open Verif Spec FixedPoint GrumpkinChip

/-- What the circuit enforces, with the auxiliary point of the Grumpkin chip. -/
theorem synthesizeNoG2_iff_aux {cfg : DkgConfig} (ht : 0 < cfg.threshold) (auxG1 : G1)
    (ins : List Fr) :
    synthesizeNoG2 cfg auxG1 ins ↔
      (∃ t, assignTable ops1 windowSize g1 auxG1 t) ∧
      ∃ (coeffs : List Fr) (bs : List Bool) (pks : List Gk) (A : Gk),
        coeffs.length = cfg.threshold ∧ bs.length = 254 ∧ pks.length = cfg.numberOfMembers ∧
        (∀ pk ∈ pks, pk ≠ 0) ∧ A ≠ 0 ∧
        (∀ P ∈ gk :: pks, good bs A P ∧ A + binary bs • P ≠ 0 ∧ A + binary bs • P ≠ -A) ∧
        (∀ P ∈ gk :: pks, binary bs • P ≠ 0) ∧
        Usable g1 auxG1 (poly coeffs 0) ∧
        (∀ i ∈ List.range' 1 cfg.numberOfMembers, Usable g1 auxG1 (poly coeffs (i : Fr))) ∧
        DealingCellsNoG2 cfg.numberOfMembers coeffs (binary bs) pks ins := by
  constructor
  · rintro ⟨coeffs, shares, tab1, aux, auxNeg, base, cga, cgs, g, gr, bits, pks, ciphers,
      hl, hsh, ht1, haux, hneg, hbase, hga, hgs, hg, hbits, hgr, hpl, hcl, hm, hins⟩
    rw [assignConstant_gate_iff] at hbase
    subst hbase
    rw [sharesRegion_iff hl ht] at hsh
    subst hsh
    rw [shares_take, forall₂_map_left] at hgs
    simp only [exposeG1_iff ht1] at hgs hga
    rw [forall₂_and_left (fun i : ℕ => Usable g1 auxG1 (poly coeffs (i : Fr)))] at hgs
    rw [poly_zero_getD (by omega)] at hga
    obtain ⟨A, hA⟩ := assignPoint_iff.1 haux
    have hN := (neg_iff hA).1 hneg
    obtain ⟨bs, rfl⟩ := bits_eq_map hbits.2
    have hbl : bs.length = 254 := by simpa using hbits.1
    have hgH : Holds g gk := by
      refine ⟨gk_ne_zero, ?_⟩
      have h1 := assignConstant_gate_iff.1 hg.1
      have h2 := assignConstant_gate_iff.1 hg.2
      exact (Prod.ext h1 h2).symm
    obtain ⟨g1', g2', g3', g4'⟩ := (mulBits_iff hA hN hgH bs).1 hgr
    have hex : ∀ i < cfg.numberOfMembers, ∃ P : Gk, Holds (pks.getD i (0, 0)) P ∧
        (good bs A P ∧ A + binary bs • P ≠ 0 ∧ A + binary bs • P ≠ -A) ∧ binary bs • P ≠ 0 ∧
        ciphers.getD i 0 = poly coeffs ((i + 1 : ℕ) : Fr) +
          Poseidon.hash2 (coords (binary bs • P)).1 (coords (binary bs • P)).2 := by
      intro i hi
      have := (memberRegion_iff hA hN).1 (hm i hi)
      rwa [shares_getD coeffs hi] at this
    choose! F hF using hex
    let pks' : List Gk := (List.range cfg.numberOfMembers).map F
    have hpk' : pks'.length = cfg.numberOfMembers := by simp [pks']
    have hget : ∀ i < cfg.numberOfMembers, pks'.getD i 0 = F i := by
      intro i hi
      rw [getD_lt _ _ (by rw [hpk']; exact hi)]
      simp [pks']
    have hmem : ∀ P ∈ pks', ∃ i < cfg.numberOfMembers, F i = P := by
      intro P hP
      obtain ⟨i, hi, e⟩ := List.mem_map.1 hP
      exact ⟨i, List.mem_range.1 hi, e⟩
    refine ⟨⟨tab1, ht1⟩, coeffs, bs, pks', A, hl, hbl, hpk', ?_, hA.1, ?_, ?_, hga.1,
      hgs.1, cga, cgs, hga.2, hgs.2, ?_⟩
    · intro P hP
      obtain ⟨i, hi, rfl⟩ := hmem P hP
      exact (hF i hi).1.1
    · intro P hP
      rcases List.mem_cons.1 hP with rfl | hP
      · exact ⟨g1', g2', g3'⟩
      · obtain ⟨i, hi, rfl⟩ := hmem P hP
        exact (hF i hi).2.1
    · intro P hP
      rcases List.mem_cons.1 hP with rfl | hP
      · exact g4'.1
      · obtain ⟨i, hi, rfl⟩ := hmem P hP
        exact (hF i hi).2.2.1
    · rw [hins]
      have e1 : [gr.1, gr.2] = [(coords (binary bs • gk)).1, (coords (binary bs • gk)).2] := by
        rw [g4'.2]
      have e2 : ciphers = (List.range cfg.numberOfMembers).map (fun i =>
          poly coeffs ((i + 1 : ℕ) : Fr) + Poseidon.hash2 (coords (binary bs • pks'.getD i 0)).1
            (coords (binary bs • pks'.getD i 0)).2) := by
        rw [← map_getD_range ciphers 0 hcl]
        apply List.map_congr_left
        intro i hi
        have hi' := List.mem_range.1 hi
        rw [(hF i hi').2.2.2, hget i hi']
      have e3 : pks.flatMap (fun pk => [pk.1, pk.2]) =
          pks'.flatMap (fun pk => [(coords pk).1, (coords pk).2]) := by
        have : pks = pks'.map coords := by
          rw [← map_getD_range pks (0, 0) hpl]
          simp only [pks', List.map_map]
          apply List.map_congr_left
          intro i hi
          exact (hF i (List.mem_range.1 hi)).1.2.symm
        rw [this, List.flatMap_map]
      rw [e1, ← e2, e3]
  · rintro ⟨⟨tab1, ht1⟩, coeffs, bs, pks, A, hl, hbl, hpl, hpk, hA0, hgood, hnz, hu0, hu,
      cga, cgs, hga, hgs, hins⟩
    have hA := holds_coords hA0
    have hN := holds_neg hA
    have hgm := hgood gk (by simp)
    refine ⟨coeffs, _, tab1, coords A, _, _, cga, cgs, coords gk, coords (binary bs • gk),
      bs.map bitCell, pks.map coords, (List.range cfg.numberOfMembers).map (fun i =>
          poly coeffs ((i + 1 : ℕ) : Fr) + Poseidon.hash2 (coords (binary bs • pks.getD i 0)).1
            (coords (binary bs • pks.getD i 0)).2), hl,
      (sharesRegion_iff hl ht).2 rfl, ht1,
      assignPoint_iff.2 ⟨A, hA⟩, (neg_iff hA).2 hN, assignConstant_gate_iff.2 rfl, ?_, ?_,
      ⟨assignConstant_gate_iff.2 rfl, assignConstant_gate_iff.2 rfl⟩,
      ⟨by simpa using hbl, ?_⟩, ?_, by simpa using hpl, by simp, ?_, ?_⟩
    · rw [poly_zero_getD (by omega), exposeG1_iff ht1]; exact ⟨hu0, hga⟩
    · rw [shares_take, forall₂_map_left]
      simp only [exposeG1_iff ht1]
      exact (forall₂_and_left (fun i : ℕ => Usable g1 auxG1 (poly coeffs (i : Fr))) _ _ _).2 ⟨hu, hgs⟩
    · intro b hb
      obtain ⟨b', _, rfl⟩ := List.mem_map.1 hb
      exact assignBit_bitCell b'
    · exact (mulBits_iff hA hN (holds_coords gk_ne_zero) bs).2
        ⟨hgm.1, hgm.2.1, hgm.2.2, holds_coords (hnz gk (by simp))⟩
    · intro i hi
      rw [shares_getD coeffs hi]
      have hi' : i < pks.length := by omega
      have hP : pks.getD i 0 ∈ pks := by rw [getD_lt _ _ hi']; exact List.getElem_mem _
      refine (memberRegion_iff hA hN).2 ⟨pks.getD i 0, ?_, hgood _ (List.mem_cons_of_mem _ hP),
        hnz _ (List.mem_cons_of_mem _ hP), ?_⟩
      · rw [getD_lt (pks.map coords) _ (by simpa using hi'), getD_lt _ _ hi', List.getElem_map]
        refine holds_coords (hpk _ (List.getElem_mem _))
      · rw [getD_lt (List.map _ _) _ (by rw [List.length_map, List.length_range]; exact hi),
          List.getElem_map, List.getElem_range]
    · rw [hins, List.flatMap_map]

/-- What the circuit enforces. -/
theorem synthesizeNoG2_iff {cfg : DkgConfig} (ht : 0 < cfg.threshold)
    (hn : (cfg.numberOfMembers + 1) * 510 + 1 < q) (auxG1 : G1) (ins : List Fr) :
    synthesizeNoG2 cfg auxG1 ins ↔
      (∃ t, assignTable ops1 windowSize g1 auxG1 t) ∧
      ∃ (coeffs : List Fr) (R : ℕ) (pks : List Gk),
        coeffs.length = cfg.threshold ∧ pks.length = cfg.numberOfMembers ∧
        (∀ pk ∈ pks, pk ≠ 0) ∧ R < 2 ^ 254 ∧ ¬ q ∣ R ∧
        Usable g1 auxG1 (poly coeffs 0) ∧
        (∀ i ∈ List.range' 1 cfg.numberOfMembers, Usable g1 auxG1 (poly coeffs (i : Fr))) ∧
        DealingCellsNoG2 cfg.numberOfMembers coeffs R pks ins := by
  rw [synthesizeNoG2_iff_aux ht]
  constructor
  · rintro ⟨h1, coeffs, bs, pks, A, hl, hbl, hpl, hpk, hA0, hgood, hnz, h3, h4, h6⟩
    exact ⟨h1, coeffs, binary bs, pks, hl, hpl, hpk, hbl ▸ binary_lt bs,
      not_dvd_of_nsmul (hnz gk (by simp)), h3, h4, h6⟩
  · rintro ⟨h1, coeffs, R, pks, hl, hpl, hpk, hR, hq, h3, h4, h6⟩
    obtain ⟨bs, hbl, rfl⟩ := exists_binary 254 R hR
    obtain ⟨A, hA0, hA⟩ := exists_aux bs (gk :: pks) (by
      rw [List.length_cons, hpl, hbl]; exact hn)
    refine ⟨h1, coeffs, bs, pks, A, hl, hbl, hpl, hpk, hA0, hA, ?_, h3, h4, h6⟩
    intro P hP
    apply nsmul_gk_ne_zero _ hq
    rcases List.mem_cons.1 hP with rfl | hP
    · exact gk_ne_zero
    · exact hpk P hP

/-- The instance without the public value in G2. -/
def encParamsNoG2 (pp : DkgMemberPublicParams) (pks : List Gk) : List Fr :=
  enc1 pp.ga ++ (pp.publicShares.flatMap enc1 ++ (encGk pp.gr ++
    (pp.ciphers ++ pks.flatMap encGk)))

theorem mapM_ok_forall₂ {ε α β : Type} (f : α → Except ε β) : ∀ {l : List α} {l' : List β},
    l.mapM f = .ok l' → List.Forall₂ (fun a b => f a = .ok b) l l'
  | [], l', h => by cases h; exact .nil
  | a :: l, l', h => by
    rw [List.mapM_cons] at h
    cases ha : f a with
    | error e => rw [ha] at h; cases h
    | ok b =>
      cases hl : l.mapM f with
      | error e => rw [ha, hl] at h; cases h
      | ok bs =>
        rw [ha, hl] at h
        cases h
        exact .cons ha (mapM_ok_forall₂ f hl)

theorem pointToPublic_ok {ip : Bool} {P : G1} {d : List Fr} (h : pointToPublic ip P = .ok d) :
    d = enc1 P := by
  rw [pointToPublic_eq] at h
  split at h
  · cases h
  · exact (Except.ok.inj h).symm

theorem forall₂_range_take {α β : Type} (f : α → β) : ∀ (m k : ℕ) (l : List α) (d : List β),
    List.Forall₂ (fun i b => ∃ a, l[i]? = some a ∧ b = f a) (List.range' k m) d →
      (m = 0 ∨ k + m ≤ l.length) ∧ d = ((l.drop k).take m).map f := by
  intro m
  induction m with
  | zero =>
    intro k l d h
    cases h
    exact ⟨Or.inl rfl, by simp⟩
  | succ m ih =>
    intro k l d h
    rw [List.range'_succ] at h
    cases h with
    | cons h1 h2 =>
      obtain ⟨a, ha, rfl⟩ := h1
      obtain ⟨h3, rfl⟩ := ih _ _ _ h2
      have hk : k < l.length := (List.getElem?_eq_some_iff.1 ha).1
      refine ⟨Or.inr (by omega), ?_⟩
      have hd : l.drop k = a :: l.drop (k + 1) := by
        rw [List.drop_eq_getElem_cons hk, (List.getElem?_eq_some_iff.1 ha).2]
      rw [hd, List.take_succ_cons, List.map_cons]

theorem toInstanceNoG2_ok {ip : Bool} {pp : DkgMemberPublicParams} {pks : List Gk} {ins : List Fr}
    (h : pp.toInstanceNoG2 ip pks = .ok ins) :
    pks.length ≤ pp.publicShares.length ∧
      ins = encParamsNoG2 { pp with publicShares := pp.publicShares.take pks.length } pks := by
  unfold DkgMemberPublicParams.toInstanceNoG2 at h
  cases h1 : pointToPublic ip pp.ga with
  | error e => rw [h1] at h; cases h
  | ok d1 =>
    cases h2 : (List.range pks.length).mapM
        (fun i => (do let P ← getOrPanic pp.publicShares i; pointToPublic ip P : Res (List Fr))) with
    | error e => rw [h1, h2] at h; cases h
    | ok d2 =>
      rw [h1, h2] at h
      have h3 := Except.ok.inj h
      have h4 := mapM_ok_forall₂ _ h2
      rw [List.range_eq_range'] at h4
      obtain ⟨h5, h6⟩ := forall₂_range_take enc1 pks.length 0 pp.publicShares d2 (h4.imp (by
        intro i b hb
        cases hg : pp.publicShares[i]? with
        | none => simp only [getOrPanic, hg] at hb; cases hb
        | some P =>
          simp only [getOrPanic, hg] at hb
          exact ⟨P, rfl, pointToPublic_ok hb⟩))
      rw [List.drop_zero] at h6
      refine ⟨by omega, ?_⟩
      rw [← h3, pointToPublic_ok h1, h6]
      simp only [encParamsNoG2, List.flatMap_def, encGk, List.append_assoc]
      rfl

theorem toInstanceNoG2_eq (ip : Bool) (pp : DkgMemberPublicParams) (pks : List Gk)
    (hs : pp.publicShares.length = pks.length) (h0 : pp.ga ≠ 0) (hn : (0 : G1) ∉ pp.publicShares) :
    pp.toInstanceNoG2 ip pks = .ok (encParamsNoG2 pp pks) := by
  have hp : ∀ P : G1, P ≠ 0 → pointToPublic ip P = .ok (enc1 P) := by
    intro P hP
    rw [pointToPublic_eq, if_neg (fun h => hP h.2)]
  have hm : (List.range pks.length).mapM (fun i =>
      (do let P ← getOrPanic pp.publicShares i; pointToPublic ip P : Res (List Fr))) =
      .ok (pp.publicShares.map enc1) := by
    rw [mapM_ok _ (fun i => enc1 (pp.publicShares.getD i 0))]
    · congr 1
      conv_rhs => rw [← map_getD_range pp.publicShares 0 hs]
      rw [List.map_map]
      rfl
    · intro i hi
      have hi' : i < pp.publicShares.length := by have := List.mem_range.1 hi; omega
      rw [getOrPanic_eq (a := pp.publicShares.getD i 0) (by simp [hi'])]
      refine hp _ (fun e => hn ?_)
      rw [← e, getD_lt _ _ hi']
      exact List.getElem_mem _
  unfold DkgMemberPublicParams.toInstanceNoG2
  rw [hp _ h0, hm]
  simp only [bind, Except.bind, pure, Except.pure, encParamsNoG2, encGk, List.flatMap_def,
    List.append_assoc]
  rfl

theorem length_flatten_cells {n : ℕ} {coeffs : List Fr} : ∀ {l : List ℕ} {cgs : List (List Fr)},
    List.Forall₂ (fun (i : ℕ) d => PointCells (poly coeffs (i : Fr) • g1) d) l cgs →
      cgs.flatten.length = 4 * l.length
  | _, _, .nil => rfl
  | _, _, .cons h1 h2 => by
    rw [List.flatten_cons, List.length_append, h1.length, length_flatten_cells (n := n) h2,
      List.length_cons]
    omega

/-- Parameters whose instance is that of a dealing are those of the dealing, up to `g2a`. -/
theorem dealingNoG2_params {n : ℕ} {coeffs : List Fr} {R : ℕ} {pks pks' : List Gk}
    {pp : DkgMemberPublicParams} (hs : pp.publicShares.length = n) (hp : pks.length = n)
    (hp' : pks'.length = n) (ha : smul2 (poly coeffs 0) g2 ≠ 0)
    (h : DealingCellsNoG2 n coeffs R pks' (encParamsNoG2 pp pks)) :
    { pp with g2a := smul2 (poly coeffs 0) g2 } = dealtParams n coeffs R pks' ∧ pks = pks' := by
  obtain ⟨cga, cgs, h1, h2, h3⟩ := h
  have hl1 : (pp.publicShares.flatMap enc1).length = 4 * n := by
    rw [length_flatMap_const enc1 4 (fun _ => rfl), hs, mul_comm]
  have hl2 : (pks.flatMap encGk).length = 2 * n := by
    rw [length_flatMap_const encGk 2 (fun _ => rfl), hp, mul_comm]
  have hl2' : (pks'.flatMap encGk).length = 2 * n := by
    rw [length_flatMap_const encGk 2 (fun _ => rfl), hp', mul_comm]
  have hl3 := length_flatten_cells (n := n) h2
  rw [List.length_range'] at hl3
  generalize hC : (List.range n).map (fun i => poly coeffs ((i + 1 : ℕ) : Fr) +
        Poseidon.hash2 (coords (R • pks'.getD i 0)).1 (coords (R • pks'.getD i 0)).2) = C at h3
  have hCl : C.length = n := by rw [← hC, List.length_map, List.length_range]
  have hclen : pp.ciphers.length = n := by
    have := congrArg List.length h3
    change _ = (cga ++ cgs.flatten ++ encGk (R • gk) ++ C ++ pks'.flatMap encGk).length at this
    simp only [encParamsNoG2, List.length_append, length_enc1, hl1, hl2, hl2', hl3, h1.length, hCl,
      encGk, List.length_cons, List.length_nil] at this
    omega
  have h3' : (enc1 pp.ga ++ pp.publicShares.flatMap enc1) ++ (encGk pp.gr ++
      (pp.ciphers ++ pks.flatMap encGk)) =
      (cga ++ cgs.flatten) ++ (encGk (R • gk) ++ (C ++ pks'.flatMap encGk)) := by
    have e : encParamsNoG2 pp pks = (enc1 pp.ga ++ pp.publicShares.flatMap enc1) ++ (encGk pp.gr ++
      (pp.ciphers ++ pks.flatMap encGk)) := by
      simp only [encParamsNoG2, List.append_assoc]
    rw [← e, h3]
    simp only [List.append_assoc]
    rfl
  obtain ⟨e1, e2⟩ := List.append_inj h3' (by
    rw [List.length_append, List.length_append, length_enc1, hl1, h1.length, hl3])
  have hD : DealingCells n coeffs R pks'
      (encParams { pp with g2a := smul2 (poly coeffs 0) g2 } pks) := by
    refine ⟨cga, cgs, enc2 (smul2 (poly coeffs 0) g2), h1, h2, point2Cells_enc ha, ?_⟩
    rw [hC]
    have e : encParams { pp with g2a := smul2 (poly coeffs 0) g2 } pks =
        (enc1 pp.ga ++ pp.publicShares.flatMap enc1) ++ (enc2 (smul2 (poly coeffs 0) g2) ++
          (encGk pp.gr ++ (pp.ciphers ++ pks.flatMap encGk))) := by
      simp only [encParams, List.append_assoc]
    rw [e, e1, e2]
    simp only [List.append_assoc]
    rfl
  have f1 := dealingCells_fromInstance (t := 1) hD hp'
  rw [fromInstance_encParams 1 n { pp with g2a := smul2 (poly coeffs 0) g2 } pks hs hclen hp] at f1
  have f2 := Except.ok.inj f1
  exact ⟨congrArg Prod.fst f2, congrArg Prod.snd f2⟩

/-- The honest encoding of a dealing. -/
theorem dealingNoG2_enc {n : ℕ} {coeffs : List Fr} {R : ℕ} {pks : List Gk}
    (h0 : poly coeffs 0 • g1 ≠ 0) (hs : ∀ i ∈ List.range' 1 n, poly coeffs ((i : ℕ) : Fr) • g1 ≠ 0) :
    DealingCellsNoG2 n coeffs R pks (encParamsNoG2 (dealtParams n coeffs R pks) pks) := by
  refine ⟨_, (List.range' 1 n).map (fun i : ℕ => enc1 (poly coeffs (i : Fr) • g1)),
    pointCells_enc h0, ?_, ?_⟩
  · rw [List.forall₂_map_right_iff, List.forall₂_same]
    exact fun i hi => pointCells_enc (hs i hi)
  · unfold encParamsNoG2
    simp only [dealtParams, List.append_assoc, List.flatMap_map, ← List.flatMap_def]
    rfl

end Verif.DkgCircuit
