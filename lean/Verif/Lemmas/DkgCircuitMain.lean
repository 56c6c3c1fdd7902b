import Verif.Lemmas.DkgCircuit

namespace Verif.DkgCircuit
open Verif Spec FixedPoint GrumpkinChip

theorem forall₂_map_left {α β γ : Type} (f : α → β) (R : β → γ → Prop) :
    ∀ (l : List α) (l' : List γ), List.Forall₂ R (l.map f) l' ↔ List.Forall₂ (fun a c => R (f a) c) l l' := by
  intro l
  induction l with
  | nil => intro l'; simp
  | cons a l ih =>
    intro l'
    rw [List.map_cons, List.forall₂_cons_left_iff, List.forall₂_cons_left_iff]
    simp only [ih]

theorem forall₂_and_left {α β : Type} (p : α → Prop) (R : α → β → Prop) :
    ∀ (l : List α) (l' : List β), List.Forall₂ (fun a b => p a ∧ R a b) l l' ↔
      (∀ a ∈ l, p a) ∧ List.Forall₂ R l l' := by
  intro l l'
  rw [List.forall₂_and_left]

theorem poly_zero_getD {coeffs : List Fr} (h : 0 < coeffs.length) : coeffs.getD 0 0 = poly coeffs 0 := by
  cases coeffs with
  | nil => simp at h
  | cons a l => rw [poly_zero_eval]; rfl

/-- What the circuit enforces, with the auxiliary point of the Grumpkin chip. -/
theorem synthesize_iff_aux {cfg : DkgConfig} (ht : 0 < cfg.threshold) (auxG1 : G1) (auxG2 : G2)
    (ins : List Fr) :
    synthesize cfg auxG1 auxG2 ins ↔
      (∃ t, assignTable ops1 windowSize g1 auxG1 t) ∧ (∃ t, assignTable ops2 windowSize g2 auxG2 t) ∧
      ∃ (coeffs : List Fr) (bs : List Bool) (pks : List Gk) (A : Gk),
        coeffs.length = cfg.threshold ∧ bs.length = 254 ∧ pks.length = cfg.numberOfMembers ∧
        (∀ pk ∈ pks, pk ≠ 0) ∧ A ≠ 0 ∧
        (∀ P ∈ gk :: pks, good bs A P ∧ A + binary bs • P ≠ 0 ∧ A + binary bs • P ≠ -A) ∧
        (∀ P ∈ gk :: pks, binary bs • P ≠ 0) ∧
        Usable g1 auxG1 (poly coeffs 0) ∧
        (∀ i ∈ List.range' 1 cfg.numberOfMembers, Usable g1 auxG1 (poly coeffs (i : Fr))) ∧
        Usable g2 auxG2 (poly coeffs 0) ∧
        DealingCells cfg.numberOfMembers coeffs (binary bs) pks ins := by
  constructor
  · rintro ⟨coeffs, shares, tab1, tab2, aux, auxNeg, base, cga, cgs, cg2a, g, gr, bits, pks, ciphers,
      hl, hsh, ht1, ht2, haux, hneg, hbase, hga, hgs, hg2a, hg, hbits, hgr, hpl, hcl, hm, hins⟩
    rw [assignConstant_gate_iff] at hbase
    subst hbase
    rw [sharesRegion_iff hl ht] at hsh
    subst hsh
    rw [shares_take, forall₂_map_left] at hgs
    simp only [exposeG1_iff ht1] at hgs hga
    rw [exposeG2_iff ht2] at hg2a
    rw [forall₂_and_left (fun i : ℕ => Usable g1 auxG1 (poly coeffs (i : Fr)))] at hgs
    rw [poly_zero_getD (by omega)] at hga hg2a
    obtain ⟨A, hA⟩ := assignPoint_iff.1 haux
    have hN := (neg_iff hA).1 hneg
    obtain ⟨bs, rfl⟩ := bits_eq_map hbits.2
    have hbl : bs.length = 254 := by simpa using hbits.1
    have hgH : Holds g gk := by
      refine ⟨gk_ne_zero, ?_⟩
      have h1 := assignConstant_gate_iff.1 hg.1
      have h2 := assignConstant_gate_iff.1 hg.2
      exact (Prod.ext h1 h2).symm
    obtain ⟨g1', g2', g3', g4'⟩ := (mulBits_iff hA hN hgH bs).1 hgr
    have hex : ∀ i < cfg.numberOfMembers, ∃ P : Gk, Holds (pks.getD i (0, 0)) P ∧
        (good bs A P ∧ A + binary bs • P ≠ 0 ∧ A + binary bs • P ≠ -A) ∧ binary bs • P ≠ 0 ∧
        ciphers.getD i 0 = poly coeffs ((i + 1 : ℕ) : Fr) +
          Poseidon.hash2 (coords (binary bs • P)).1 (coords (binary bs • P)).2 := by
      intro i hi
      have := (memberRegion_iff hA hN).1 (hm i hi)
      rwa [shares_getD coeffs hi] at this
    choose! F hF using hex
    let pks' : List Gk := (List.range cfg.numberOfMembers).map F
    have hpk' : pks'.length = cfg.numberOfMembers := by simp [pks']
    have hget : ∀ i < cfg.numberOfMembers, pks'.getD i 0 = F i := by
      intro i hi
      rw [getD_lt _ _ (by rw [hpk']; exact hi)]
      simp [pks']
    have hmem : ∀ P ∈ pks', ∃ i < cfg.numberOfMembers, F i = P := by
      intro P hP
      obtain ⟨i, hi, e⟩ := List.mem_map.1 hP
      exact ⟨i, List.mem_range.1 hi, e⟩
    refine ⟨⟨tab1, ht1⟩, ⟨tab2, ht2⟩, coeffs, bs, pks', A, hl, hbl, hpk', ?_, hA.1, ?_, ?_, hga.1,
      hgs.1, hg2a.1, cga, cgs, cg2a, hga.2, hgs.2, hg2a.2, ?_⟩
    · intro P hP
      obtain ⟨i, hi, rfl⟩ := hmem P hP
      exact (hF i hi).1.1
    · intro P hP
      rcases List.mem_cons.1 hP with rfl | hP
      · exact ⟨g1', g2', g3'⟩
      · obtain ⟨i, hi, rfl⟩ := hmem P hP
        exact (hF i hi).2.1
    · intro P hP
      rcases List.mem_cons.1 hP with rfl | hP
      · exact g4'.1
      · obtain ⟨i, hi, rfl⟩ := hmem P hP
        exact (hF i hi).2.2.1
    · rw [hins]
      have e1 : [gr.1, gr.2] = [(coords (binary bs • gk)).1, (coords (binary bs • gk)).2] := by
        rw [g4'.2]
      have e2 : ciphers = (List.range cfg.numberOfMembers).map (fun i =>
          poly coeffs ((i + 1 : ℕ) : Fr) + Poseidon.hash2 (coords (binary bs • pks'.getD i 0)).1
            (coords (binary bs • pks'.getD i 0)).2) := by
        rw [← map_getD_range ciphers 0 hcl]
        apply List.map_congr_left
        intro i hi
        have hi' := List.mem_range.1 hi
        rw [(hF i hi').2.2.2, hget i hi']
      have e3 : pks.flatMap (fun pk => [pk.1, pk.2]) =
          pks'.flatMap (fun pk => [(coords pk).1, (coords pk).2]) := by
        have : pks = pks'.map coords := by
          rw [← map_getD_range pks (0, 0) hpl]
          simp only [pks', List.map_map]
          apply List.map_congr_left
          intro i hi
          exact (hF i (List.mem_range.1 hi)).1.2.symm
        rw [this, List.flatMap_map]
      rw [e1, ← e2, e3]
  · rintro ⟨⟨tab1, ht1⟩, ⟨tab2, ht2⟩, coeffs, bs, pks, A, hl, hbl, hpl, hpk, hA0, hgood, hnz, hu0, hu, hu2,
      cga, cgs, cg2a, hga, hgs, hg2a, hins⟩
    have hA := holds_coords hA0
    have hN := holds_neg hA
    have hgm := hgood gk (by simp)
    refine ⟨coeffs, _, tab1, tab2, coords A, _, _, cga, cgs, cg2a, coords gk, coords (binary bs • gk),
      bs.map bitCell, pks.map coords, (List.range cfg.numberOfMembers).map (fun i =>
          poly coeffs ((i + 1 : ℕ) : Fr) + Poseidon.hash2 (coords (binary bs • pks.getD i 0)).1
            (coords (binary bs • pks.getD i 0)).2), hl,
      (sharesRegion_iff hl ht).2 rfl, ht1, ht2,
      assignPoint_iff.2 ⟨A, hA⟩, (neg_iff hA).2 hN, assignConstant_gate_iff.2 rfl, ?_, ?_, ?_,
      ⟨assignConstant_gate_iff.2 rfl, assignConstant_gate_iff.2 rfl⟩,
      ⟨by simpa using hbl, ?_⟩, ?_, by simpa using hpl, by simp, ?_, ?_⟩
    · rw [poly_zero_getD (by omega), exposeG1_iff ht1]; exact ⟨hu0, hga⟩
    · rw [shares_take, forall₂_map_left]
      simp only [exposeG1_iff ht1]
      exact (forall₂_and_left (fun i : ℕ => Usable g1 auxG1 (poly coeffs (i : Fr))) _ _ _).2 ⟨hu, hgs⟩
    · rw [poly_zero_getD (by omega), exposeG2_iff ht2]; exact ⟨hu2, hg2a⟩
    · intro b hb
      obtain ⟨b', _, rfl⟩ := List.mem_map.1 hb
      exact assignBit_bitCell b'
    · exact (mulBits_iff hA hN (holds_coords gk_ne_zero) bs).2
        ⟨hgm.1, hgm.2.1, hgm.2.2, holds_coords (hnz gk (by simp))⟩
    · intro i hi
      rw [shares_getD coeffs hi]
      have hi' : i < pks.length := by omega
      have hP : pks.getD i 0 ∈ pks := by rw [getD_lt _ _ hi']; exact List.getElem_mem _
      refine (memberRegion_iff hA hN).2 ⟨pks.getD i 0, ?_, hgood _ (List.mem_cons_of_mem _ hP),
        hnz _ (List.mem_cons_of_mem _ hP), ?_⟩
      · rw [getD_lt (pks.map coords) _ (by simpa using hi'), getD_lt _ _ hi', List.getElem_map]
        refine holds_coords (hpk _ (List.getElem_mem _))
      · rw [getD_lt (List.map _ _) _ (by rw [List.length_map, List.length_range]; exact hi),
          List.getElem_map, List.getElem_range]
    · rw [hins, List.flatMap_map]

theorem nsmul_gk_ne_zero {R : ℕ} {P : Gk} (hP : P ≠ 0) (h : ¬ q ∣ R) : R • P ≠ 0 := by
  intro e
  apply h
  have ho : addOrderOf P = q := addOrderOf_eq_prime (q_nsmul P) hP
  rw [← ho]; exact addOrderOf_dvd_of_nsmul_eq_zero e

theorem not_dvd_of_nsmul {R : ℕ} {P : Gk} (h : R • P ≠ 0) : ¬ q ∣ R := by
  rintro ⟨k, rfl⟩
  exact h (by rw [mul_nsmul, q_nsmul, nsmul_zero])

/-- What the circuit enforces. -/
theorem synthesize_iff {cfg : DkgConfig} (ht : 0 < cfg.threshold)
    (hn : (cfg.numberOfMembers + 1) * 510 + 1 < q) (auxG1 : G1) (auxG2 : G2) (ins : List Fr) :
    synthesize cfg auxG1 auxG2 ins ↔
      (∃ t, assignTable ops1 windowSize g1 auxG1 t) ∧ (∃ t, assignTable ops2 windowSize g2 auxG2 t) ∧
      ∃ (coeffs : List Fr) (R : ℕ) (pks : List Gk),
        coeffs.length = cfg.threshold ∧ pks.length = cfg.numberOfMembers ∧
        (∀ pk ∈ pks, pk ≠ 0) ∧ R < 2 ^ 254 ∧ ¬ q ∣ R ∧
        Usable g1 auxG1 (poly coeffs 0) ∧
        (∀ i ∈ List.range' 1 cfg.numberOfMembers, Usable g1 auxG1 (poly coeffs (i : Fr))) ∧
        Usable g2 auxG2 (poly coeffs 0) ∧
        DealingCells cfg.numberOfMembers coeffs R pks ins := by
  rw [synthesize_iff_aux ht]
  constructor
  · rintro ⟨h1, h2, coeffs, bs, pks, A, hl, hbl, hpl, hpk, hA0, hgood, hnz, h3, h4, h5, h6⟩
    exact ⟨h1, h2, coeffs, binary bs, pks, hl, hpl, hpk, hbl ▸ binary_lt bs,
      not_dvd_of_nsmul (hnz gk (by simp)), h3, h4, h5, h6⟩
  · rintro ⟨h1, h2, coeffs, R, pks, hl, hpl, hpk, hR, hq, h3, h4, h5, h6⟩
    obtain ⟨bs, hbl, rfl⟩ := exists_binary 254 R hR
    obtain ⟨A, hA0, hA⟩ := exists_aux bs (gk :: pks) (by
      rw [List.length_cons, hpl, hbl]; exact hn)
    refine ⟨h1, h2, coeffs, bs, pks, A, hl, hbl, hpl, hpk, hA0, hA, ?_, h3, h4, h5, h6⟩
    intro P hP
    apply nsmul_gk_ne_zero _ hq
    rcases List.mem_cons.1 hP with rfl | hP
    · exact gk_ne_zero
    · exact hpk P hP

end Verif.DkgCircuit
