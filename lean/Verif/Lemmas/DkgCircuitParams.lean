import Verif.Lemmas.DkgCircuitMain
import Verif.Lemmas.FromCells
import Verif.Lemmas.Lib

namespace Verif.DkgCircuit
open Verif Spec

/-- The published parameters of a dealing. -/
noncomputable def dealtParams (n : ℕ) (coeffs : List Fr) (R : ℕ) (pks : List Gk) :
    DkgMemberPublicParams where
  publicShares := (List.range' 1 n).map (fun i : ℕ => poly coeffs (i : Fr) • g1)
  ciphers := (List.range n).map (fun i => poly coeffs ((i + 1 : ℕ) : Fr) +
        Poseidon.hash2 (coords (R • pks.getD i 0)).1 (coords (R • pks.getD i 0)).2)
  gr := R • gk
  ga := poly coeffs 0 • g1
  g2a := smul2 (poly coeffs 0) g2

theorem dealingCells_fromInstance {t n : ℕ} {coeffs : List Fr} {R : ℕ} {pks : List Gk} {ins : List Fr}
    (h : DealingCells n coeffs R pks ins) (hp : pks.length = n) :
    fromInstance ⟨t, n⟩ ins = .ok (dealtParams n coeffs R pks, pks) := by
  obtain ⟨cga, cgs, cg2a, h1, h2, h3, rfl⟩ := h
  refine fromInstance_parts t n (dealtParams n coeffs R pks) pks cga cgs cg2a
    h1.length (publicToPoint_cells h1) ?_ h3.length (publicToPoint2_cells h3) ?_ ?_ hp
  · simp only [dealtParams]
    rw [forall₂_map_left]
    exact h2.imp (fun i d h => ⟨h.length, publicToPoint_cells h⟩)
  · simp only [dealtParams, List.length_map, List.length_range']
  · simp only [dealtParams, List.length_map, List.length_range]

theorem coordCells_enc (x : Fq) : CoordCells x (encCoord x) :=
  ⟨x.val, lt_trans (ZMod.val_lt x) (by decide +kernel), ZMod.natCast_zmod_val x, rfl⟩

theorem pointCells_enc {P : G1} (h : P ≠ 0) : PointCells P (enc1 P) :=
  ⟨h, _, _, coordCells_enc _, coordCells_enc _, rfl⟩

theorem point2Cells_enc {P : G2} (h : P ≠ 0) : Point2Cells P (enc2 P) :=
  ⟨h, _, _, _, _, coordCells_enc _, coordCells_enc _, coordCells_enc _, coordCells_enc _, rfl⟩

theorem usable_ne_zero {P aux : G1} {s : Fr} (h : Usable P aux s) : s • P ≠ 0 := by
  obtain ⟨K, _, rfl, hf⟩ := h
  have := hf.2.2.2
  rwa [← Nat.cast_smul_eq_nsmul Fr] at this

theorem usable2_ne_zero {P aux : G2} {s : Fr} (hr : r • P = 0) (h : Usable P aux s) : smul2 s P ≠ 0 := by
  obtain ⟨K, _, rfl, hf⟩ := h
  have := hf.2.2.2
  rwa [← FixedPoint.smul2_cast hr] at this

/-- The honest encoding of a dealing. -/
theorem dealingCells_enc {n : ℕ} {coeffs : List Fr} {R : ℕ} {pks : List Gk}
    (h0 : poly coeffs 0 • g1 ≠ 0) (hs : ∀ i ∈ List.range' 1 n, poly coeffs ((i : ℕ) : Fr) • g1 ≠ 0)
    (h2 : smul2 (poly coeffs 0) g2 ≠ 0) :
    DealingCells n coeffs R pks (encParams (dealtParams n coeffs R pks) pks) := by
  refine ⟨_, (List.range' 1 n).map (fun i : ℕ => enc1 (poly coeffs (i : Fr) • g1)), _,
    pointCells_enc h0, ?_, point2Cells_enc h2, ?_⟩
  · rw [List.forall₂_map_right_iff, List.forall₂_same]
    exact fun i hi => pointCells_enc (hs i hi)
  · unfold encParams
    simp only [dealtParams, List.append_assoc, List.flatMap_map, ← List.flatMap_def]
    rfl

theorem toGkScalar_smul (x : Fr) (P : Gk) : toGkScalar x • P = x.val • P := by
  unfold toGkScalar
  rw [Nat.cast_smul_eq_nsmul]

theorem poly_range_zero {t : ℕ} (ht : 0 < t) (draw : ℕ → Fr) :
    poly ((List.range t).map draw) 0 = draw 0 := by
  have h := poly_zero_getD (coeffs := (List.range t).map draw) (by simpa using ht)
  rw [← h]
  cases t with
  | zero => omega
  | succ t => rw [List.range_succ_eq_map]; rfl

theorem poly_update {t : ℕ} (ht : 0 < t) (draw : ℕ → Fr) (a x : Fr) :
    poly ((List.range t).map (Function.update draw 0 a)) x =
      a + poly ((List.range t).map (Function.update draw 0 0)) x := by
  cases t with
  | zero => omega
  | succ t =>
    rw [List.range_succ_eq_map, List.map_cons, List.map_cons, poly_cons, poly_cons,
      Function.update_self, Function.update_self, List.map_map, List.map_map, zero_add]
    congr 1

/-- Honest parameters are those of a dealing. -/
theorem new_eq_dealt (t n : ℕ) (ht : 0 < t) (hn : 1 ≤ n) (pks : List Gk) (hl : pks.length = n)
    (draw : ℕ → Fr) (mp : DkgMemberParams)
    (h : DkgMemberParams.new Poseidon.hash2 ⟨t, n⟩ pks draw = .ok mp) :
    mp.publicParams = dealtParams n ((List.range t).map draw) (draw t).val pks := by
  rw [memberParams_eq Poseidon.hash2 ⟨t, n⟩ ht hn pks hl draw] at h
  have h' := Except.ok.inj h
  rw [← h']
  simp only [dealtParams, toGkScalar_smul, poly_range_zero ht, List.map_map]
  clear h h'
  generalize Poseidon.hash2 = H
  congr 1
  apply List.map_congr_left
  intro i hi
  have hi' := List.mem_range.1 hi
  have e : (List.map (fun i : ℕ => poly (List.map draw (List.range t)) (i : Fr))
      (List.range' 1 n)).getD i 0 = poly (List.map draw (List.range t)) ((i + 1 : ℕ) : Fr) := by
    rw [List.getD_eq_getElem?_getD, List.getElem?_map, List.getElem?_range' (by omega)]
    simp [Nat.add_comm]
  rw [e, maskOf, add_comm]

theorem length_dealt (n : ℕ) (coeffs : List Fr) (R : ℕ) (pks : List Gk) :
    (dealtParams n coeffs R pks).publicShares.length = n ∧
      (dealtParams n coeffs R pks).ciphers.length = n := by
  simp only [dealtParams, List.length_map, List.length_range', List.length_range, and_self]

theorem smul_g1_inj {a b : Fr} (hab : a • g1 = b • g1) : a = b := by
  by_contra hne
  have : (a - b) • g1 = 0 := by rw [sub_smul, hab, sub_self]
  rcases smul_G1_eq_zero this with h | h
  · exact hne (sub_eq_zero.1 h)
  · exact g1_ne_zero h

/-- The parameters determine the values of the polynomial. -/
theorem dealtParams_inj {n : ℕ} {coeffs coeffs' : List Fr} {R R' : ℕ} {pks pks' : List Gk}
    (h : dealtParams n coeffs R pks = dealtParams n coeffs' R' pks') :
    poly coeffs 0 = poly coeffs' 0 ∧ R • gk = R' • gk ∧
      ∀ i, 1 ≤ i → i ≤ n → poly coeffs (i : Fr) = poly coeffs' (i : Fr) := by
  refine ⟨smul_g1_inj (congrArg DkgMemberPublicParams.ga h), congrArg DkgMemberPublicParams.gr h, ?_⟩
  intro i h1 h2
  have e4 := congrArg (fun p : DkgMemberPublicParams => p.publicShares[i - 1]?) h
  have hr : (List.range' 1 n)[i - 1]? = some i := by
    rw [List.getElem?_range' (by omega)]
    congr 1; omega
  simp only [dealtParams, List.getElem?_map, hr, Option.map_some, Option.some.injEq] at e4
  exact smul_g1_inj e4

theorem val_not_dvd {x : Fr} : ¬ q ∣ x.val ↔ x ≠ 0 := by
  have hlt : x.val < q := lt_trans (ZMod.val_lt x) (by decide +kernel)
  rw [not_iff_not]
  constructor
  · intro h
    exact (ZMod.val_eq_zero x).1 (Nat.eq_zero_of_dvd_of_lt h hlt)
  · rintro rfl
    rw [ZMod.val_zero]; exact dvd_zero _

end Verif.DkgCircuit
