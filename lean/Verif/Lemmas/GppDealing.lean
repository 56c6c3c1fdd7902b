import Verif.Lemmas.GppKey
import Verif.Lemmas.Shamir
import Verif.Lemmas.Reduced

/-! `createGpp` on instances of dealings. -/

namespace Verif
open WeierstrassCurve.Affine

theorem poly_replicate_zero (t : ℕ) (x : Fr) : Spec.poly (List.replicate t 0) x = 0 := by
  induction t with
  | zero => exact poly_nil x
  | succ t ih => rw [List.replicate_succ, poly_cons, ih]; ring

/-- The words are those of an instance of a dealing of the polynomial to finite keys. -/
def DealtWords (t n : ℕ) (coeffs : List Fr) (w : List Word) : Prop :=
  ∃ (R : ℕ) (pks : List Gk) (ins : List Fr), coeffs.length = t ∧ pks.length = n ∧
    (∀ pk ∈ pks, pk ≠ 0) ∧ Spec.DealingCells n coeffs R pks ins ∧ w = wordsOf ins

/-- A satisfied circuit deals a polynomial. -/
theorem synthesize_dealt {t n : ℕ} {auxG1 : G1} {auxG2 : G2} {ins : List Fr}
    (h : DkgCircuit.synthesize ⟨t, n⟩ auxG1 auxG2 ins) :
    ∃ coeffs, DealtWords t n coeffs (wordsOf ins) := by
  rcases Nat.eq_zero_or_pos t with rfl | ht
  · exfalso
    obtain ⟨coeffs, shares, tab1, tab2, aux, auxNeg, base, cga, cgs, cg2a, g, gr, bits, pks, ciphers,
      hl, hsh, ht1, ht2, haux, hneg, hbase, hga, _⟩ := h
    rw [GrumpkinChip.assignConstant_gate_iff] at hbase
    subst hbase
    rw [DkgCircuit.exposeG1_iff ht1, List.length_eq_zero_iff.1 hl] at hga
    exact DkgCircuit.usable_ne_zero hga.1 (zero_smul Fr g1)
  · obtain ⟨_, _, coeffs, bs, pks, A, hl, hbl, hpl, hpk, hA0, hgood, hnz, h3, h4, h5, h6⟩ :=
      (DkgCircuit.synthesize_iff_aux (cfg := ⟨t, n⟩) ht auxG1 auxG2 ins).1 h
    exact ⟨coeffs, _, pks, ins, hl, hpl, hpk, h6, rfl⟩

theorem dealing_words {t n : ℕ} {coeffs : List Fr} {w : List Word}
    (h : DealtWords t n coeffs w) (hr : Spec.Reduced n w) :
    ∃ d : (G1 × List G1) × List Word, w = pointWords d ∧ d.1.1 = Spec.poly coeffs 0 • g1 ∧
      d.1.2 = (List.range' 1 n).map (fun i : ℕ => Spec.poly coeffs (i : Fr) • g1) := by
  obtain ⟨R, pks, ins, _, _, _, ⟨cga, cgs, cg2a, h1, h2, h3, hins⟩, rfl⟩ := h
  simp only [List.append_assoc] at hins
  generalize cg2a ++ _ = tail at hins
  have hF : List.Forall₂ Spec.PointCells (Spec.poly coeffs 0 • g1 ::
      (List.range' 1 n).map (fun i : ℕ => Spec.poly coeffs (i : Fr) • g1)) (cga :: cgs) :=
    List.Forall₂.cons h1 ((DkgCircuit.forall₂_map_left _ _ _ _).2 h2)
  have hins' : ins = (cga :: cgs).flatten ++ tail := by
    rw [hins, List.flatten_cons, List.append_assoc]
  rw [reduced_iff, hins'] at hr
  have hc := cells_reduced _ _ tail hF (by
    rw [List.length_cons, List.length_map, List.length_range']; exact hr)
  refine ⟨((Spec.poly coeffs 0 • g1, (List.range' 1 n).map (fun i : ℕ => Spec.poly coeffs (i : Fr) • g1)),
    wordsOf tail), ?_, rfl, rfl⟩
  rw [hins', hc, pointWords, wordsOf, List.map_append, List.flatMap_cons]
  rfl

theorem dealings_words {t n : ℕ} : ∀ (pl : List (List Word)),
    (∀ w ∈ pl, ∃ coeffs, DealtWords t n coeffs w) → (∀ w ∈ pl, Spec.Reduced n w) →
    ∃ (ds : List ((G1 × List G1) × List Word)) (F : List Fr), pl = ds.map pointWords ∧
      F.length = t ∧ (∀ d ∈ ds, d.1.2.length = n) ∧
      (ds.map (fun d => d.1.1)).sum = Spec.poly F 0 • g1 ∧
      ∀ j, j < n → (ds.map (fun d => d.1.2.getD j 0)).sum = Spec.poly F ((j + 1 : ℕ) : Fr) • g1
  | [], _, _ => ⟨[], List.replicate t 0, rfl, List.length_replicate, by simp,
      by rw [poly_replicate_zero, List.map_nil, List.sum_nil]; exact (zero_smul Fr g1).symm,
      by intro j _; rw [poly_replicate_zero, List.map_nil, List.sum_nil]; exact (zero_smul Fr g1).symm⟩
  | w :: pl, h, hr => by
    obtain ⟨ds, F, h1, h2, h3, h4, h5⟩ := dealings_words pl
      (fun w hw => h w (List.mem_cons_of_mem _ hw)) (fun w hw => hr w (List.mem_cons_of_mem _ hw))
    obtain ⟨coeffs, hd⟩ := h w List.mem_cons_self
    obtain ⟨d, e1, e2, e3⟩ := dealing_words hd (hr w List.mem_cons_self)
    have hl : coeffs.length = F.length := by
      rw [h2]; obtain ⟨_, _, _, h, _⟩ := hd; exact h
    refine ⟨d :: ds, List.zipWith (· + ·) coeffs F, ?_, ?_, ?_, ?_, ?_⟩
    · rw [List.map_cons, ← e1, ← h1]
    · simp [hl, h2]
    · intro d' hd'
      rcases List.mem_cons.1 hd' with rfl | hd'
      · rw [e3]; simp
      · exact h3 d' hd'
    · rw [List.map_cons, List.sum_cons, h4, e2, poly_zipWith_add _ _ hl, add_smul]
    · intro j hj
      rw [List.map_cons, List.sum_cons, h5 j hj, e3, poly_zipWith_add _ _ hl, add_smul,
        List.getD_eq_getElem?_getD, List.getElem?_map, List.getElem?_range' hj]
      simp only [Option.map_some, Option.getD_some, one_mul, Nat.add_comm 1 j]

/-- On dealings of degree below `t` with reduced coordinates, `createGpp` accepts exactly the key of
the group polynomial at zero, and returns its values at `1..n` in the exponent. -/
theorem createGpp_dealings (E : BnPairing) {t n : ℕ} (hn : 4 * n + 8 < 2 ^ 32)
    (pl : List (List Word)) (hl : pl.length ≤ n)
    (h : ∀ w ∈ pl, ∃ coeffs, DealtWords t n coeffs w) (hr : ∀ w ∈ pl, Spec.Reduced n w) :
    ∃ F : List Fr, F.length = t ∧ ∀ gpk out, Gpp.createGpp E n gpk pl = some out ↔
      gpk = encodeG2 (smul2 (Spec.poly F 0) g2) ∧ out = (gpk, (List.range n).map
        (fun j => encodeG1 (Spec.poly F ((j + 1 : ℕ) : Fr) • g1))) := by
  obtain ⟨ds, F, h1, h2, h3, h4, h5⟩ := dealings_words pl h hr
  subst h1
  refine ⟨F, h2, ?_⟩
  intro gpk out
  rw [createGpp_eq E n ds (by simpa using hl) h3 hn _ h4]
  have : (List.range n).map (fun j => encodeG1 (ds.map (fun d => d.1.2.getD j 0)).sum) =
      (List.range n).map (fun j => encodeG1 (Spec.poly F ((j + 1 : ℕ) : Fr) • g1)) := by
    apply List.map_congr_left
    intro j hj
    rw [h5 j (List.mem_range.1 hj)]
  rw [this]

end Verif
