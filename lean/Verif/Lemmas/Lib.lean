import Verif.Lemmas.Shamir

/-! Helper lemmas about the model of src/lib.rs. -/

namespace Verif
open WeierstrassCurve.Affine

theorem poly_map_range (t : ℕ) (f : ℕ → Fr) (x : Fr) :
    Spec.poly ((List.range t).map f) x = ∑ i ∈ Finset.range t, f i * x ^ i := by
  induction t generalizing f with
  | zero => simp [poly_nil]
  | succ t ih =>
    rw [List.range_succ_eq_map, List.map_cons, poly_cons, List.map_map, Finset.sum_range_succ', ih,
      Finset.mul_sum, pow_zero, mul_one, add_comm]
    congr 1
    apply Finset.sum_congr rfl
    intro i _
    simp only [Function.comp, Nat.succ_eq_add_one, pow_succ]
    ring

theorem list_sum_range {M : Type*} [AddCommMonoid M] (n : ℕ) (f : ℕ → M) :
    ((List.range n).map f).sum = ∑ j ∈ Finset.range n, f j := by
  rw [← List.sum_toFinset f (List.nodup_range), List.toFinset_range]

theorem sum_poly_map_range (n t : ℕ) (f : ℕ → ℕ → Fr) (x : Fr) :
    ∑ j ∈ Finset.range n, Spec.poly ((List.range t).map (f j)) x =
      Spec.poly ((List.range t).map (fun i => ∑ j ∈ Finset.range n, f j i)) x := by
  simp only [poly_map_range]
  rw [Finset.sum_comm]
  apply Finset.sum_congr rfl
  intro i _
  rw [Finset.sum_mul]

theorem getOrPanic_eq {α : Type} {l : List α} {i : ℕ} {a : α} (h : l[i]? = some a) :
    getOrPanic l i = .ok a := by simp [getOrPanic, h]

theorem foldlM_ok {α β : Type} (f : β → α → Res β) (g : β → α → β) :
    ∀ (l : List α) (b : β), (∀ a ∈ l, ∀ b, f b a = .ok (g b a)) → l.foldlM f b = .ok (l.foldl g b)
  | [], b, _ => rfl
  | a :: l, b, h => by
      rw [List.foldlM_cons, h a (by simp) b]
      exact foldlM_ok f g l (g b a) (fun c hc => h c (by simp [hc]))

theorem foldl_add_map {M α : Type*} [AddCommMonoid M] (f : α → M) : ∀ (l : List α) (a : M),
    l.foldl (fun acc x => acc + f x) a = a + (l.map f).sum
  | [], a => by simp
  | b :: l, a => by rw [List.foldl_cons, foldl_add_map f l, List.map_cons, List.sum_cons, add_assoc]

/-- The aggregated parameters as sums. -/
theorem global_eq (pps : List DkgMemberPublicParams) (hne : pps ≠ []) (n : ℕ)
    (h : ∀ pp ∈ pps, pp.publicShares.length = n) :
    dkgGlobalPublicParams pps = .ok ⟨(pps.map (·.ga)).sum, (pps.map (·.g2a)).sum,
      (List.range n).map (fun i => (pps.map (fun pp => pp.publicShares.getD i 0)).sum)⟩ := by
  cases pps with
  | nil => exact absurd rfl hne
  | cons pp0 rest =>
    have h0 : pp0.publicShares.length = n := h pp0 (by simp)
    unfold dkgGlobalPublicParams
    simp only
    rw [h0]
    rw [mapM_ok _ (fun i => ((pp0 :: rest).map (fun pp => pp.publicShares.getD i 0)).sum)]
    · simp only [foldl_add_map, List.map_cons, List.sum_cons]
      rfl
    · intro i hi
      have hi' : i < n := List.mem_range.1 hi
      have hget : ∀ pp ∈ pp0 :: rest, getOrPanic pp.publicShares i =
          .ok (pp.publicShares.getD i 0) := by
        intro pp hpp
        apply getOrPanic_eq
        have := h pp hpp
        simp [List.getElem?_eq_getElem (show i < pp.publicShares.length by omega)]
      rw [hget pp0 (by simp)]
      have hf := foldlM_ok (β := G1) (fun acc (pp : DkgMemberPublicParams) => do
        let v ← getOrPanic pp.publicShares i
        return acc + v) (fun acc pp => acc + pp.publicShares.getD i 0) rest
        (pp0.publicShares.getD i 0) (by
          intro pp hpp b
          rw [hget pp (by simp [hpp])]
          rfl)
      refine hf.trans ?_
      rw [foldl_add_map, List.map_cons, List.sum_cons]

/-- The derived share key as a sum of decryptions. -/
theorem dkgShareKey_eq (mask : Mask) (k : MemberKey) (cfg : DkgConfig) (index : ℕ)
    (h1 : 1 ≤ index) (h2 : index ≤ cfg.numberOfMembers) (pps : List DkgMemberPublicParams)
    (hc : ∀ pp ∈ pps, index ≤ pp.ciphers.length) :
    k.dkgShareKey mask cfg index pps =
      .ok ⟨index, (pps.map (fun pp => k.decryptShare mask pp.gr (pp.ciphers.getD (index - 1) 0))).sum,
        (pps.map (fun pp => k.decryptShare mask pp.gr (pp.ciphers.getD (index - 1) 0))).sum • g1⟩ := by
  unfold MemberKey.dkgShareKey
  rw [if_neg (by omega)]
  rw [foldlM_ok _ (fun acc pp => acc + k.decryptShare mask pp.gr (pp.ciphers.getD (index - 1) 0))]
  · rw [foldl_add_map, zero_add]
    rfl
  · intro pp hpp b
    have := hc pp hpp
    have hl : index - 1 < pp.ciphers.length := by omega
    simp [List.getElem?_eq_getElem hl]

theorem decrypt_mask (mask : Mask) (k : MemberKey) (gr : Gk) (s : Fr) :
    k.decryptShare mask gr (maskOf mask (k.sk • gr) + s) = s := by
  simp [MemberKey.decryptShare]

/-- What honest parameter generation returns. -/
theorem memberParams_eq (mask : Mask) (cfg : DkgConfig) (ht : 0 < cfg.threshold)
    (hn : 1 ≤ cfg.numberOfMembers) (pks : List Gk) (hl : pks.length = cfg.numberOfMembers)
    (draw : ℕ → Fr) :
    let coeffs := (List.range cfg.threshold).map draw
    let sh := (List.range' 1 cfg.numberOfMembers).map (fun i : ℕ => Spec.poly coeffs (i : Fr))
    let rs := toGkScalar (draw cfg.threshold)
    DkgMemberParams.new mask cfg pks draw = .ok ⟨cfg, coeffs, sh, draw cfg.threshold, pks,
      ⟨sh.map (fun s => s • g1), (List.range cfg.numberOfMembers).map
        (fun i => maskOf mask (rs • pks.getD i 0) + sh.getD i 0), rs • gk, draw 0 • g1,
        smul2 (draw 0) g2⟩⟩ := by
  intro coeffs sh rs
  have hne : coeffs ≠ [] := by
    intro h
    have := congrArg List.length h
    simp [coeffs] at this
    omega
  have h0 : getOrPanic coeffs 0 = .ok (draw 0) := by
    apply getOrPanic_eq
    simp [coeffs, ht]
  have hsh : shares cfg.numberOfMembers coeffs = .ok sh := shares_eq hne hn
  have hci : (List.range cfg.numberOfMembers).mapM (fun i => do
      let pk ← getOrPanic pks i
      let s ← getOrPanic sh i
      return maskOf mask (rs • pk) + s) = (.ok ((List.range cfg.numberOfMembers).map
        (fun i => maskOf mask (rs • pks.getD i 0) + sh.getD i 0)) : Res (List Fr)) := by
    apply mapM_ok
    intro i hi
    have hi' : i < cfg.numberOfMembers := List.mem_range.1 hi
    have e1 : getOrPanic pks i = .ok (pks.getD i 0) := by
      apply getOrPanic_eq; simp [List.getElem?_eq_getElem (show i < pks.length by omega)]
    have e2 : getOrPanic sh i = .ok (sh.getD i 0) := by
      apply getOrPanic_eq
      simp [List.getElem?_eq_getElem (show i < sh.length by simp [sh]; omega)]
    rw [e1, e2]
    rfl
  unfold DkgMemberParams.new
  rw [if_neg (not_not.2 hl)]
  simp only [bind, Except.bind, pure, Except.pure]
  have hci' := hci
  simp only [bind, Except.bind, pure, Except.pure] at hci'
  simp only [coeffs] at h0
  rw [h0]
  simp only
  rw [show shares cfg.numberOfMembers (List.map draw (List.range cfg.threshold)) = _ from hsh]
  simp only
  rw [hci']

theorem sum_smul2 (l : List ℕ) (f : ℕ → Fr) :
    (l.map (fun j => smul2 (f j) g2)).sum = smul2 ((l.map f).sum) g2 := by
  induction l with
  | nil => simp [smul2_zero']
  | cons a l ih => rw [List.map_cons, List.sum_cons, ih, List.map_cons, List.sum_cons, smul2_add]

end Verif
