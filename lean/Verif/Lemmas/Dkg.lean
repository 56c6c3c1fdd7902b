import Verif.Spec.Dkg
import Verif.Lemmas.Bytes
import Verif.Lemmas.Pairing
import Mathlib.LinearAlgebra.Lagrange
import Mathlib.Tactic.Module

/-! Helper lemmas about the model of src/dkg.rs. -/

namespace Verif
open WeierstrassCurve.Affine

theorem lt_of_usize {n : ℕ} (h : n < 2 ^ 64) : n < r := lt_trans h (by decide +kernel)

theorem natCast_inj_of_lt {a b : ℕ} (ha : a < r) (hb : b < r) (h : (a : Fr) = (b : Fr)) : a = b := by
  rw [ZMod.natCast_eq_natCast_iff'] at h
  rwa [Nat.mod_eq_of_lt ha, Nat.mod_eq_of_lt hb] at h

/-! ### Polynomials -/

theorem poly_nil (x : Fr) : Spec.poly [] x = 0 := by simp [Spec.poly]

theorem poly_cons (a : Fr) (l : List Fr) (x : Fr) :
    Spec.poly (a :: l) x = a + x * Spec.poly l x := by
  unfold Spec.poly
  have h := Fin.sum_univ_succ (n := l.length)
    (fun j : Fin (l.length + 1) => (a :: l)[j.val]'(by simpa using Nat.lt_succ_iff.1 j.2) * x ^ (j : ℕ))
  refine h.trans ?_
  simp only [Fin.getElem_fin, Fin.val_zero, List.getElem_cons_zero, pow_zero, mul_one,
    Fin.val_succ, List.getElem_cons_succ, pow_succ, Finset.mul_sum]
  congr 1
  apply Finset.sum_congr rfl
  intros; ring

theorem poly_one (l : List Fr) : Spec.poly l 1 = l.sum := by
  induction l with
  | nil => simp [poly_nil]
  | cons a l ih => simp [poly_cons, ih]

theorem poly_zero_eval (a : Fr) (l : List Fr) : Spec.poly (a :: l) 0 = a := by simp [poly_cons]

theorem evalFold (x : Fr) : ∀ (l : List Fr) (e p : Fr),
    (l.foldl (fun s a => (s.1 + a * s.2, s.2 * x)) (e, p)).1 = e + p * Spec.poly l x
  | [], e, p => by simp [poly_nil]
  | a :: l, e, p => by
      rw [List.foldl_cons, evalFold x l, poly_cons]; ring

theorem evaluatePoly_eq {coeffs : List Fr} (h : coeffs ≠ []) (i : ℕ) :
    evaluatePoly coeffs i = .ok (Spec.poly coeffs (i : Fr)) := by
  cases coeffs with
  | nil => exact absurd rfl h
  | cons a l => simp [evaluatePoly, evalFold, poly_cons]

theorem mapM_ok {α β : Type} (f : α → Res β) (g : α → β) :
    ∀ (l : List α), (∀ a ∈ l, f a = .ok (g a)) → l.mapM f = .ok (l.map g)
  | [], _ => rfl
  | a :: l, h => by
      have h1 := h a (by simp)
      have h2 := mapM_ok f g l (fun b hb => h b (by simp [hb]))
      rw [List.mapM_cons, h1, h2]; rfl

theorem shares_eq {coeffs : List Fr} (h : coeffs ≠ []) {n : ℕ} (hn : 1 ≤ n) :
    shares n coeffs = .ok ((List.range' 1 n).map (fun i : ℕ => Spec.poly coeffs (i : Fr))) := by
  unfold shares
  rw [mapM_ok _ (fun i : ℕ => Spec.poly coeffs (i : Fr)) _ (fun i _ => evaluatePoly_eq h i)]
  obtain ⟨m, rfl⟩ : ∃ m, n = m + 1 := ⟨n - 1, by omega⟩
  rw [List.range'_succ]
  simp only [List.map_cons, Nat.cast_one, poly_one, Nat.add_sub_cancel]
  rfl

/-! ### Coefficient lists as polynomials -/

open Polynomial in
/-- The Mathlib polynomial of a coefficient list. -/
noncomputable def toPoly : List Fr → Polynomial Fr
  | [] => 0
  | a :: l => Polynomial.C a + Polynomial.X * toPoly l

theorem eval_toPoly (l : List Fr) (x : Fr) : (toPoly l).eval x = Spec.poly l x := by
  induction l with
  | nil => simp [toPoly, poly_nil]
  | cons a l ih => simp [toPoly, poly_cons, ih]

theorem degree_toPoly (l : List Fr) : (toPoly l).degree < (l.length : ℕ) := by
  induction l with
  | nil => simp [toPoly]
  | cons a l ih =>
    rw [toPoly]
    refine lt_of_le_of_lt (Polynomial.degree_add_le _ _) (max_lt ?_ ?_)
    · refine lt_of_le_of_lt Polynomial.degree_C_le ?_
      simp only [List.length_cons]
      exact_mod_cast Nat.succ_pos _
    · rw [mul_comm, Polynomial.degree_mul_X]
      by_cases h0 : toPoly l = 0
      · rw [h0]; simp
      · rw [Polynomial.degree_eq_natDegree h0] at ih ⊢
        simp only [List.length_cons]
        have : (toPoly l).natDegree < l.length := by exact_mod_cast ih
        exact_mod_cast Nat.succ_lt_succ this

theorem coeff_toPoly (l : List Fr) (i : ℕ) : (toPoly l).coeff i = l.getD i 0 := by
  induction l generalizing i with
  | nil => simp [toPoly]
  | cons a l ih =>
    rw [toPoly]
    cases i with
    | zero => simp
    | succ i => simp [ih]

/-! ### Lagrange coefficients -/

theorem lagrangeFold (i : Fr) : ∀ (l : List Fr) (a b : Fr),
    l.foldl (fun s k => if k ≠ i then (s.1 * k, s.2 * (k - i)) else s) (a, b) =
      (a * (l.filter (fun k => decide (k ≠ i))).prod,
       b * ((l.filter (fun k => decide (k ≠ i))).map (fun k => k - i)).prod)
  | [], a, b => by simp
  | k :: l, a, b => by
      rw [List.foldl_cons]
      by_cases h : k = i
      · have h' : ¬ (k ≠ i) := by simp [h]
        rw [if_neg h', lagrangeFold i l, List.filter_cons_of_neg (by simp [h])]
      · rw [if_pos h, lagrangeFold i l, List.filter_cons_of_pos (by simp [h])]
        simp only [List.prod_cons, List.map_cons, mul_assoc]

/-- The Lagrange coefficient at `0` for the node `i`. -/
def lagVal (l : List Fr) (i : Fr) : Fr :=
  (l.filter (fun k => decide (k ≠ i))).prod *
    ((l.filter (fun k => decide (k ≠ i))).map (fun k => k - i)).prod⁻¹

theorem lagrangeCoeff_eq (l : List Fr) (i : Fr) : lagrangeCoeff l i = .ok (lagVal l i) := by
  unfold lagrangeCoeff
  rw [lagrangeFold]
  have hne : ((l.filter (fun k => decide (k ≠ i))).map (fun k => k - i)).prod ≠ 0 := by
    rw [Ne, List.prod_eq_zero_iff]
    intro h
    obtain ⟨k, hk, hk0⟩ := List.mem_map.1 h
    have := (List.mem_filter.1 hk).2
    simp only [decide_eq_true_eq] at this
    exact this (sub_eq_zero.1 hk0)
  simp only [one_mul]
  rw [if_neg hne, lagVal]

theorem lagVal_eq {l : List Fr} (hl : l.Nodup) {i : Fr} :
    lagVal l i = (Lagrange.basis l.toFinset id i).eval 0 := by
  have hf : (l.filter (fun k => decide (k ≠ i))).toFinset = l.toFinset.erase i := by
    ext k; simp [Finset.mem_erase, and_comm]
  have hnd : (l.filter (fun k => decide (k ≠ i))).Nodup := hl.filter _
  rw [lagVal, Lagrange.basis, Polynomial.eval_prod]
  rw [← List.prod_toFinset _ hnd]
  have h1 : (l.filter (fun k => decide (k ≠ i))).prod =
      ∏ k ∈ (l.filter (fun k => decide (k ≠ i))).toFinset, k := by
    rw [List.prod_toFinset (fun k => k) hnd]; simp
  rw [h1, hf, ← Finset.prod_inv_distrib, ← Finset.prod_mul_distrib]
  apply Finset.prod_congr rfl
  intro k hk
  have hk' : k ≠ i := (Finset.mem_erase.1 hk).1
  have h2 : k - i ≠ 0 := sub_ne_zero.2 hk'
  have h3 : i - k ≠ 0 := sub_ne_zero.2 (Ne.symm hk')
  simp only [Lagrange.basisDivisor, id, Polynomial.eval_mul, Polynomial.eval_C, Polynomial.eval_sub,
    Polynomial.eval_X, zero_sub]
  field_simp
  ring

/-- Lagrange interpolation at zero, list form. -/
theorem sum_lagVal {l : List Fr} (hl : l.Nodup) {coeffs : List Fr} (hlen : coeffs.length ≤ l.length) :
    (l.map (fun i => lagVal l i * Spec.poly coeffs i)).sum = Spec.poly coeffs 0 := by
  have hdeg : (toPoly coeffs).degree < (l.toFinset.card : ℕ) := by
    rw [List.toFinset_card_of_nodup hl]
    exact lt_of_lt_of_le (degree_toPoly coeffs) (by exact_mod_cast hlen)
  have h := Lagrange.eq_interpolate (s := l.toFinset) (v := id) (f := toPoly coeffs)
    (fun a _ b _ h => h) hdeg
  have h0 := congrArg (Polynomial.eval 0) h
  rw [eval_toPoly, Lagrange.interpolate_apply, Polynomial.eval_finsetSum] at h0
  rw [h0, ← List.sum_toFinset _ hl]
  apply Finset.sum_congr rfl
  intro i _
  rw [lagVal_eq hl, Polynomial.eval_mul, Polynomial.eval_C, eval_toPoly, id,
    mul_comm]

theorem foldl_add_eq_sum {M : Type*} [AddCommMonoid M] : ∀ (l : List M) (a : M),
    l.foldl (· + ·) a = a + l.sum
  | [], a => by simp
  | b :: l, a => by rw [List.foldl_cons, foldl_add_eq_sum l, List.sum_cons, add_assoc]

/-! ### Index checks -/

theorem checkIndicesFrom_ok_iff (n : ℕ) : ∀ (l : List ℕ) (pos : ℕ),
    checkIndicesFrom n pos l = .ok () ↔ Spec.ValidIndices n l
  | [], pos => by simp [checkIndicesFrom, Spec.ValidIndices]
  | [a], pos => by
      simp only [checkIndicesFrom, Spec.ValidIndices]
      split
      · rename_i h
        simp; omega
      · rename_i h
        simp; omega
  | a :: b :: l, pos => by
      have ih := checkIndicesFrom_ok_iff n (b :: l) (pos + 1)
      rw [checkIndicesFrom]
      split
      · rename_i h
        simp only [reduceCtorEq, Spec.ValidIndices, List.pairwise_cons, false_iff]
        rintro ⟨⟨h1, _⟩, _⟩
        have := h1 b (by simp)
        omega
      · rename_i h
        split
        · rename_i h2
          simp only [reduceCtorEq, Spec.ValidIndices, false_iff]
          rintro ⟨_, h3⟩
          have := h3 a (by simp)
          omega
        · rename_i h2
          rw [ih]
          simp only [Spec.ValidIndices, List.pairwise_cons]
          constructor
          · rintro ⟨⟨h3, h4⟩, h5⟩
            refine ⟨⟨?_, h3, h4⟩, ?_⟩
            · intro c hc
              rcases List.mem_cons.1 hc with rfl | hc
              · omega
              · have := h3 c hc; omega
            · intro c hc
              rcases List.mem_cons.1 hc with rfl | hc
              · omega
              · exact h5 c hc
          · rintro ⟨⟨_, h3, h4⟩, h5⟩
            exact ⟨⟨h3, h4⟩, fun c hc => h5 c (List.mem_cons_of_mem _ hc)⟩

theorem checkIndicesFrom_not_panic (n : ℕ) : ∀ (l : List ℕ) (pos : ℕ),
    checkIndicesFrom n pos l ≠ .error .panic
  | [], pos => by simp [checkIndicesFrom]
  | [a], pos => by simp only [checkIndicesFrom]; split <;> simp
  | a :: b :: l, pos => by
      have ih := checkIndicesFrom_not_panic n (b :: l) (pos + 1)
      rw [checkIndicesFrom]; split
      · simp
      · split
        · simp
        · exact ih

/-- The first position where an index list is rejected because of its order. -/
theorem checkIndicesFrom_order_iff (n : ℕ) : ∀ (l : List ℕ) (pos p : ℕ),
    checkIndicesFrom n pos l = .error (.err (.InvalidOrder p)) ↔
      ∃ i, p = pos + i ∧ (∀ k < i, Spec.InOrderAt l k ∧ Spec.InRangeAt n l k) ∧ ¬ Spec.InOrderAt l i
  | [], pos, p => by simp [checkIndicesFrom, Spec.InOrderAt]
  | [a], pos, p => by
      simp only [checkIndicesFrom]
      split <;> simp [Spec.InOrderAt]
  | a :: b :: l, pos, p => by
      have ih := checkIndicesFrom_order_iff n (b :: l) (pos + 1) p
      have ho : Spec.InOrderAt (a :: b :: l) 0 ↔ a < b := by simp [Spec.InOrderAt]
      have hr : Spec.InRangeAt n (a :: b :: l) 0 ↔ 1 ≤ a ∧ a ≤ n := by simp [Spec.InRangeAt]
      have hos : ∀ k, Spec.InOrderAt (a :: b :: l) (k + 1) ↔ Spec.InOrderAt (b :: l) k := by
        intro k; simp [Spec.InOrderAt]
      have hrs : ∀ k, Spec.InRangeAt n (a :: b :: l) (k + 1) ↔ Spec.InRangeAt n (b :: l) k := by
        intro k; simp [Spec.InRangeAt]
      rw [checkIndicesFrom]
      split
      · rename_i hab
        constructor
        · intro h
          simp only [Except.error.injEq, Fail.err.injEq, DkgError.InvalidOrder.injEq] at h
          exact ⟨0, by omega, fun k hk => absurd hk (by omega), by rw [ho]; omega⟩
        · rintro ⟨i, hp, hk, hi⟩
          cases i with
          | zero => simp [hp]
          | succ i =>
            have := ho.1 (hk 0 (by omega)).1
            omega
      · rename_i hab
        split
        · rename_i har
          constructor
          · intro h; simp at h
          · rintro ⟨i, hp, hk, hi⟩
            cases i with
            | zero => rw [ho] at hi; omega
            | succ i =>
              have := hr.1 (hk 0 (by omega)).2
              omega
        · rename_i har
          rw [ih]
          constructor
          · rintro ⟨i, hp, hk, hi⟩
            refine ⟨i + 1, by omega, ?_, by rwa [hos]⟩
            intro k hk'
            cases k with
            | zero => rw [ho, hr]; omega
            | succ k => rw [hos, hrs]; exact hk k (by omega)
          · rintro ⟨i, hp, hk, hi⟩
            cases i with
            | zero => rw [ho] at hi; omega
            | succ i =>
              refine ⟨i, by omega, ?_, by rwa [← hos]⟩
              intro k hk'
              have := hk (k + 1) (by omega)
              rwa [hos, hrs] at this

/-- The first position where an index list is rejected because of its range. -/
theorem checkIndicesFrom_range_iff (n : ℕ) : ∀ (l : List ℕ) (pos c : ℕ),
    checkIndicesFrom n pos l = .error (.err (.InvalidIndex c)) ↔
      ∃ i, (∀ k < i, Spec.InOrderAt l k ∧ Spec.InRangeAt n l k) ∧ Spec.InOrderAt l i ∧
        l[i]? = some c ∧ ¬ (1 ≤ c ∧ c ≤ n)
  | [], pos, c => by simp [checkIndicesFrom]
  | [a], pos, c => by
      simp only [checkIndicesFrom]
      split
      · rename_i ha
        constructor
        · intro h
          simp only [Except.error.injEq, Fail.err.injEq, DkgError.InvalidIndex.injEq] at h
          subst h
          exact ⟨0, fun k hk => absurd hk (by omega), by simp [Spec.InOrderAt], rfl, by omega⟩
        · rintro ⟨i, _, _, hi, hc⟩
          cases i with
          | zero => simp at hi; simp [hi]
          | succ i => simp at hi
      · rename_i ha
        constructor
        · intro h; simp at h
        · rintro ⟨i, _, _, hi, hc⟩
          cases i with
          | zero => simp at hi; omega
          | succ i => simp at hi
  | a :: b :: l, pos, c => by
      have ih := checkIndicesFrom_range_iff n (b :: l) (pos + 1) c
      have ho : Spec.InOrderAt (a :: b :: l) 0 ↔ a < b := by simp [Spec.InOrderAt]
      have hr : Spec.InRangeAt n (a :: b :: l) 0 ↔ 1 ≤ a ∧ a ≤ n := by simp [Spec.InRangeAt]
      have hos : ∀ k, Spec.InOrderAt (a :: b :: l) (k + 1) ↔ Spec.InOrderAt (b :: l) k := by
        intro k; simp [Spec.InOrderAt]
      have hrs : ∀ k, Spec.InRangeAt n (a :: b :: l) (k + 1) ↔ Spec.InRangeAt n (b :: l) k := by
        intro k; simp [Spec.InRangeAt]
      rw [checkIndicesFrom]
      split
      · rename_i hab
        constructor
        · intro h; simp at h
        · rintro ⟨i, hk, hi, _, _⟩
          cases i with
          | zero => rw [ho] at hi; omega
          | succ i =>
            have := ho.1 (hk 0 (by omega)).1
            omega
      · rename_i hab
        split
        · rename_i har
          constructor
          · intro h
            simp only [Except.error.injEq, Fail.err.injEq, DkgError.InvalidIndex.injEq] at h
            subst h
            exact ⟨0, fun k hk => absurd hk (by omega), by rw [ho]; omega, rfl, by omega⟩
          · rintro ⟨i, hk, hi, hc, hcn⟩
            cases i with
            | zero => simp at hc; simp [hc]
            | succ i =>
              have := hr.1 (hk 0 (by omega)).2
              omega
        · rename_i har
          rw [ih]
          constructor
          · rintro ⟨i, hk, hi, hc, hcn⟩
            refine ⟨i + 1, ?_, by rwa [hos], by simpa using hc, hcn⟩
            intro k hk'
            cases k with
            | zero => rw [ho, hr]; omega
            | succ k => rw [hos, hrs]; exact hk k (by omega)
          · rintro ⟨i, hk, hi, hc, hcn⟩
            cases i with
            | zero => simp at hc; omega
            | succ i =>
              refine ⟨i, ?_, by rwa [← hos], by simpa using hc, hcn⟩
              intro k hk'
              have := hk (k + 1) (by omega)
              rwa [hos, hrs] at this

/-- What the combination returns once the length and index checks have passed. -/
noncomputable def combined (sigmas : List PartialEval) : G1 :=
  (sigmas.map (fun s => lagVal (sigmas.map (fun s => (s.index : Fr))) (s.index : Fr) • s.value)).sum

theorem combine_eq (keccak : Keccak) (cfg : DkgConfig) (sigmas : List PartialEval)
    (hlen : sigmas.length = cfg.threshold) (hpos : 0 < cfg.threshold) :
    combinePartialEvaluations keccak cfg sigmas =
      (checkIndices cfg.numberOfMembers (sigmas.map (·.index))).bind
        (fun _ => .ok ⟨combined sigmas, hashPoint keccak (combined sigmas)⟩) := by
  unfold combinePartialEvaluations
  simp only [hlen, ne_eq, not_true_eq_false, if_false]
  have hl := mapM_ok (lagrangeCoeff ((sigmas.map (·.index)).map (fun (i : ℕ) => (i : Fr))))
    (lagVal ((sigmas.map (·.index)).map (fun (i : ℕ) => (i : Fr))))
    ((sigmas.map (·.index)).map (fun (i : ℕ) => (i : Fr))) (fun i _ => lagrangeCoeff_eq _ i)
  rw [hl]
  cases checkIndices cfg.numberOfMembers (sigmas.map (·.index)) with
  | error e => rfl
  | ok _ =>
    have hz : List.zipWith (fun (s : PartialEval) (l : Fr) => l • s.value) sigmas
        (List.map (lagVal ((sigmas.map (·.index)).map (fun (i : ℕ) => (i : Fr))))
          ((sigmas.map (·.index)).map (fun (i : ℕ) => (i : Fr)))) =
        sigmas.map (fun s => lagVal (sigmas.map (fun s => (s.index : Fr))) (s.index : Fr) • s.value) := by
      rw [List.map_map, List.map_map, List.map_map, List.zipWith_map_right]
      rw [List.zipWith_self]
      rfl
    cases hs : sigmas with
    | nil => rw [hs] at hlen; simp at hlen; omega
    | cons s0 rest =>
      rw [hs] at hz
      simp only [pure, bind, Except.bind, Except.pure]
      rw [hz]
      simp only [List.map_cons, foldl_add_eq_sum, combined, List.sum_cons]


/-- Values that lie on a polynomial of `t` coefficients recombine to its constant term. -/
theorem combined_eq {t n : ℕ} (hn : n < 2 ^ 64) {coeffs : List Fr} (hc : coeffs.length = t)
    (sigmas : List PartialEval) (hlen : sigmas.length = t)
    (hidx : Spec.ValidIndices n (sigmas.map (·.index))) (H : G1)
    (hval : ∀ s ∈ sigmas, s.value = Spec.poly coeffs (s.index : Fr) • H) :
    combined sigmas = Spec.poly coeffs 0 • H := by
  have hnd : (sigmas.map (fun s => (s.index : Fr))).Nodup := by
    have h1 : (sigmas.map (·.index)).Nodup := hidx.1.imp (fun h => Nat.ne_of_lt h)
    have h2 : (sigmas.map (fun s => (s.index : Fr))) =
        (sigmas.map (·.index)).map (fun (i : ℕ) => (i : Fr)) := by simp
    rw [h2]
    refine h1.map_on ?_
    intro a ha b hb hab
    have := hidx.2 a ha
    have := hidx.2 b hb
    have hr := lt_of_usize hn
    exact natCast_inj_of_lt (by omega) (by omega) hab
  have h3 := sum_lagVal hnd (coeffs := coeffs) (by simp [hc, hlen])
  rw [← h3, List.sum_smul, combined, List.map_map, List.map_map]
  congr 1
  apply List.map_congr_left
  intro s hs
  simp only [Function.comp]
  rw [hval s hs, smul_smul]

/-! ### Transcript bytes -/

theorem hashPoint_eq (keccak : Keccak) (P : G1) :
    hashPoint keccak P =
      Word.bytes (keccak (beBytes 32 (coords P).1.val ++ beBytes 32 (coords P).2.val)) := by
  simp [hashPoint, feBytes, beBytes]

theorem challenge_eq (keccak : Keccak) (g h r1 r2 vk v : G1) :
    challenge keccak g h r1 r2 vk v = ((keccak (transcript g h r1 r2 vk v)).toNat : Fr) :=
  fromRaw_word _ _


theorem verify_ok_iff (keccak : Keccak) (h2c : List Byte → G1) (p : PartialEval) (cfg : DkgConfig)
    (input : List Byte) (vk : G1) :
    p.verify keccak h2c cfg input vk = .ok () ↔
      (1 ≤ p.index ∧ p.index ≤ cfg.numberOfMembers) ∧
      p.proof.c = challenge keccak g1 (h2c input) (p.proof.z • g1 - p.proof.c • vk)
        (p.proof.z • h2c input - p.proof.c • p.value) vk p.value := by
  unfold PartialEval.verify
  split
  · rename_i h
    constructor
    · intro h'; cases h'
    · rintro ⟨h', _⟩; omega
  · rename_i h
    dsimp only
    split
    · rename_i h2
      constructor
      · intro h'; cases h'
      · rintro ⟨_, h'⟩; exact absurd h' h2
    · rename_i h2
      exact ⟨fun _ => ⟨by omega, not_not.1 h2⟩, fun _ => rfl⟩

theorem evaluate_verifies (keccak : Keccak) (h2c : List Byte → G1) (cfg : DkgConfig)
    (k : DkgShareKey) (hk : k.vk = k.sk • g1) (h1 : 1 ≤ k.index) (hn : k.index ≤ cfg.numberOfMembers)
    (input : List Byte) (nonce : Fr) :
    (k.evaluate keccak h2c input nonce).verify keccak h2c cfg input k.vk = .ok () := by
  have e1 : ∀ c : Fr, (c * k.sk + nonce) • g1 - c • k.vk = nonce • g1 := by
    intro c; rw [hk]; module
  have e2 : ∀ c : Fr, (c * k.sk + nonce) • h2c input - c • (k.sk • h2c input) =
      nonce • h2c input := by intro c; module
  rw [verify_ok_iff]
  refine ⟨⟨h1, hn⟩, ?_⟩
  dsimp only [DkgShareKey.evaluate]
  rw [e1, e2]

end Verif
