import Verif.Lemmas.AuxPoint

namespace Verif.FixedPoint
open Verif Spec WeierstrassCurve.Affine

/-! ### Multiples of the base as auxiliary points -/

def lowSum (w K : ℕ) : ℕ → ℕ
  | 0 => 0
  | i + 1 => lowSum w K i + (digit w K i + 2) * 2 ^ (w * i)

def offSum (w : ℕ) : ℕ → ℕ
  | 0 => 0
  | i + 1 => offSum w i + 2 * 2 ^ (w * i)

theorem lowSum_eq (w K i : ℕ) :
    ∑ j ∈ Finset.range i, (digit w K j + 2) * 2 ^ (w * j) = lowSum w K i := by
  induction i with
  | zero => rfl
  | succ i ih => rw [Finset.sum_range_succ, ih]; rfl

theorem offSum_eq (w i : ℕ) : ∑ j ∈ Finset.range i, 2 * 2 ^ (w * j) = offSum w i := by
  induction i with
  | zero => rfl
  | succ i ih => rw [Finset.sum_range_succ, ih]; rfl

def fitsN (w K a : ℕ) : Bool :=
  let n := (254 + w - 1) / w
  let L := lowSum w K (n - 2)
  let M := (digit w K (n - 2) + 2) * 2 ^ (w * (n - 2))
  let N := (digit w K (n - 1) + 2) * 2 ^ (w * (n - 1))
  let C := offSum w n
  (a + M) % r != L % r && (a + M + L) % r != 0 && (a + a + M + L + C) % r != N % r && K % r != 0

theorem nsmul_ne {G : Type} [AddCommGroup G] {P : G} (hP : addOrderOf P = r) {a b : ℕ}
    (h : a % r ≠ b % r) : a • P ≠ b • P := by
  rw [Ne, nsmul_eq_nsmul_iff_modEq, hP]; exact h

theorem nsmul_ne_zero' {G : Type} [AddCommGroup G] {P : G} (hP : addOrderOf P = r) {a : ℕ}
    (h : a % r ≠ 0) : a • P ≠ 0 := by
  have := nsmul_ne hP (a := a) (b := 0) (by rwa [Nat.zero_mod])
  rwa [zero_nsmul] at this

theorem fitsN_spec {G : Type} [AddCommGroup G] {P : G} (hP : addOrderOf P = r) {w K a : ℕ}
    (h : fitsN w K a = true) : AuxFits w K P (a • P) := by
  unfold fitsN at h
  simp only [Bool.and_eq_true, bne_iff_ne] at h
  obtain ⟨⟨⟨h1, h2⟩, h3⟩, h4⟩ := h
  unfold AuxFits
  simp only [lowSum_eq, offSum_eq]
  have h2' := nsmul_ne_zero' hP h2
  have h1' := nsmul_ne hP h1
  have h3' := nsmul_ne hP h3
  have h4' := nsmul_ne_zero' hP h4
  simp only [add_nsmul] at h1' h2' h3'
  generalize lowSum w K ((254 + w - 1) / w - 2) • P = L at *
  generalize ((digit w K ((254 + w - 1) / w - 2) + 2) * 2 ^ (w * ((254 + w - 1) / w - 2))) • P = M at *
  generalize ((digit w K ((254 + w - 1) / w - 1) + 2) * 2 ^ (w * ((254 + w - 1) / w - 1))) • P = N at *
  generalize offSum w ((254 + w - 1) / w) • P = C at *
  refine ⟨fun e => h1' ?_, fun e => h2' ?_, fun e => h3' ?_, h4'⟩
  · rw [e]; abel
  · rw [e]; abel
  · rw [e]; abel

def tableFitsN (w a : ℕ) : Bool :=
  let n := (254 + w - 1) / w
  (List.range (2 ^ w)).all (fun k => (a + (k + 2) * 2 ^ (w * (n - 2))) % r != 0) &&
  (List.range (2 ^ (254 - w * (n - 1)))).all
    (fun k => (a + offSum w n) % r != ((k + 2) * 2 ^ (w * (n - 1))) % r)

theorem tableFitsN_spec {G : Type} [AddCommGroup G] {P : G} (hP : addOrderOf P = r) {w a : ℕ}
    (h : tableFitsN w a = true) : TableFits w P (a • P) := by
  unfold tableFitsN at h
  simp only [Bool.and_eq_true, bne_iff_ne, List.all_eq_true, List.mem_range] at h
  unfold TableFits
  simp only [offSum_eq]
  refine ⟨fun k hk e => ?_, fun k hk e => ?_⟩
  · apply nsmul_ne_zero' hP (h.1 k hk)
    rw [add_nsmul, e, neg_add_cancel]
  · apply nsmul_ne hP (h.2 k hk)
    rw [add_nsmul, e, sub_add_cancel]

/-! ### Multiples of the G2 generator and the auxiliary point of the code -/

theorem auxFits_of {G : Type} [AddCommGroup G] {w K n m : ℕ} {P aux : G}
    (hn : (254 + w - 1) / w = n) (hm : n = m + 2)
    (h : let L := lowSum w K m
      let M := (digit w K m + 2) * 2 ^ (w * m)
      let N := (digit w K (m + 1) + 2) * 2 ^ (w * (m + 1))
      aux ≠ L • P - M • P ∧ aux ≠ -(L • P) - M • P ∧
      aux + aux ≠ N • P - (offSum w n + L + M) • P ∧ K • P ≠ 0) : AuxFits w K P aux := by
  subst hm
  unfold AuxFits
  simp only [lowSum_eq, offSum_eq, hn]
  obtain ⟨h1, h2, h3, h4⟩ := h
  refine ⟨h1, h2, fun e => h3 ?_, h4⟩
  rw [e, add_nsmul, add_nsmul]
  simp only [Nat.add_sub_cancel, show m + 2 - 1 = m + 1 from rfl]
  abel

def fits2N (K L M N C : ℕ) (d : P2N) : Bool :=
  awayN aux2N ((L + (4 * r - M)) % r) && awayN aux2N ((L + M) % r) &&
    awayN d ((N + (9 * r - (C + L + M))) % r) && decide (M ≤ 4 * r) && decide (C + L + M ≤ 9 * r) &&
    K % r != 0

theorem fits2N_spec {K L M N C : ℕ} {d : P2N} (hd : dbl2N aux2N = some d)
    (h : fits2N K L M N C d = true) :
    aux2 ≠ L • g2 - M • g2 ∧ aux2 ≠ -(L • g2) - M • g2 ∧
      aux2 + aux2 ≠ N • g2 - (C + L + M) • g2 ∧ K • g2 ≠ 0 := by
  unfold fits2N at h
  simp only [Bool.and_eq_true, bne_iff_ne, decide_eq_true_eq] at h
  obtain ⟨⟨⟨⟨⟨h1, h2⟩, h3⟩, h4⟩, h5⟩, h6⟩ := h
  have h1' := awayN_spec aux2_rep h1
  have h2' := awayN_spec aux2_rep h2
  have h3' := awayN_spec (dbl2N_rep aux2_rep hd) h3
  have h6' := nsmul_ne_zero' addOrderOf_g2 h6
  refine ⟨fun e => h1'.1 ?_, fun e => h2'.2 ?_, fun e => h3'.1 ?_, h6'⟩
  · rw [e]
    refine (sub_nsmul_eq r_nsmul_g2 ?_).symm
    rw [Nat.add_mod, Nat.mod_mod, ← Nat.add_mod, Nat.add_assoc, Nat.sub_add_cancel h4,
      Nat.add_mul_mod_self_right]
  · rw [e, nsmul_congr r_nsmul_g2 (Nat.mod_mod _ _), add_nsmul]; abel
  · rw [e]
    refine (sub_nsmul_eq r_nsmul_g2 ?_).symm
    rw [Nat.add_mod, Nat.mod_mod, ← Nat.add_mod, Nat.add_assoc, Nat.sub_add_cancel h5,
      Nat.add_mul_mod_self_right]

def fits3N (K : ℕ) : Bool :=
  match dbl2N aux2N with
  | none => false
  | some d => fits2N K (lowSum 3 K 83) ((digit 3 K 83 + 2) * 2 ^ (3 * 83))
      ((digit 3 K (83 + 1) + 2) * 2 ^ (3 * (83 + 1))) (offSum 3 85) d

theorem fits3N_spec {K : ℕ} (h : fits3N K = true) : AuxFits 3 K g2 aux2 := by
  unfold fits3N at h
  split at h
  · exact absurd h (by simp)
  · rename_i d hd
    exact auxFits_of (n := 85) (m := 83) rfl rfl (fits2N_spec hd h)

end Verif.FixedPoint
