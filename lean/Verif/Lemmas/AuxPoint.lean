import Verif.Lemmas.FixedPointTable

/-!
The auxiliary point of G2 in the code (src/ecc_chip/bn256.rs:4-37) is on the twist, has order `r` and
fits the window table of the generator; a simple arithmetic test for multiples of the base as
auxiliary points.
-/

namespace Verif.FixedPoint
open Verif Spec WeierstrassCurve.Affine

def aux2N : P2N := (aux2X, aux2Y)

theorem aux2_on : onTwistN aux2N = true := by decide +kernel

/-- The auxiliary point of G2, src/ecc_chip/bn256.rs:4-37. -/
def aux2 : G2 := Point.some (c2 aux2N.1) (c2 aux2N.2) (onTwistN_spec aux2_on)

theorem aux2_rep : Rep2 aux2 aux2N := ⟨_, rfl⟩

theorem aux2_ladder : ladder2N aux2N (msb (r - 1) 253) aux2N = some (aux2N.1, neg2N aux2N.2) := by
  decide +kernel

theorem r_nsmul_aux2 : r • aux2 = 0 := by
  have hv : bitsVal (msb (r - 1) 253) 1 = r - 1 := by decide +kernel
  have h := ladder2N_rep aux2_rep (msb (r - 1) 253) 1 aux2N _ (by simpa using aux2_rep) aux2_ladder
  rw [hv] at h
  obtain ⟨hns, h⟩ := h
  obtain ⟨h', hneg⟩ := shortW_neg_some (onTwistN_spec (P := aux2N) aux2_on)
  have e : (r - 1) • aux2 = -aux2 := by
    rw [h]
    change _ = -(Point.some (c2 aux2N.1) (c2 aux2N.2) _)
    rw [hneg]
    simp [c2_neg]
  have : r = (r - 1) + 1 := by decide +kernel
  rw [this, succ_nsmul, e, neg_add_cancel]

/-- `m` times the generator has another abscissa than `T`. -/
def awayN (T : P2N) (m : ℕ) : Bool :=
  match ladder2N g2N (msb m (Nat.log2 m)) g2N with
  | some d => bitsVal (msb m (Nat.log2 m)) 1 == m && !eq2N d.1 T.1
  | none => false

theorem awayN_spec {T : P2N} {Q : G2} (hT : Rep2 Q T) {m : ℕ} (h : awayN T m = true) :
    m • g2 ≠ Q ∧ m • g2 ≠ -Q := by
  unfold awayN at h
  split at h
  · rename_i d hd
    rw [Bool.and_eq_true, beq_iff_eq, Bool.not_eq_true', Bool.eq_false_iff] at h
    obtain ⟨h1, h2⟩ := h
    rw [Ne, eq2N_iff] at h2
    have hr := ladder2N_rep g2_rep _ 1 g2N d (by simpa using g2_rep) hd
    rw [h1] at hr
    obtain ⟨_, hr⟩ := hr
    obtain ⟨hq, rfl⟩ := hT
    obtain ⟨h', hneg⟩ := shortW_neg_some hq
    rw [hr, hneg]
    constructor
    · intro e; injection e with e1 e2; exact h2 e1
    · intro e; injection e with e1 e2; exact h2 e1
  · simp at h

/-- Multiples by integers that agree modulo `r`. -/
theorem nsmul_congr {G : Type} [AddCommGroup G] {P : G} (hr : r • P = 0) {a b : ℕ} (h : a % r = b % r) :
    a • P = b • P := by
  have key : ∀ n : ℕ, n • P = (n % r) • P := fun n => by
    conv_lhs => rw [← Nat.mod_add_div n r, add_nsmul, mul_nsmul, hr, nsmul_zero, add_zero]
  rw [key a, key b, h]

theorem sub_nsmul_eq {G : Type} [AddCommGroup G] {P : G} (hr : r • P = 0) {a c m : ℕ}
    (h : a % r = (m + c) % r) : a • P - c • P = m • P := by
  rw [nsmul_congr hr h, add_nsmul, add_sub_cancel_right]

def C3 : ℕ := ∑ j ∈ Finset.range 85, 2 * 2 ^ (3 * j)

def fitsTable2N : Bool :=
  (List.range 8).all (fun k => awayN aux2N ((k + 2) * 2 ^ 249 % r)) &&
  (List.range 4).all (fun k => awayN aux2N (((k + 2) * 2 ^ 252 + (2 * r - C3)) % r))

theorem fitsTable2N_true : fitsTable2N = true := by decide +kernel

/-- The window table of the G2 generator with the auxiliary point of the code has no infinite entry. -/
theorem aux2_tableFits : TableFits 3 g2 aux2 := by
  have h := fitsTable2N_true
  rw [fitsTable2N, Bool.and_eq_true, List.all_eq_true, List.all_eq_true] at h
  refine ⟨fun k hk => ?_, fun k hk => ?_⟩
  · have := (awayN_spec aux2_rep (h.1 k (List.mem_range.2 hk))).2
    have e : ((k + 2) * 2 ^ 249 % r) • g2 = ((k + 2) * 2 ^ 249) • g2 :=
      nsmul_congr r_nsmul_g2 (Nat.mod_mod _ _)
    rw [e] at this
    intro c
    apply this
    rw [c, neg_neg]
  · have := (awayN_spec aux2_rep (h.2 k (List.mem_range.2 hk))).1
    have e : ((k + 2) * 2 ^ 252) • g2 - C3 • g2 =
        (((k + 2) * 2 ^ 252 + (2 * r - C3)) % r) • g2 := by
      apply sub_nsmul_eq r_nsmul_g2
      rw [Nat.add_mod, Nat.mod_mod, ← Nat.add_mod]
      have : C3 ≤ 2 * r := by decide +kernel
      rw [Nat.add_assoc, Nat.sub_add_cancel this]
      simp
    intro c
    apply this
    rw [← e]
    exact c.symm

end Verif.FixedPoint
