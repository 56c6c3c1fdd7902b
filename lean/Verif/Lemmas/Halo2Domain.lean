import Verif.Spec.Halo2
import Mathlib.Algebra.Polynomial.Derivative

/-! Polynomials on the domain of roots of unity. -/

namespace Verif.Spec.Halo2
open Polynomial

section generic
variable {F : Type*} [Field F] {w : F} {n : ℕ}

theorem pow_injOn (hw : IsPrimitiveRoot w n) :
    Set.InjOn (fun i => w ^ i) (Finset.range n : Set ℕ) := by
  intro i hi j hj h
  exact hw.pow_inj (Finset.mem_range.1 hi) (Finset.mem_range.1 hj) h

theorem row_pow (hw : IsPrimitiveRoot w n) (i : ℕ) : (w ^ i) ^ n = 1 := by
  rw [← pow_mul, mul_comm, pow_mul, hw.pow_eq_one, one_pow]

/-- The polynomial with the rows as roots. -/
theorem nodal_rows (hw : IsPrimitiveRoot w n) (hn : n ≠ 0) :
    Lagrange.nodal (Finset.range n) (fun i => w ^ i) = X ^ n - 1 := by
  refine eq_of_degree_sub_lt_of_eval_index_eq (Finset.range n) (pow_injOn hw) ?_ ?_
  · have hd : (Lagrange.nodal (Finset.range n) (fun i => w ^ i)).degree = (X ^ n - 1 : F[X]).degree := by
      rw [Lagrange.degree_nodal, Finset.card_range, ← C_1, degree_X_pow_sub_C (Nat.pos_of_ne_zero hn)]
    refine lt_of_lt_of_eq (degree_sub_lt_left hd Lagrange.nodal_ne_zero ?_) ?_
    · rw [Lagrange.nodal_monic.leadingCoeff, ← C_1, leadingCoeff_X_pow_sub_C (Nat.pos_of_ne_zero hn)]
    · rw [Lagrange.degree_nodal]
  · intro i hi
    rw [Lagrange.eval_nodal_at_node hi, eval_sub, eval_pow, eval_X, eval_one, row_pow hw, sub_self]

theorem eval_basis_rows (hw : IsPrimitiveRoot w n) (hn : n ≠ 0) {i : ℕ} (hi : i < n) {x : F}
    (hx : x ≠ w ^ i) : (Lagrange.basis (Finset.range n) (fun i => w ^ i) i).eval x =
      w ^ i * (x ^ n - 1) / (n * (x - w ^ i)) := by
  have hw0 : w ≠ 0 := hw.ne_zero hn
  rw [Lagrange.eval_basis_not_at_node (Finset.mem_range.2 hi) hx,
    Lagrange.nodalWeight_eq_eval_derivative_nodal (Finset.mem_range.2 hi), nodal_rows hw hn]
  simp only [derivative_sub, derivative_X_pow, derivative_one, sub_zero, eval_mul, eval_sub, eval_pow,
    eval_X, eval_one, eval_C]
  have h1 : (w ^ i) ^ (n - 1) = (w ^ i)⁻¹ := by
    refine eq_inv_of_mul_eq_one_left ?_
    rw [← pow_succ, Nat.sub_add_cancel (Nat.pos_of_ne_zero hn), row_pow hw]
  rw [h1, mul_inv, inv_inv, div_eq_mul_inv, mul_inv]
  ring

end generic
end Verif.Spec.Halo2
