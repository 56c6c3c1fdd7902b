import Verif.Lemmas.Poseidon
import Verif.Spec.Poseidon
import Verif.Props.Dkg

/-! Property C47: the Poseidon permutation behind the share-encryption mask. -/

namespace Verif.Props
open Verif Verif.Poseidon

/-- C47. The determinant the code inverts is not zero (so the `unwrap` of
src/poseidon/bn256.rs:40 does not panic), and the computed `MDS_INV` is the two-sided inverse of
the matrix. -/
theorem C47_mds_inverse :
    detItems MDS 0 + detItems MDS 1 + detItems MDS 2 = (Matrix.of MDS).det ∧
    (Matrix.of MDS).det ≠ 0 ∧
    Matrix.of MDS * Matrix.of MDS_INV = 1 ∧ Matrix.of MDS_INV * Matrix.of MDS = 1 := by
  have hr := mds_right
  have hl := mds_left
  have h1 : Matrix.of MDS * Matrix.of MDS_INV = 1 := by
    generalize MDS = m at *
    generalize MDS_INV = n at *
    ext i j
    rw [Matrix.mul_apply, Fin.sum_univ_three, Matrix.one_apply]
    exact hr i j
  have h2 : Matrix.of MDS_INV * Matrix.of MDS = 1 := by
    generalize MDS = m at *
    generalize MDS_INV = n at *
    ext i j
    rw [Matrix.mul_apply, Fin.sum_univ_three, Matrix.one_apply]
    exact hl i j
  refine ⟨?_, ?_, h1, h2⟩
  · generalize MDS = m
    rw [Matrix.det_fin_three]
    simp only [detItems, Matrix.of_apply]
    have e1 : (1 : Fin 3) + 1 = 2 := rfl
    have e2 : (1 : Fin 3) + 2 = 0 := rfl
    have e3 : (2 : Fin 3) + 1 = 0 := rfl
    have e4 : (2 : Fin 3) + 2 = 1 := rfl
    simp only [zero_add, e1, e2, e3, e4]
    ring
  · intro h
    have := congrArg Matrix.det h1
    rw [Matrix.det_mul, h, zero_mul, Matrix.det_one] at this
    exact zero_ne_one this

/-- C47. The matrix is maximum-distance-separable: every entry, every two-by-two minor and the
determinant are nonzero. -/
theorem C47_matrix_is_mds :
    (∀ i j, MDS i j ≠ 0) ∧
    (∀ i i' j j' : Fin 3, i < i' → j < j' → MDS i j * MDS i' j' - MDS i j' * MDS i' j ≠ 0) ∧
    (Matrix.of MDS).det ≠ 0 :=
  ⟨by decide +kernel, by decide +kernel, C47_mds_inverse.2.1⟩

/-- C47. The permutation the code runs is the Poseidon permutation with 8 full and 56 partial
rounds; of the 65 rows of constants the first 64 are used and the last one is not. -/
theorem C47_permutation_is_poseidon (s : St) :
    permute ROUND_CONSTANTS s = Spec.Poseidon.after (Matrix.of MDS) 8 56
      (fun k => ROUND_CONSTANTS.getD k 0) 64 s ∧
    permute ROUND_CONSTANTS s = permute (ROUND_CONSTANTS.take 64) s :=
  ⟨permute_eq_after s, permute_take s⟩

/-- C47. The permutation is a bijection of the states, for any table of constants. -/
theorem C47_permutation_bijective (rcs : List St) : Function.Bijective (permute rcs) :=
  Finite.injective_iff_bijective.1 (permute_injective rcs)

/-- C47. The rows the circuit constrains (with pairs of partial rounds checked through the inverse
matrix) are satisfiable for exactly one final state: the result of the permutation. -/
theorem C47_circuit_permutation (initial final : St) :
    PermuteRows initial final ↔ final = permute ROUND_CONSTANTS initial :=
  permuteRows_iff initial final

/-- C47. The two-input sponge absorbs both coordinates into one permutation call: the final state
determines both inputs (the mask is its first word). -/
theorem C47_state_determines_point (x y x' y' : Fr)
    (h : permute ROUND_CONSTANTS ![x, y, ((2 * 2 ^ 64 : ℕ) : Fr)] =
      permute ROUND_CONSTANTS ![x', y', ((2 * 2 ^ 64 : ℕ) : Fr)]) : x = x' ∧ y = y' := by
  have := (C47_permutation_bijective _).1 h
  exact ⟨congrFun this 0, congrFun this 1⟩

/-- A concrete value: the permutation moves the zero state. -/
example : permute ROUND_CONSTANTS ![0, 0, 0] ≠ ![0, 0, 0] := by
  intro h
  have := congrFun h 0
  revert this
  decide +kernel

end Verif.Props
