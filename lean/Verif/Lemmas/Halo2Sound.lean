import Verif.Lemmas.Halo2Args
import Verif.Lemmas.Halo2Quotient
import Verif.Lemmas.Halo2Key

/-! If the constraint system is not satisfied, then for most challenges some constraint fails in some row. -/

namespace Verif.Spec.Halo2
open Polynomial

/-! ### The constraints in a row -/

theorem rowPoly_row (V : Key) (hV : V.Valid) {i j : ℕ} (hi : i < V.n) (hj : j < V.n) :
    (rowPoly V j).eval (V.omega ^ i) = if i = j then 1 else 0 := by
  unfold rowPoly
  split
  · rename_i h
    rw [h]
    exact Lagrange.eval_basis_self (pow_injOn hV.root) (Finset.mem_range.2 hj)
  · rename_i h
    exact Lagrange.eval_basis_of_ne (fun h' => h h'.symm) (Finset.mem_range.2 hi)

theorem instPoly_row (V : Key) (hV : V.Valid) (inst : List Fr) (hl : inst.length ≤ V.n) {i : ℕ} (hi : i < V.n) :
    (instPoly V inst).eval (V.omega ^ i) = inst.getD i 0 := by
  unfold instPoly
  rw [eval_finsetSum]
  have h1 : ∀ j ∈ Finset.range inst.length, (C (inst.getD j 0) * rowPoly V j).eval (V.omega ^ i) =
      if i = j then inst.getD j 0 else 0 := by
    intro j hj
    have := Finset.mem_range.1 hj
    rw [eval_mul, eval_C, rowPoly_row V hV hi (by omega)]
    split <;> simp
  rw [Finset.sum_congr rfl h1, Finset.sum_ite_eq]
  split
  · rfl
  · rename_i h
    rw [List.getD_eq_default _ _ (by rw [Finset.mem_range] at h; omega)]

theorem rowAt_row (V : Key) (hV : V.Valid) (K : KeyPolys) (inst : List Fr) (hl : inst.length ≤ V.n) (P : Polys)
    {i : ℕ} (hi : i < V.n) : rowAt V K inst P (V.omega ^ i) = ⟨evalsAt V K P (V.omega ^ i), inst.getD i 0,
      if i = 0 then 1 else 0, if i = V.usable then 1 else 0, if V.usable < i then 1 else 0⟩ := by
  have h8 := eight_le V hV
  unfold rowAt
  rw [instPoly_row V hV inst hl hi, rowPoly_row V hV hi (by omega), rowPoly_row V hV hi (by omega)]
  have h1 : ∑ k ∈ Finset.range 5, (rowPoly V (V.n - 1 - k)).eval (V.omega ^ i) = if V.usable < i then 1 else 0 := by
    have h2 : ∀ k ∈ Finset.range 5, (rowPoly V (V.n - 1 - k)).eval (V.omega ^ i) =
        if V.n - 1 - i = k then 1 else 0 := by
      intro k hk
      have := Finset.mem_range.1 hk
      rw [rowPoly_row V hV hi (by omega)]
      refine if_congr ?_ rfl rfl
      omega
    rw [Finset.sum_congr rfl h2, Finset.sum_ite_eq]
    refine if_congr ?_ rfl rfl
    rw [Finset.mem_range, Key.usable]
    omega
  rw [h1]
  rfl

section rows
variable {V : Key} (hV : V.Valid) {K : KeyPolys} {inst : List Fr} (hl : inst.length ≤ V.n) {P : Polys}
  {theta beta gamma : Fr}
  (hz : ∀ i < V.n, ∀ c ∈ rowConstraints V K inst P theta beta gamma (V.omega ^ i), c = 0)

/-- The challenges of a row. -/
noncomputable def rowCh (V : Key) (theta beta gamma : Fr) (i : ℕ) : Challenges :=
  ⟨theta, beta, gamma, 0, V.omega ^ i, 0, 0, 0⟩

include hz in
theorem zero_parts {i : ℕ} (hi : i < V.n) :
    (∀ c ∈ [mainGate (evalsAt V K P (V.omega ^ i)), fullRound (evalsAt V K P (V.omega ^ i)) 0,
      fullRound (evalsAt V K P (V.omega ^ i)) 1, fullRound (evalsAt V K P (V.omega ^ i)) 2], c = 0) ∧
    (∀ c ∈ partialRounds (evalsAt V K P (V.omega ^ i)), c = 0) ∧
    (∀ c ∈ padAndAdd (evalsAt V K P (V.omega ^ i)), c = 0) ∧
    (∀ c ∈ permutation (rowCh V theta beta gamma i) (rowAt V K inst P (V.omega ^ i)), c = 0) ∧
    ∀ l, ∀ c ∈ lookup (rowCh V theta beta gamma i) (rowAt V K inst P (V.omega ^ i)) l, c = 0 := by
  have h := hz i hi
  unfold rowConstraints constraints at h
  simp only [List.forall_mem_append] at h
  obtain ⟨⟨⟨⟨⟨⟨⟨⟨h1, h2⟩, h3⟩, h4⟩, l0⟩, l1⟩, l2⟩, l3⟩, l4⟩ := h
  refine ⟨h1, h2, h3, h4, ?_⟩
  intro l
  fin_cases l
  exacts [l0, l1, l2, l3, l4]

include hV hl in
theorem active_row {i : ℕ} (hi : i < V.usable) : active (rowAt V K inst P (V.omega ^ i)) = 1 := by
  have hn : i < V.n := hi.trans_le (Nat.sub_le _ _)
  rw [rowAt_row V hV K inst hl P hn]
  change 1 - ((if i = V.usable then (1 : Fr) else 0) + if V.usable < i then (1 : Fr) else 0) = 1
  rw [if_neg (by omega), if_neg (by omega), add_zero, sub_zero]

include hV hl in
theorem l0_row : (rowAt V K inst P (V.omega ^ 0)).l0 = 1 := by
  have h8 := eight_le V hV
  rw [rowAt_row V hV K inst hl P (by omega), if_pos rfl]

include hV hl in
theorem lLast_row : (rowAt V K inst P (V.omega ^ V.usable)).lLast = 1 := by
  have h8 := eight_le V hV
  rw [rowAt_row V hV K inst hl P (by rw [Key.usable]; omega), if_pos rfl]

theorem next_row (i : ℕ) : V.omega ^ i * V.omega = V.omega ^ (i + 1) := (pow_succ _ _).symm

include hV in
theorem prev_row (i : ℕ) : V.omega ^ (i + 1) * V.omega⁻¹ = V.omega ^ i := by
  have hn : V.n ≠ 0 := pow_ne_zero _ two_ne_zero
  rw [pow_succ, mul_assoc, mul_inv_cancel₀ (hV.root.ne_zero hn), mul_one]

include hV in
theorem last_row : V.omega ^ 0 * V.omega⁻¹ ^ 6 = V.omega ^ V.usable := by
  have hn : V.n ≠ 0 := pow_ne_zero _ two_ne_zero
  have h8 := eight_le V hV
  rw [pow_zero, one_mul, inv_pow_row hV.root hn (by omega), Key.usable]

/-! ### Permutation -/

/-- Values of the products in the rows. -/
noncomputable def prodRow (V : Key) (p : Fr[X]) (i : ℕ) : Fr := p.eval (V.omega ^ i)

include hV hl in
theorem cell_row (j : Fin 9) {i : ℕ} (hi : i < V.n) :
    permColumn (rowAt V K inst P (V.omega ^ i)) j = cellAt V K P.advice inst j i := by
  rw [rowAt_row V hV K inst hl P hi]
  unfold cellAt
  fin_cases j <;> rfl

include hV hl hz in
theorem perm_step (k : Fin 3) (cols : List (Fin 9))
    (hk : ∀ i, permStep (rowCh V theta beta gamma i) (rowAt V K inst P (V.omega ^ i)) k cols ∈
      permutation (rowCh V theta beta gamma i) (rowAt V K inst P (V.omega ^ i))) {i : ℕ} (hi : i < V.usable) :
    prodRow V (P.permProduct k) (i + 1) *
        (cols.map fun j => cellAt V K P.advice inst j i + beta * (K.perm j).eval (V.omega ^ i) + gamma).prod =
      prodRow V (P.permProduct k) i *
        (cols.map fun j => cellAt V K P.advice inst j i + beta * (delta ^ (j : ℕ) * V.omega ^ i) + gamma).prod := by
  have hn : i < V.n := hi.trans_le (Nat.sub_le _ _)
  have h := (zero_parts hz hn).2.2.2.1 _ (hk i)
  unfold permStep at h
  rw [active_row hV hl hi, one_mul, sub_eq_zero] at h
  have e1 : (rowAt V K inst P (V.omega ^ i)).e.zNext k = prodRow V (P.permProduct k) (i + 1) := by
    rw [prodRow, ← next_row]
    rfl
  simp only [cell_row hV hl _ hn, e1] at h
  exact h

include hV hl hz in
theorem perm_product : prodRow V (P.permProduct 2) V.usable ^ 2 = prodRow V (P.permProduct 2) V.usable ∧
    prodRow V (P.permProduct 2) V.usable * ∏ k : Fin V.usable × Fin 9,
      (cellAt V K P.advice inst k.2 k.1 + beta * (K.perm k.2).eval (V.omega ^ (k.1 : ℕ)) + gamma) =
    ∏ k : Fin V.usable × Fin 9,
      (cellAt V K P.advice inst k.2 k.1 + beta * (delta ^ (k.2 : ℕ) * V.omega ^ (k.1 : ℕ)) + gamma) := by
  have h8 := eight_le V hV
  have hun : V.usable < V.n := by rw [Key.usable]; omega
  have p0 := (zero_parts hz (i := 0) (by omega)).2.2.2.1
  have pu := (zero_parts hz hun).2.2.2.1
  unfold permutation at p0 pu
  simp only [List.forall_mem_cons, l0_row hV hl, one_mul] at p0
  simp only [List.forall_mem_cons, lLast_row hV hl, one_mul] at pu
  obtain ⟨q1, -, q2, q3, -⟩ := p0
  have q4 := pu.2.1
  have s1 : prodRow V (P.permProduct 0) 0 = 1 := (sub_eq_zero.1 q1).symm
  have s2 : prodRow V (P.permProduct 1) 0 = prodRow V (P.permProduct 0) V.usable := by
    rw [prodRow, prodRow, ← last_row hV]
    exact sub_eq_zero.1 q2
  have s3 : prodRow V (P.permProduct 2) 0 = prodRow V (P.permProduct 1) V.usable := by
    rw [prodRow, prodRow, ← last_row hV]
    exact sub_eq_zero.1 q3
  have s4 : prodRow V (P.permProduct 2) V.usable ^ 2 = prodRow V (P.permProduct 2) V.usable := sub_eq_zero.1 q4
  refine ⟨s4, ?_⟩
  have t0 := running _ _ _ V.usable fun i hi => perm_step hV hl hz 0 [0, 1, 2, 3]
    (fun i => by unfold permutation; simp only [List.mem_cons, true_or, or_true]) hi
  have t1 := running _ _ _ V.usable fun i hi => perm_step hV hl hz 1 [4, 5, 6, 7]
    (fun i => by unfold permutation; simp only [List.mem_cons, true_or, or_true]) hi
  have t2 := running _ _ _ V.usable fun i hi => perm_step hV hl hz 2 [8]
    (fun i => by unfold permutation; simp only [List.mem_cons, true_or, or_true]) hi
  have split : ∀ F : Fin 9 → ℕ → Fr, ∏ k : Fin V.usable × Fin 9, F k.2 k.1 =
      (∏ i ∈ Finset.range V.usable, ([0, 1, 2, 3].map fun j => F j i).prod) *
      (∏ i ∈ Finset.range V.usable, ([4, 5, 6, 7].map fun j => F j i).prod) *
      (∏ i ∈ Finset.range V.usable, ([8].map fun j => F j i).prod) := by
    intro F
    rw [← Finset.prod_mul_distrib, ← Finset.prod_mul_distrib, Fintype.prod_prod_type,
      Finset.prod_range (fun i => ([0, 1, 2, 3].map fun j => F j i).prod * ([4, 5, 6, 7].map fun j => F j i).prod *
        ([8].map fun j => F j i).prod)]
    refine Finset.prod_congr rfl fun i _ => ?_
    rw [Fin.prod_univ_def, show List.finRange 9 = [0, 1, 2, 3, 4, 5, 6, 7, 8] from rfl]
    simp only [List.map_cons, List.map_nil, List.prod_cons, List.prod_nil, mul_one]
    ring
  rw [split (fun j i => cellAt V K P.advice inst j i + beta * (K.perm j).eval (V.omega ^ i) + gamma),
    split (fun j i => cellAt V K P.advice inst j i + beta * (delta ^ (j : ℕ) * V.omega ^ i) + gamma)]
  rw [s1, one_mul] at t0
  rw [s2] at t1
  rw [s3] at t2
  rw [← t0]
  linear_combination (∏ i ∈ Finset.range V.usable, ([0, 1, 2, 3].map fun j => cellAt V K P.advice inst j i +
    beta * (K.perm j).eval (V.omega ^ i) + gamma).prod) * (∏ i ∈ Finset.range V.usable, ([4, 5, 6, 7].map fun j =>
    cellAt V K P.advice inst j i + beta * (K.perm j).eval (V.omega ^ i) + gamma).prod) * t2 +
    (∏ i ∈ Finset.range V.usable, ([0, 1, 2, 3].map fun j => cellAt V K P.advice inst j i +
    beta * (K.perm j).eval (V.omega ^ i) + gamma).prod) * (∏ i ∈ Finset.range V.usable, ([8].map fun j =>
    cellAt V K P.advice inst j i + beta * (delta ^ (j : ℕ) * V.omega ^ i) + gamma).prod) * t1

/-! ### Lookups -/

/-- Input and table value of a lookup in a row, combined with `theta`. -/
noncomputable def inputRow (V : Key) (K : KeyPolys) (advice : Fin 5 → Fr[X]) (theta : Fr) (l : Fin 5) (i : ℕ) : Fr :=
  (lookupPair (gateRow V K advice i) l).1 * theta + (lookupPair (gateRow V K advice i) l).2
/-- Input and table value of a lookup in a row, combined with `theta`. -/
noncomputable def tableRow (V : Key) (K : KeyPolys) (advice : Fin 5 → Fr[X]) (theta : Fr) (i : ℕ) : Fr :=
  (gateRow V K advice i).f 9 * theta + (gateRow V K advice i).f 10

include hV hl hz in
theorem lookup_rows (l : Fin 5) :
    prodRow V (P.lookupInput l) 0 = prodRow V (P.lookupTable l) 0 ∧
    (∀ i, i + 1 < V.usable → prodRow V (P.lookupInput l) (i + 1) = prodRow V (P.lookupTable l) (i + 1) ∨
      prodRow V (P.lookupInput l) (i + 1) = prodRow V (P.lookupInput l) i) ∧
    prodRow V (P.lookupProduct l) V.usable ^ 2 = prodRow V (P.lookupProduct l) V.usable ∧
    prodRow V (P.lookupProduct l) V.usable * ∏ k : Fin V.usable,
      ((prodRow V (P.lookupInput l) k + beta) * (prodRow V (P.lookupTable l) k + gamma)) =
    ∏ k : Fin V.usable, ((inputRow V K P.advice theta l k + beta) * (tableRow V K P.advice theta k + gamma)) := by
  have h8 := eight_le V hV
  have hun : V.usable < V.n := by rw [Key.usable]; omega
  have p0 := (zero_parts hz (i := 0) (by omega)).2.2.2.2 l
  have pu := (zero_parts hz hun).2.2.2.2 l
  unfold lookup at p0 pu
  simp only [List.forall_mem_cons, l0_row hV hl, one_mul] at p0
  simp only [List.forall_mem_cons, lLast_row hV hl, one_mul] at pu
  obtain ⟨q1, -, -, q2, -⟩ := p0
  have q4 := pu.2.1
  have s1 : prodRow V (P.lookupProduct l) 0 = 1 := (sub_eq_zero.1 q1).symm
  refine ⟨sub_eq_zero.1 q2, ?_, sub_eq_zero.1 q4, ?_⟩
  · intro i hi
    have pi := (zero_parts hz (hi.trans hun)).2.2.2.2 l
    unfold lookup at pi
    simp only [List.forall_mem_cons, active_row hV hl hi, one_mul] at pi
    have h5 := pi.2.2.2.2.1
    rcases mul_eq_zero.1 h5 with h | h
    · exact Or.inl (sub_eq_zero.1 h)
    · refine Or.inr ?_
      rw [prodRow, prodRow, ← prev_row hV i]
      exact sub_eq_zero.1 h
  · have t := running (prodRow V (P.lookupProduct l))
      (fun k => (prodRow V (P.lookupInput l) k + beta) * (prodRow V (P.lookupTable l) k + gamma))
      (fun k => (inputRow V K P.advice theta l k + beta) * (tableRow V K P.advice theta k + gamma)) V.usable (by
        intro i hi
        have pi := (zero_parts hz (hi.trans hun)).2.2.2.2 l
        unfold lookup at pi
        simp only [List.forall_mem_cons, active_row hV hl hi, one_mul] at pi
        have h3 := sub_eq_zero.1 pi.2.2.1
        have e1 : (rowAt V K inst P (V.omega ^ i)).e.lzNext l = prodRow V (P.lookupProduct l) (i + 1) := by
          rw [prodRow, ← next_row]
          rfl
        have e2 : lookupInput (rowCh V theta beta gamma i) (rowAt V K inst P (V.omega ^ i)).e l =
            inputRow V K P.advice theta l i := by
          unfold inputRow
          fin_cases l <;> rfl
        rw [e1, e2] at h3
        exact h3)
    rw [s1, one_mul] at t
    rw [← Finset.prod_range (fun k => (prodRow V (P.lookupInput l) k + beta) * (prodRow V (P.lookupTable l) k + gamma)),
      ← Finset.prod_range (fun k => (inputRow V K P.advice theta l k + beta) * (tableRow V K P.advice theta k + gamma))]
    exact t

/-! ### Gates -/

include hz in
theorem gates_rows {i : ℕ} (hi : i < V.n) : mainGate (gateRow V K P.advice i) = 0 ∧
    (∀ j, fullRound (gateRow V K P.advice i) j = 0) ∧ (∀ c ∈ partialRounds (gateRow V K P.advice i), c = 0) ∧
    ∀ c ∈ padAndAdd (gateRow V K P.advice i), c = 0 := by
  obtain ⟨h1, h2, h3, -⟩ := zero_parts hz hi
  simp only [List.forall_mem_cons] at h1
  refine ⟨h1.1, ?_, h2, h3⟩
  intro j
  fin_cases j
  exacts [h1.2.1, h1.2.2.1, h1.2.2.2.1]

end rows

/-! ### Labels -/

theorem delta_order : ∀ m : Fin 8, powMod 4131629893567559867359510883348571134090853742863529169391034518566172092834
    ((m + 1) * 2 ^ 28) r % r ≠ 1 := by decide +kernel

theorem delta_pow {m : ℕ} (h0 : 0 < m) (h8 : m ≤ 8) : delta ^ (m * 2 ^ 28) ≠ 1 := by
  intro h
  have h1 := delta_order ⟨m - 1, by omega⟩
  have h2 : delta = ((4131629893567559867359510883348571134090853742863529169391034518566172092834 : ℕ) : Fr) := by
    decide +kernel
  have hm : m - 1 + 1 = m := by omega
  simp only [hm] at h1
  have hlt : m * 2 ^ 28 < 2 ^ 256 := by
    calc m * 2 ^ 28 ≤ 8 * 2 ^ 28 := Nat.mul_le_mul_right _ h8
      _ < 2 ^ 256 := by decide +kernel
  have h3 : delta ^ (m * 2 ^ 28) = ((powMod 4131629893567559867359510883348571134090853742863529169391034518566172092834
    (m * 2 ^ 28) r : ℕ) : Fr) := by
    rw [h2]
    exact Halo2.powMod_fr hlt rfl
  rw [h, ← Nat.cast_one, ZMod.natCast_eq_natCast_iff'] at h3
  refine h1 (h3.symm.trans ?_)
  exact Nat.mod_eq_of_lt (by decide +kernel)

theorem delta_ne_zero : delta ≠ 0 := by decide +kernel

theorem labels_le (V : Key) (hV : V.Valid) {j m : ℕ} (hm : j + m < 9) {i i' : ℕ}
    (h : delta ^ j * V.omega ^ i = delta ^ (j + m) * V.omega ^ i') : m = 0 := by
  by_contra h0
  have h1 : V.omega ^ i = delta ^ m * V.omega ^ i' := by
    refine mul_left_cancel₀ (pow_ne_zero j delta_ne_zero) ?_
    rw [h, pow_add, mul_assoc]
  have h2 := congrArg (· ^ V.n) h1
  simp only [mul_pow, row_pow hV.root, mul_one] at h2
  refine delta_pow (m := m) (by omega) (by omega) ?_
  have hk : V.n * 2 ^ (28 - V.k) = 2 ^ 28 := by
    rw [Key.n, ← pow_add, Nat.add_sub_cancel' hV.k_le]
  rw [← hk, pow_mul, pow_mul, ← h2, one_pow]

/-- Labels of different cells are different. -/
theorem labels_inj (V : Key) (hV : V.Valid) {j j' : Fin 9} {i i' : ℕ} (hi : i < V.n) (hi' : i' < V.n)
    (h : delta ^ (j : ℕ) * V.omega ^ i = delta ^ (j' : ℕ) * V.omega ^ i') : j = j' ∧ i = i' := by
  have hj : (j : ℕ) = j' := by
    rcases Nat.le_total (j : ℕ) j' with hle | hle
    · obtain ⟨m, hm⟩ := Nat.exists_eq_add_of_le hle
      rw [hm] at h
      have := labels_le V hV (by have := j'.2; omega) h
      omega
    · obtain ⟨m, hm⟩ := Nat.exists_eq_add_of_le hle
      rw [hm] at h
      have := labels_le V hV (by have := j.2; omega) h.symm
      omega
  rw [hj] at h
  exact ⟨Fin.ext hj, hV.root.pow_inj hi hi' (mul_left_cancel₀ (pow_ne_zero _ delta_ne_zero) h)⟩

/-! ### The challenges up to the products -/

/-- Few `theta` confuse a pair with a row of the table. -/
theorem theta_bad (p q : Fr) (u : ℕ) (t : ℕ → Fr × Fr) (h : ∀ i < u, (p, q) ≠ t i) :
    ∃ B : Finset Fr, B.card ≤ u ∧ ∀ theta ∉ B, ∀ i < u, p * theta + q ≠ (t i).1 * theta + (t i).2 := by
  classical
  refine ⟨(Finset.range u).image fun i => ((t i).2 - q) / (p - (t i).1), ?_, ?_⟩
  · exact Finset.card_image_le.trans (Finset.card_range u).le
  · intro theta hth i hi he
    by_cases hp : p = (t i).1
    · rw [hp] at he
      exact h i hi (Prod.ext hp (add_left_cancel he))
    · refine hth (Finset.mem_image.2 ⟨i, Finset.mem_range.2 hi, ?_⟩)
      rw [div_eq_iff (sub_ne_zero.2 hp)]
      linear_combination -he

/-- If the constraint system is not satisfied, a constraint fails in some row, for most challenges. -/
theorem rows_sound (V : Key) (hV : V.Valid) (K : KeyPolys) (inst : List Fr) (hl : inst.length ≤ V.n)
    (advice : Fin 5 → Fr[X]) (hno : ¬ Satisfied V K advice inst) :
    ∃ Bt : Finset Fr, Bt.card ≤ V.usable ∧ ∀ theta ∉ Bt, ∀ li lt : Fin 5 → Fr[X],
    ∃ Bb : Finset Fr, Bb.card ≤ 9 * V.usable ∧ ∀ beta ∉ Bb,
    ∃ Bg : Finset Fr, Bg.card ≤ 18 * V.usable ∧ ∀ gamma ∉ Bg, ∀ (pp : Fin 3 → Fr[X]) (lp : Fin 5 → Fr[X]) (rnd : Fr[X]),
      ∃ i < V.n, ∃ c ∈ rowConstraints V K inst ⟨advice, li, lt, pp, lp, rnd, 0⟩ theta beta gamma (V.omega ^ i), c ≠ 0 := by
  classical
  have hcard : Fintype.card (Fin V.usable × Fin 9) = 9 * V.usable := by
    rw [Fintype.card_prod, Fintype.card_fin, Fintype.card_fin, mul_comm]
  -- constraints that do not depend on the challenges
  have easy : ∀ Q : Prop, (∀ li lt theta beta gamma pp lp rnd, (∀ i < V.n, ∀ c ∈ rowConstraints V K inst
      ⟨advice, li, lt, pp, lp, rnd, 0⟩ theta beta gamma (V.omega ^ i), c = 0) → Q) → ¬ Q →
      ∃ Bt : Finset Fr, Bt.card ≤ V.usable ∧ ∀ theta ∉ Bt, ∀ li lt : Fin 5 → Fr[X],
      ∃ Bb : Finset Fr, Bb.card ≤ 9 * V.usable ∧ ∀ beta ∉ Bb,
      ∃ Bg : Finset Fr, Bg.card ≤ 18 * V.usable ∧ ∀ gamma ∉ Bg, ∀ (pp : Fin 3 → Fr[X]) (lp : Fin 5 → Fr[X]) (rnd : Fr[X]),
        ∃ i < V.n, ∃ c ∈ rowConstraints V K inst ⟨advice, li, lt, pp, lp, rnd, 0⟩ theta beta gamma (V.omega ^ i), c ≠ 0 := by
    intro Q h1 h2
    refine ⟨∅, Nat.zero_le _, fun theta _ li lt => ⟨∅, Nat.zero_le _, fun beta _ => ⟨∅, Nat.zero_le _, fun gamma _ pp lp rnd => ?_⟩⟩⟩
    by_contra hc
    push Not at hc
    exact h2 (h1 li lt theta beta gamma pp lp rnd hc)
  by_cases hg : ∀ i < V.n, mainGate (gateRow V K advice i) = 0 ∧ (∀ j, fullRound (gateRow V K advice i) j = 0) ∧
      (∀ c ∈ partialRounds (gateRow V K advice i), c = 0) ∧ ∀ c ∈ padAndAdd (gateRow V K advice i), c = 0
  swap
  · exact easy _ (fun li lt theta beta gamma pp lp rnd hz i hi => gates_rows hz hi) hg
  by_cases hcp : ∀ i < V.usable, ∀ i' < V.usable, ∀ j j' : Fin 9,
    (K.perm j).eval (V.omega ^ i) = delta ^ (j' : ℕ) * V.omega ^ i' →
    cellAt V K advice inst j i = cellAt V K advice inst j' i'
  · -- a lookup fails
    obtain ⟨l, i0, hi0, hbad⟩ : ∃ l, ∃ i0 < V.usable, ∀ i' < V.usable, lookupPair (gateRow V K advice i0) l ≠
        ((gateRow V K advice i').f 9, (gateRow V K advice i').f 10) := by
      by_contra hc
      push Not at hc
      exact hno ⟨fun i hi => (hg i hi).1, fun i hi => (hg i hi).2.1, fun i hi => (hg i hi).2.2.1,
        fun i hi => (hg i hi).2.2.2, hcp, hc⟩
    obtain ⟨Bt, hBt, ht⟩ := theta_bad _ _ V.usable
      (fun i => ((gateRow V K advice i).f 9, (gateRow V K advice i).f 10)) hbad
    refine ⟨Bt, hBt, fun theta hth li lt => ?_⟩
    have hne := ht theta hth
    by_cases hch : prodRow V (li l) 0 = prodRow V (lt l) 0 ∧
        (∀ i, i + 1 < V.usable → prodRow V (li l) (i + 1) = prodRow V (lt l) (i + 1) ∨
          prodRow V (li l) (i + 1) = prodRow V (li l) i)
    · have hms : (Finset.univ.val.map fun k : Fin V.usable => prodRow V (li l) k) ≠
            (Finset.univ.val.map fun k : Fin V.usable => inputRow V K advice theta l k) ∨
          (Finset.univ.val.map fun k : Fin V.usable => prodRow V (lt l) k) ≠
            (Finset.univ.val.map fun k : Fin V.usable => tableRow V K advice theta k) := by
        by_contra hc
        push Not at hc
        have m1 : inputRow V K advice theta l i0 ∈ Finset.univ.val.map fun k : Fin V.usable => prodRow V (li l) k := by
          rw [hc.1]
          exact Multiset.mem_map.2 ⟨⟨i0, hi0⟩, Finset.mem_univ_val _, rfl⟩
        obtain ⟨k, _, hk⟩ := Multiset.mem_map.1 m1
        obtain ⟨k', hk', h2⟩ := lookup_chain _ _ V.usable hch.1 hch.2 k k.2
        have m2 : prodRow V (lt l) k' ∈ Finset.univ.val.map fun k : Fin V.usable => tableRow V K advice theta k := by
          rw [← hc.2]
          exact Multiset.mem_map.2 ⟨⟨k', hk'⟩, Finset.mem_univ_val _, rfl⟩
        obtain ⟨k2, _, hk2⟩ := Multiset.mem_map.1 m2
        exact hne k2 k2.2 (hk.symm.trans (h2.trans hk2.symm))
      obtain ⟨Bb, hBb, hb⟩ := lookup_product_sound _ _ _ _ hms
      rw [Fintype.card_fin] at hBb
      refine ⟨Bb, by omega, fun beta hbeta => ?_⟩
      obtain ⟨Bg, hBg, hgm⟩ := hb beta hbeta
      rw [Fintype.card_fin] at hBg
      refine ⟨Bg, by omega, fun gamma hgamma pp lp rnd => ?_⟩
      by_contra hc
      push Not at hc
      obtain ⟨_, _, h3, h4⟩ := lookup_rows hV hl hc l
      exact hgm gamma hgamma _ h3 h4
    · refine ⟨∅, Nat.zero_le _, fun beta _ => ⟨∅, Nat.zero_le _, fun gamma _ pp lp rnd => ?_⟩⟩
      by_contra hc
      push Not at hc
      obtain ⟨h1, h2, _, _⟩ := lookup_rows hV hl hc l
      exact hch ⟨h1, h2⟩
  · -- a copy constraint fails
    simp only [not_forall] at hcp
    obtain ⟨i, hi, i', hi', j, j', hlab, hcell⟩ := hcp
    have hun : ∀ k : Fin V.usable, (k : ℕ) < V.n := fun k => k.2.trans_le (Nat.sub_le _ _)
    obtain ⟨Bb, hBb, hb⟩ := permutation_sound (fun k : Fin V.usable × Fin 9 => cellAt V K advice inst k.2 k.1)
      (fun k => delta ^ (k.2 : ℕ) * V.omega ^ (k.1 : ℕ)) (fun k => (K.perm k.2).eval (V.omega ^ (k.1 : ℕ))) (by
        intro hms
        have m1 : (cellAt V K advice inst j i, (K.perm j).eval (V.omega ^ i)) ∈ Finset.univ.val.map
            fun k : Fin V.usable × Fin 9 => (cellAt V K advice inst k.2 k.1, (K.perm k.2).eval (V.omega ^ (k.1 : ℕ))) :=
          Multiset.mem_map.2 ⟨(⟨i, hi⟩, j), Finset.mem_univ _, rfl⟩
        rw [hms] at m1
        obtain ⟨k, _, hk⟩ := Multiset.mem_map.1 m1
        have e1 := congrArg Prod.fst hk
        have e2 := congrArg Prod.snd hk
        simp only at e1 e2
        rw [hlab] at e2
        obtain ⟨a, b⟩ := labels_inj V hV (hun k.1) (hi'.trans_le (Nat.sub_le _ _)) e2
        rw [a, b] at e1
        exact hcell e1.symm)
    rw [hcard] at hBb
    refine ⟨∅, Nat.zero_le _, fun theta _ li lt => ⟨Bb, hBb, fun beta hbeta => ?_⟩⟩
    obtain ⟨Bg, hBg, hgm⟩ := hb beta hbeta
    rw [hcard] at hBg
    refine ⟨Bg, by omega, fun gamma hgamma pp lp rnd => ?_⟩
    by_contra hc
    push Not at hc
    obtain ⟨h3, h4⟩ := perm_product hV hl hc
    exact hgm gamma hgamma _ h3 h4

end Verif.Spec.Halo2
