import Verif.Lemmas.LookupSort
import Verif.Lemmas.Halo2Honest
import Verif.Lemmas.Halo2Sound

/-! If the columns satisfy the constraint system, all constraints of an honest prover hold in all rows. -/

namespace Verif.Spec.Halo2
open Polynomial

/-! ### Columns with given values -/

/-- The polynomial with these values in the rows. -/
noncomputable def interp (V : Key) (v : ℕ → Fr) : Fr[X] :=
  Lagrange.interpolate (Finset.range V.n) (fun i => V.omega ^ i) v

theorem interp_row (V : Key) (hV : V.Valid) (v : ℕ → Fr) {i : ℕ} (hi : i < V.n) :
    (interp V v).eval (V.omega ^ i) = v i :=
  Lagrange.eval_interpolate_at_node v (pow_injOn hV.root) (Finset.mem_range.2 hi)

theorem interp_natDegree (V : Key) (hV : V.Valid) (v : ℕ → Fr) : (interp V v).natDegree ≤ V.n - 1 := by
  have h := Lagrange.degree_interpolate_lt v (pow_injOn hV.root)
  rw [Finset.card_range] at h
  have h8 := eight_le V hV
  rcases eq_or_ne (interp V v) 0 with h0 | h0
  · rw [h0, natDegree_zero]
    exact Nat.zero_le _
  · have h1 : (interp V v).natDegree < V.n := (natDegree_lt_iff_degree_lt h0).2 h
    omega

/-! ### The constraints in a row -/

/-- What the arguments ask of the rows of the products and permuted columns. -/
structure GoodProducts (V : Key) (K : KeyPolys) (inst : List Fr) (P : Polys) (theta beta gamma : Fr) : Prop where
  first : prodRow V (P.permProduct 0) 0 = 1
  last : prodRow V (P.permProduct 2) V.usable = 1
  chain1 : prodRow V (P.permProduct 1) 0 = prodRow V (P.permProduct 0) V.usable
  chain2 : prodRow V (P.permProduct 2) 0 = prodRow V (P.permProduct 1) V.usable
  step : ∀ k : Fin 3, ∀ i < V.usable, prodRow V (P.permProduct k) (i + 1) *
      ((![[0, 1, 2, 3], [4, 5, 6, 7], [8]] : Fin 3 → List (Fin 9)) k |>.map fun j =>
        cellAt V K P.advice inst j i + beta * (K.perm j).eval (V.omega ^ i) + gamma).prod =
    prodRow V (P.permProduct k) i *
      ((![[0, 1, 2, 3], [4, 5, 6, 7], [8]] : Fin 3 → List (Fin 9)) k |>.map fun j =>
        cellAt V K P.advice inst j i + beta * (delta ^ (j : ℕ) * V.omega ^ i) + gamma).prod
  lookupFirst : ∀ l, prodRow V (P.lookupProduct l) 0 = 1
  lookupLast : ∀ l, prodRow V (P.lookupProduct l) V.usable = 1
  lookupStep : ∀ l, ∀ i < V.usable, prodRow V (P.lookupProduct l) (i + 1) *
      ((prodRow V (P.lookupInput l) i + beta) * (prodRow V (P.lookupTable l) i + gamma)) =
    prodRow V (P.lookupProduct l) i *
      ((inputRow V K P.advice theta l i + beta) * (tableRow V K P.advice theta i + gamma))
  sorted : ∀ l, ∀ i < V.usable, prodRow V (P.lookupInput l) i = prodRow V (P.lookupTable l) i ∨
    ∃ j, j + 1 = i ∧ prodRow V (P.lookupInput l) i = prodRow V (P.lookupInput l) j

section rows
variable {V : Key} (hV : V.Valid) {K : KeyPolys} {inst : List Fr} (hl : inst.length ≤ V.n) {P : Polys}
  {theta beta gamma : Fr}

include hV hl in
theorem inactive_row {i : ℕ} (hi : V.usable ≤ i) (hn : i < V.n) : active (rowAt V K inst P (V.omega ^ i)) = 0 := by
  rw [rowAt_row V hV K inst hl P hn]
  change 1 - ((if i = V.usable then (1 : Fr) else 0) + if V.usable < i then (1 : Fr) else 0) = 0
  rcases Nat.lt_or_ge V.usable i with h | h
  · rw [if_neg (by omega), if_pos h, zero_add, sub_self]
  · rw [if_pos (by omega), if_neg (by omega), add_zero, sub_self]

include hV hl in
theorem l0_other {i : ℕ} (hi : i ≠ 0) (hn : i < V.n) : (rowAt V K inst P (V.omega ^ i)).l0 = 0 := by
  rw [rowAt_row V hV K inst hl P hn, if_neg hi]

include hV hl in
theorem lLast_other {i : ℕ} (hi : i ≠ V.usable) (hn : i < V.n) : (rowAt V K inst P (V.omega ^ i)).lLast = 0 := by
  rw [rowAt_row V hV K inst hl P hn]
  change (if i = V.usable then (1 : Fr) else 0) = 0
  rw [if_neg hi]

include hV hl in
theorem permStep_zero (hG : GoodProducts V K inst P theta beta gamma) {i : ℕ} (hi : i < V.n) (k : Fin 3) :
    permStep (rowCh V theta beta gamma i) (rowAt V K inst P (V.omega ^ i)) k
      ((![[0, 1, 2, 3], [4, 5, 6, 7], [8]] : Fin 3 → List (Fin 9)) k) = 0 := by
  unfold permStep
  rcases Nat.lt_or_ge i V.usable with h | h
  · rw [active_row hV hl h, one_mul, sub_eq_zero]
    have e1 : (rowAt V K inst P (V.omega ^ i)).e.zNext k = prodRow V (P.permProduct k) (i + 1) := by
      rw [prodRow, ← next_row]
      rfl
    simp only [cell_row hV hl _ hi, e1]
    exact hG.step k i h
  · rw [inactive_row hV hl h hi, zero_mul]

include hV hl in
theorem permutation_zero (hG : GoodProducts V K inst P theta beta gamma) {i : ℕ} (hi : i < V.n) :
    ∀ c ∈ permutation (rowCh V theta beta gamma i) (rowAt V K inst P (V.omega ^ i)), c = 0 := by
  have h8 := eight_le V hV
  unfold permutation
  simp only [List.forall_mem_cons]
  refine ⟨?_, ?_, ?_, ?_, permStep_zero hV hl hG hi 0, permStep_zero hV hl hG hi 1, permStep_zero hV hl hG hi 2,
    fun _ h => (by cases h)⟩
  · rcases eq_or_ne i 0 with rfl | h
    · exact mul_eq_zero_of_right _ (sub_eq_zero.2 hG.first.symm)
    · rw [l0_other hV hl h hi, zero_mul]
  · rcases eq_or_ne i V.usable with rfl | h
    · refine mul_eq_zero_of_right _ ?_
      have h1 : (rowAt V K inst P (V.omega ^ V.usable)).e.z 2 = 1 := hG.last
      rw [h1, one_pow, sub_self]
    · rw [lLast_other hV hl h hi, zero_mul]
  · rcases eq_or_ne i 0 with rfl | h
    · refine mul_eq_zero_of_right _ (sub_eq_zero.2 ?_)
      refine hG.chain1.trans ?_
      rw [prodRow, ← last_row hV]
      rfl
    · rw [l0_other hV hl h hi, zero_mul]
  · rcases eq_or_ne i 0 with rfl | h
    · refine mul_eq_zero_of_right _ (sub_eq_zero.2 ?_)
      refine hG.chain2.trans ?_
      rw [prodRow, ← last_row hV]
      rfl
    · rw [l0_other hV hl h hi, zero_mul]

include hV hl in
theorem lookup_zero (hG : GoodProducts V K inst P theta beta gamma) {i : ℕ} (hi : i < V.n) (l : Fin 5) :
    ∀ c ∈ lookup (rowCh V theta beta gamma i) (rowAt V K inst P (V.omega ^ i)) l, c = 0 := by
  have h8 := eight_le V hV
  unfold lookup
  simp only [List.forall_mem_cons]
  refine ⟨?_, ?_, ?_, ?_, ?_, fun _ h => (by cases h)⟩
  · rcases eq_or_ne i 0 with rfl | h
    · exact mul_eq_zero_of_right _ (sub_eq_zero.2 (hG.lookupFirst l).symm)
    · rw [l0_other hV hl h hi, zero_mul]
  · rcases eq_or_ne i V.usable with rfl | h
    · refine mul_eq_zero_of_right _ ?_
      have h1 : (rowAt V K inst P (V.omega ^ V.usable)).e.lz l = 1 := hG.lookupLast l
      rw [h1, one_pow, sub_self]
    · rw [lLast_other hV hl h hi, zero_mul]
  · rcases Nat.lt_or_ge i V.usable with h | h
    · rw [active_row hV hl h, one_mul, sub_eq_zero]
      have e1 : (rowAt V K inst P (V.omega ^ i)).e.lzNext l = prodRow V (P.lookupProduct l) (i + 1) := by
        rw [prodRow, ← next_row]
        rfl
      have e2 : lookupInput (rowCh V theta beta gamma i) (rowAt V K inst P (V.omega ^ i)).e l =
          inputRow V K P.advice theta l i := by
        unfold inputRow
        fin_cases l <;> rfl
      rw [e1, e2]
      exact hG.lookupStep l i h
    · rw [inactive_row hV hl h hi, zero_mul]
  · rcases eq_or_ne i 0 with rfl | h
    · refine mul_eq_zero_of_right _ (sub_eq_zero.2 ?_)
      rcases hG.sorted l 0 (by rw [Key.usable]; omega) with h | ⟨j, hj, -⟩
      · exact h
      · omega
    · rw [l0_other hV hl h hi, zero_mul]
  · rcases Nat.lt_or_ge i V.usable with h | h
    · refine mul_eq_zero_of_right _ ?_
      rcases hG.sorted l i h with h | ⟨j, rfl, h⟩
      · exact mul_eq_zero_of_left (sub_eq_zero.2 h) _
      · refine mul_eq_zero_of_right _ (sub_eq_zero.2 (h.trans ?_))
        rw [prodRow, ← prev_row hV j]
        rfl
    · rw [inactive_row hV hl h hi, zero_mul]

include hV hl in
/-- All constraints hold in all rows. -/
theorem rows_complete (hs : Satisfied V K P.advice inst) (hG : GoodProducts V K inst P theta beta gamma) :
    ∀ i < V.n, ∀ c ∈ rowConstraints V K inst P theta beta gamma (V.omega ^ i), c = 0 := by
  intro i hi
  unfold rowConstraints constraints
  simp only [List.forall_mem_append]
  refine ⟨⟨⟨⟨⟨⟨⟨⟨?_, hs.partials i hi⟩, hs.absorb i hi⟩, permutation_zero hV hl hG hi⟩, lookup_zero hV hl hG hi 0⟩,
    lookup_zero hV hl hG hi 1⟩, lookup_zero hV hl hG hi 2⟩, lookup_zero hV hl hG hi 3⟩, lookup_zero hV hl hG hi 4⟩
  simp only [List.forall_mem_cons]
  exact ⟨hs.main i hi, hs.full i hi 0, hs.full i hi 1, hs.full i hi 2, fun _ h => (by cases h)⟩

end rows

/-! ### Products -/

/-- A running product from `z0`. -/
noncomputable def runProd (z0 : Fr) (A B : ℕ → Fr) (i : ℕ) : Fr := z0 * ∏ k ∈ Finset.range i, (B k * (A k)⁻¹)

theorem runProd_zero (z0 : Fr) (A B : ℕ → Fr) : runProd z0 A B 0 = z0 := by
  rw [runProd, Finset.prod_range_zero, mul_one]

theorem runProd_step (z0 : Fr) (A B : ℕ → Fr) {i : ℕ} (h : A i ≠ 0) :
    runProd z0 A B (i + 1) * A i = runProd z0 A B i * B i := by
  rw [runProd, runProd, Finset.prod_range_succ, mul_assoc, mul_assoc, mul_assoc, mul_assoc, inv_mul_cancel₀ h, mul_one]

theorem runProd_end (z0 : Fr) (A B : ℕ → Fr) (u : ℕ) :
    runProd z0 A B u = z0 * ((∏ k ∈ Finset.range u, B k) * (∏ k ∈ Finset.range u, A k)⁻¹) := by
  rw [runProd, Finset.prod_mul_distrib, Finset.prod_inv_distrib]

/-- A product in the used rows, blinded in the others. -/
noncomputable def productPoly (V : Key) (z0 : Fr) (A B blind : ℕ → Fr) : Fr[X] :=
  interp V fun i => if i ≤ V.usable then runProd z0 A B i else blind i

theorem productPoly_row (V : Key) (hV : V.Valid) (z0 : Fr) (A B blind : ℕ → Fr) {i : ℕ} (hi : i ≤ V.usable) :
    prodRow V (productPoly V z0 A B blind) i = runProd z0 A B i := by
  have h8 := eight_le V hV
  have h := hi
  rw [Key.usable] at h
  rw [prodRow, productPoly, interp_row V hV _ (by omega), if_pos hi]

theorem productPoly_blind (V : Key) (hV : V.Valid) (z0 : Fr) (A B blind : ℕ → Fr) {i : ℕ} (hi : V.usable < i)
    (hn : i < V.n) : (productPoly V z0 A B blind).eval (V.omega ^ i) = blind i := by
  rw [productPoly, interp_row V hV _ hn, if_neg (by omega)]

/-! ### The honest prover -/

/-- Columns of the permutation products. -/
def permCols : Fin 3 → List (Fin 9) := ![[0, 1, 2, 3], [4, 5, 6, 7], [8]]

section honest
variable (V : Key) (K : KeyPolys) (inst : List Fr) (advice : Fin 5 → Fr[X]) (theta beta gamma : Fr)

/-- Denominator of a permutation product in a row. -/
noncomputable def permDen (k : Fin 3) (i : ℕ) : Fr :=
  (permCols k |>.map fun j => cellAt V K advice inst j i + beta * (K.perm j).eval (V.omega ^ i) + gamma).prod
/-- Numerator of a permutation product in a row. -/
noncomputable def permNum (k : Fin 3) (i : ℕ) : Fr :=
  (permCols k |>.map fun j => cellAt V K advice inst j i + beta * (delta ^ (j : ℕ) * V.omega ^ i) + gamma).prod

/-- First value of a permutation product. -/
noncomputable def permStart : ℕ → Fr
  | 0 => 1
  | k + 1 => runProd (permStart k) (permDen V K inst advice beta gamma (Fin.ofNat 3 k))
      (permNum V K inst advice beta gamma (Fin.ofNat 3 k)) V.usable

/-- Products of the permutation argument. -/
noncomputable def honestPerm (b : Blinding) (k : Fin 3) : Fr[X] :=
  productPoly V (permStart V K inst advice beta gamma k) (permDen V K inst advice beta gamma k)
    (permNum V K inst advice beta gamma k) (b.permProduct k)

/-- Products of the lookup argument. -/
noncomputable def honestLookup (b : Blinding) (li lt : Fin 5 → Fr[X]) (l : Fin 5) : Fr[X] :=
  productPoly V 1 (fun i => (prodRow V (li l) i + beta) * (prodRow V (lt l) i + gamma))
    (fun i => (inputRow V K advice theta l i + beta) * (tableRow V K advice theta i + gamma)) (b.lookupProduct l)

variable {V K inst advice}

theorem split_cols (F : Fin 9 → ℕ → Fr) : ∏ k : Fin V.usable × Fin 9, F k.2 k.1 =
    (∏ i ∈ Finset.range V.usable, ((permCols 0).map fun j => F j i).prod) *
    (∏ i ∈ Finset.range V.usable, ((permCols 1).map fun j => F j i).prod) *
    (∏ i ∈ Finset.range V.usable, ((permCols 2).map fun j => F j i).prod) := by
  rw [← Finset.prod_mul_distrib, ← Finset.prod_mul_distrib, Fintype.prod_prod_type,
    Finset.prod_range (fun i => ((permCols 0).map fun j => F j i).prod * ((permCols 1).map fun j => F j i).prod *
      ((permCols 2).map fun j => F j i).prod)]
  refine Finset.prod_congr rfl fun i _ => ?_
  rw [Fin.prod_univ_def, show List.finRange 9 = [0, 1, 2, 3, 4, 5, 6, 7, 8] from rfl,
    show permCols 0 = [0, 1, 2, 3] from rfl, show permCols 1 = [4, 5, 6, 7] from rfl, show permCols 2 = [8] from rfl]
  simp only [List.map_cons, List.map_nil, List.prod_cons, List.prod_nil, mul_one]
  ring

/-- Copy constraints make the two products equal. -/
theorem copy_prod (hp : K.Permutes V) (hs : Satisfied V K advice inst) :
    ∏ k : Fin V.usable × Fin 9,
      (cellAt V K advice inst k.2 k.1 + beta * (K.perm k.2).eval (V.omega ^ (k.1 : ℕ)) + gamma) =
    ∏ k : Fin V.usable × Fin 9,
      (cellAt V K advice inst k.2 k.1 + beta * (delta ^ (k.2 : ℕ) * V.omega ^ (k.1 : ℕ)) + gamma) := by
  obtain ⟨σ, hσ⟩ := hp
  rw [← Equiv.prod_comp σ fun k : Fin V.usable × Fin 9 =>
    cellAt V K advice inst k.2 k.1 + beta * (delta ^ (k.2 : ℕ) * V.omega ^ (k.1 : ℕ)) + gamma]
  refine Finset.prod_congr rfl fun k _ => ?_
  rw [hs.copy k.1 k.1.2 (σ k).1 (σ k).1.2 k.2 (σ k).2 (hσ k), hσ k]

/-- The last permutation product ends with 1. -/
theorem perm_end (hp : K.Permutes V) (hs : Satisfied V K advice inst)
    (hne : ∀ k : Fin V.usable × Fin 9,
      cellAt V K advice inst k.2 k.1 + beta * (K.perm k.2).eval (V.omega ^ (k.1 : ℕ)) + gamma ≠ 0) :
    runProd (permStart V K inst advice beta gamma 2) (permDen V K inst advice beta gamma 2)
      (permNum V K inst advice beta gamma 2) V.usable = 1 := by
  have h1 := copy_prod (beta := beta) (gamma := gamma) hp hs
  have h2 : ∏ k : Fin V.usable × Fin 9,
      (cellAt V K advice inst k.2 k.1 + beta * (K.perm k.2).eval (V.omega ^ (k.1 : ℕ)) + gamma) ≠ 0 :=
    Finset.prod_ne_zero_iff.2 fun k _ => hne k
  rw [split_cols (V := V) fun j i => cellAt V K advice inst j i + beta * (K.perm j).eval (V.omega ^ i) + gamma] at h1 h2
  rw [split_cols (V := V) fun j i => cellAt V K advice inst j i + beta * (delta ^ (j : ℕ) * V.omega ^ i) + gamma] at h1
  have e2 : permStart V K inst advice beta gamma 2 = runProd (runProd 1 (permDen V K inst advice beta gamma 0)
      (permNum V K inst advice beta gamma 0) V.usable) (permDen V K inst advice beta gamma 1)
      (permNum V K inst advice beta gamma 1) V.usable := rfl
  rw [e2, runProd_end, runProd_end, runProd_end]
  change (∏ i ∈ Finset.range V.usable, permDen V K inst advice beta gamma 0 i) *
    (∏ i ∈ Finset.range V.usable, permDen V K inst advice beta gamma 1 i) *
    (∏ i ∈ Finset.range V.usable, permDen V K inst advice beta gamma 2 i) =
    (∏ i ∈ Finset.range V.usable, permNum V K inst advice beta gamma 0 i) *
    (∏ i ∈ Finset.range V.usable, permNum V K inst advice beta gamma 1 i) *
    (∏ i ∈ Finset.range V.usable, permNum V K inst advice beta gamma 2 i) at h1
  change (∏ i ∈ Finset.range V.usable, permDen V K inst advice beta gamma 0 i) *
    (∏ i ∈ Finset.range V.usable, permDen V K inst advice beta gamma 1 i) *
    (∏ i ∈ Finset.range V.usable, permDen V K inst advice beta gamma 2 i) ≠ 0 at h2
  generalize (∏ i ∈ Finset.range V.usable, permDen V K inst advice beta gamma 0 i) = a0 at *
  generalize (∏ i ∈ Finset.range V.usable, permDen V K inst advice beta gamma 1 i) = a1 at *
  generalize (∏ i ∈ Finset.range V.usable, permDen V K inst advice beta gamma 2 i) = a2 at *
  generalize (∏ i ∈ Finset.range V.usable, permNum V K inst advice beta gamma 0 i) = b0 at *
  generalize (∏ i ∈ Finset.range V.usable, permNum V K inst advice beta gamma 1 i) = b1 at *
  generalize (∏ i ∈ Finset.range V.usable, permNum V K inst advice beta gamma 2 i) = b2 at *
  have h0 : a0 ≠ 0 := fun h => h2 (by rw [h, zero_mul, zero_mul])
  have h3 : a1 ≠ 0 := fun h => h2 (by rw [h, mul_zero, zero_mul])
  have h4 : a2 ≠ 0 := fun h => h2 (by rw [h, mul_zero])
  rw [one_mul]
  calc b0 * a0⁻¹ * (b1 * a1⁻¹) * (b2 * a2⁻¹) = (b0 * b1 * b2) * (a0 * a1 * a2)⁻¹ := by
        rw [mul_inv, mul_inv]; ring
    _ = 1 := by rw [← h1, mul_inv_cancel₀ h2]

/-- Permuted columns of a lookup. -/
theorem lookup_columns (hV : V.Valid) (hs : Satisfied V K advice inst) (b : Blinding) (l : Fin 5) :
    ∃ li lt : Fr[X], li.natDegree ≤ V.n - 1 ∧ lt.natDegree ≤ V.n - 1 ∧
      (∀ i, V.usable ≤ i → i < V.n → li.eval (V.omega ^ i) = b.lookupInput l i) ∧
      (∀ i, V.usable ≤ i → i < V.n → lt.eval (V.omega ^ i) = b.lookupTable l i) ∧
      (∀ i < V.usable, prodRow V li i = prodRow V lt i ∨ ∃ j, j + 1 = i ∧ prodRow V li i = prodRow V li j) ∧
      ((List.range V.usable).map (prodRow V li)).Perm ((List.range V.usable).map (inputRow V K advice theta l)) ∧
      ((List.range V.usable).map (prodRow V lt)).Perm ((List.range V.usable).map (tableRow V K advice theta)) := by
  have h8 := eight_le V hV
  obtain ⟨Z, hZ, hA, hS⟩ := lookup_sort ((List.range V.usable).map (inputRow V K advice theta l))
    ((List.range V.usable).map (tableRow V K advice theta)) (by rw [List.length_map, List.length_map]) (by
      intro a ha
      obtain ⟨i, hi, rfl⟩ := List.mem_map.1 ha
      obtain ⟨i', hi', h⟩ := hs.lookup l i (List.mem_range.1 hi)
      refine List.mem_map.2 ⟨i', List.mem_range.2 hi', ?_⟩
      unfold inputRow tableRow
      rw [h])
  have hlen : Z.length = V.usable := by
    have := hA.length_eq
    rw [List.length_map, List.length_map, List.length_range] at this
    exact this
  have hrow : ∀ i < V.usable, ∀ f bl : ℕ → Fr,
      prodRow V (interp V fun i => if i < V.usable then f i else bl i) i = f i := by
    intro i hi f bl
    rw [prodRow, interp_row V hV _ (by rw [Key.usable] at hi; omega), if_pos hi]
  have hblind : ∀ i, V.usable ≤ i → i < V.n → ∀ f bl : ℕ → Fr,
      (interp V fun i => if i < V.usable then f i else bl i).eval (V.omega ^ i) = bl i := by
    intro i hi hn f bl
    rw [interp_row V hV _ hn, if_neg (by omega)]
  have hlist : ∀ (g : Fr × Fr → Fr) (bl : ℕ → Fr),
      (List.range V.usable).map (prodRow V (interp V fun i => if i < V.usable then g (Z.getD i (0, 0)) else bl i)) =
        Z.map g := by
    intro g bl
    refine List.ext_getElem (by rw [List.length_map, List.length_map, List.length_range, hlen]) fun i h1 h2 => ?_
    rw [List.length_map] at h2
    rw [List.getElem_map, List.getElem_map, List.getElem_range,
      hrow i (hlen ▸ h2) (fun i => g (Z.getD i (0, 0))) bl, List.getD_eq_getElem _ _ h2]
  refine ⟨interp V fun i => if i < V.usable then (Z.getD i (0, 0)).1 else b.lookupInput l i,
    interp V fun i => if i < V.usable then (Z.getD i (0, 0)).2 else b.lookupTable l i,
    interp_natDegree V hV _, interp_natDegree V hV _, fun i hi hn => hblind i hi hn _ _,
    fun i hi hn => hblind i hi hn _ _, ?_, ?_, ?_⟩
  · intro i hi
    rw [hrow i hi, hrow i hi, List.getD_eq_getElem _ _ (hlen.symm ▸ hi)]
    rcases hZ i (hlen.symm ▸ hi) with h | ⟨j, hj, h⟩
    · exact Or.inl h
    · refine Or.inr ⟨j, hj, ?_⟩
      rw [hrow j (by omega), List.getD_eq_getElem _ _ (by omega)]
      exact h
  · rw [hlist Prod.fst]
    exact hA
  · rw [hlist Prod.snd]
    exact hS

/-- Values of `beta` for which the honest prover divides by zero. -/
noncomputable def zeroBeta (V : Key) (K : KeyPolys) (advice : Fin 5 → Fr[X]) (theta : Fr) : Finset Fr :=
  Finset.univ.image fun c : Fin V.usable × Fin 5 => - inputRow V K advice theta c.2 c.1

open Classical in
/-- Values of `gamma` for which the honest prover divides by zero. -/
noncomputable def zeroGamma (V : Key) (K : KeyPolys) (inst : List Fr) (advice : Fin 5 → Fr[X]) (theta beta : Fr) :
    Finset Fr :=
  (Finset.univ.image fun c : Fin V.usable × Fin 9 =>
    - (cellAt V K advice inst c.2 c.1 + beta * (K.perm c.2).eval (V.omega ^ (c.1 : ℕ)))) ∪
  Finset.univ.image fun i : Fin V.usable => - tableRow V K advice theta i

theorem zeroBeta_card (V : Key) (K : KeyPolys) (advice : Fin 5 → Fr[X]) (theta : Fr) :
    (zeroBeta V K advice theta).card ≤ 5 * V.usable := by
  refine (card_image_univ_le _).trans ?_
  rw [Fintype.card_prod, Fintype.card_fin, Fintype.card_fin, Nat.mul_comm]

theorem zeroGamma_card (V : Key) (K : KeyPolys) (inst : List Fr) (advice : Fin 5 → Fr[X]) (theta beta : Fr) :
    (zeroGamma V K inst advice theta beta).card ≤ 10 * V.usable := by
  unfold zeroGamma
  refine (Finset.card_union_le _ _).trans ?_
  have h1 := card_image_univ_le fun c : Fin V.usable × Fin 9 =>
    - (cellAt V K advice inst c.2 c.1 + beta * (K.perm c.2).eval (V.omega ^ (c.1 : ℕ)))
  have h2 := card_image_univ_le fun i : Fin V.usable => - tableRow V K advice theta i
  rw [Fintype.card_prod, Fintype.card_fin, Fintype.card_fin] at h1
  rw [Fintype.card_fin] at h2
  calc _ ≤ V.usable * 9 + V.usable := add_le_add h1 h2
    _ = 10 * V.usable := by ring

/-- The products of the honest prover pass. -/
theorem good_products (hV : V.Valid) (hp : K.Permutes V) {P : Polys} (hs : Satisfied V K P.advice inst) (b : Blinding)
    (hsort : ∀ l, ∀ i < V.usable, prodRow V (P.lookupInput l) i = prodRow V (P.lookupTable l) i ∨
      ∃ j, j + 1 = i ∧ prodRow V (P.lookupInput l) i = prodRow V (P.lookupInput l) j)
    (hin : ∀ l, ((List.range V.usable).map (prodRow V (P.lookupInput l))).Perm
      ((List.range V.usable).map (inputRow V K P.advice theta l)))
    (hta : ∀ l, ((List.range V.usable).map (prodRow V (P.lookupTable l))).Perm
      ((List.range V.usable).map (tableRow V K P.advice theta)))
    (hpp : P.permProduct = honestPerm V K inst P.advice beta gamma b)
    (hlp : P.lookupProduct = honestLookup V K P.advice theta beta gamma b P.lookupInput P.lookupTable)
    (hb : beta ∉ zeroBeta V K P.advice theta) (hg : gamma ∉ zeroGamma V K inst P.advice theta beta) :
    GoodProducts V K inst P theta beta gamma := by
  classical
  have h8 := eight_le V hV
  have hg1 : ∀ k : Fin V.usable × Fin 9,
      cellAt V K P.advice inst k.2 k.1 + beta * (K.perm k.2).eval (V.omega ^ (k.1 : ℕ)) + gamma ≠ 0 := by
    intro k h
    refine hg (Finset.mem_union_left _ (Finset.mem_image.2 ⟨k, Finset.mem_univ _, ?_⟩))
    exact (eq_neg_of_add_eq_zero_right h).symm
  have hg2 : ∀ i < V.usable, tableRow V K P.advice theta i + gamma ≠ 0 := by
    intro i hi h
    refine hg (Finset.mem_union_right _ (Finset.mem_image.2 ⟨⟨i, hi⟩, Finset.mem_univ _, ?_⟩))
    exact (eq_neg_of_add_eq_zero_right h).symm
  have hb1 : ∀ l, ∀ i < V.usable, inputRow V K P.advice theta l i + beta ≠ 0 := by
    intro l i hi h
    refine hb (Finset.mem_image.2 ⟨(⟨i, hi⟩, l), Finset.mem_univ _, ?_⟩)
    exact (eq_neg_of_add_eq_zero_right h).symm
  have hden : ∀ k, ∀ i < V.usable, permDen V K inst P.advice beta gamma k i ≠ 0 := by
    intro k i hi h
    obtain ⟨j, -, hj⟩ := List.mem_map.1 (List.prod_eq_zero_iff.1 h)
    exact hg1 (⟨i, hi⟩, j) hj
  have hli : ∀ l, ∀ i < V.usable, prodRow V (P.lookupInput l) i + beta ≠ 0 := by
    intro l i hi
    obtain ⟨j, hj, h⟩ := List.mem_map.1 ((hin l).subset (List.mem_map.2 ⟨i, List.mem_range.2 hi, rfl⟩))
    rw [← h]
    exact hb1 l j (List.mem_range.1 hj)
  have hlt : ∀ l, ∀ i < V.usable, prodRow V (P.lookupTable l) i + gamma ≠ 0 := by
    intro l i hi
    obtain ⟨j, hj, h⟩ := List.mem_map.1 ((hta l).subset (List.mem_map.2 ⟨i, List.mem_range.2 hi, rfl⟩))
    rw [← h]
    exact hg2 j (List.mem_range.1 hj)
  have hrow : ∀ k, ∀ i ≤ V.usable, prodRow V (P.permProduct k) i = runProd (permStart V K inst P.advice beta gamma k)
      (permDen V K inst P.advice beta gamma k) (permNum V K inst P.advice beta gamma k) i := by
    intro k i hi
    rw [hpp]
    exact productPoly_row V hV _ _ _ _ hi
  have hlrow : ∀ l, ∀ i ≤ V.usable, prodRow V (P.lookupProduct l) i = runProd 1
      (fun i => (prodRow V (P.lookupInput l) i + beta) * (prodRow V (P.lookupTable l) i + gamma))
      (fun i => (inputRow V K P.advice theta l i + beta) * (tableRow V K P.advice theta i + gamma)) i := by
    intro l i hi
    rw [hlp]
    exact productPoly_row V hV _ _ _ _ hi
  have hperm : ∀ (f g : ℕ → Fr) (t : Fr), ((List.range V.usable).map f).Perm ((List.range V.usable).map g) →
      ∏ i ∈ Finset.range V.usable, (f i + t) = ∏ i ∈ Finset.range V.usable, (g i + t) := by
    intro f g t h
    have h1 := (h.map fun a => a + t).prod_eq
    rw [List.map_map, List.map_map] at h1
    exact h1
  refine ⟨?_, ?_, ?_, ?_, ?_, ?_, ?_, ?_, hsort⟩
  · rw [hrow _ _ (Nat.zero_le _), runProd_zero]
    rfl
  · rw [hrow _ _ le_rfl]
    exact perm_end beta gamma hp hs hg1
  · rw [hrow _ _ (Nat.zero_le _), hrow _ _ le_rfl, runProd_zero]
    rfl
  · rw [hrow _ _ (Nat.zero_le _), hrow _ _ le_rfl, runProd_zero]
    rfl
  · intro k i hi
    rw [hrow _ _ hi, hrow _ _ hi.le]
    exact runProd_step _ _ _ (hden k i hi)
  · intro l
    rw [hlrow _ _ (Nat.zero_le _), runProd_zero]
  · intro l
    rw [hlrow _ _ le_rfl, runProd_end, one_mul, Finset.prod_mul_distrib, Finset.prod_mul_distrib,
      hperm _ _ beta (hin l), hperm _ _ gamma (hta l)]
    refine mul_inv_cancel₀ (mul_ne_zero ?_ ?_)
    · exact Finset.prod_ne_zero_iff.2 fun i hi => hb1 l i (Finset.mem_range.1 hi)
    · exact Finset.prod_ne_zero_iff.2 fun i hi => hg2 i (Finset.mem_range.1 hi)
  · intro l i hi
    rw [hlrow _ _ hi, hlrow _ _ hi.le]
    exact runProd_step _ _ _ (mul_ne_zero (hli l i hi) (hlt l i hi))

end honest

/-- The honest prover. -/
theorem honest_prover {V : Key} (hV : V.Valid) {K : KeyPolys} (hK : K.Bound (V.n - 1)) (hp : K.Permutes V)
    {inst : List Fr} (hi : inst.length ≤ V.n) {advice : Fin 5 → Fr[X]} (ha : ∀ i, (advice i).natDegree ≤ V.n - 1)
    (hs : Satisfied V K advice inst) (b : Blinding) (hr : b.random.natDegree ≤ V.n - 1) :
    ∃ A : Prover, A.advice = advice ∧ A.Blinded V b ∧
      (∀ C, (A.polys C).Bound (V.n - 1) ∧ (A.opening C).natDegree ≤ V.n - 1 ∧ (A.w' C).natDegree ≤ V.n - 1) ∧
      ∀ C : Challenges, C.Good V → C.beta ∉ zeroBeta V K advice C.theta →
        C.gamma ∉ zeroGamma V K inst advice C.theta C.beta → A.claim V K inst C = 0 := by
  classical
  have h8 := eight_le V hV
  choose li lt hli hlt bli blt hsort hin hta using fun theta l => lookup_columns theta hV hs b l
  let P0 : Fr → Fr → Fr → Polys := fun theta beta gamma => ⟨advice, li theta, lt theta,
    honestPerm V K inst advice beta gamma b, honestLookup V K advice theta beta gamma b (li theta) (lt theta),
    b.random, 0⟩
  have hP0 : ∀ theta beta gamma, (P0 theta beta gamma).Bound (V.n - 1) := fun theta beta gamma =>
    ⟨ha, hli theta, hlt theta, fun _ => interp_natDegree V hV _, fun _ => interp_natDegree V hV _, hr,
      fun _ => by change (0 : Fr[X]).natDegree ≤ _; rw [natDegree_zero]; exact Nat.zero_le _⟩
  have hrows : ∀ theta beta gamma, beta ∉ zeroBeta V K advice theta → gamma ∉ zeroGamma V K inst advice theta beta →
      ∀ i < V.n, ∀ c ∈ rowConstraints V K inst (P0 theta beta gamma) theta beta gamma (V.omega ^ i), c = 0 :=
    fun theta beta gamma hb hg => rows_complete hV hi hs
      (good_products theta beta gamma (P := P0 theta beta gamma) hV hp hs b (hsort theta) (hin theta) (hta theta) rfl rfl hb hg)
  have hquot : ∀ theta beta gamma y, ∃ quot : Fin 5 → Fr[X], (∀ i, (quot i).natDegree ≤ V.n - 1) ∧
      (beta ∉ zeroBeta V K advice theta → gamma ∉ zeroGamma V K inst advice theta beta → ∀ x,
        combine y (rowConstraints V K inst (P0 theta beta gamma) theta beta gamma x) =
          (x ^ V.n - 1) * ∑ i : Fin 5, (x ^ V.n) ^ (i : ℕ) * (quot i).eval x) := by
    intro theta beta gamma y
    by_cases h : beta ∉ zeroBeta V K advice theta ∧ gamma ∉ zeroGamma V K inst advice theta beta
    · obtain ⟨quot, h1, h2⟩ := quotient_exists hV hK hi (hP0 theta beta gamma) (hrows theta beta gamma h.1 h.2) y
      exact ⟨quot, h1, fun _ _ => h2⟩
    · exact ⟨0, fun _ => by rw [Pi.zero_apply, natDegree_zero]; exact Nat.zero_le _, fun h1 h2 => absurd ⟨h1, h2⟩ h⟩
  choose quot hq1 hq2 using hquot
  let P1 : Fr → Fr → Fr → Fr → Polys := fun theta beta gamma y =>
    { P0 theta beta gamma with quotient := quot theta beta gamma y }
  have hP1 : ∀ theta beta gamma y, (P1 theta beta gamma y).Bound (V.n - 1) := fun theta beta gamma y =>
    ⟨ha, hli theta, hlt theta, fun _ => interp_natDegree V hV _, fun _ => interp_natDegree V hV _, hr,
      hq1 theta beta gamma y⟩
  have hopen : ∀ theta beta gamma y x zeta nu, ∃ w : Fr[X], w.natDegree ≤ V.n - 1 ∧ ∀ mu, ∃ w' : Fr[X],
      w'.natDegree ≤ V.n - 1 ∧ (beta ∉ zeroBeta V K advice theta → gamma ∉ zeroGamma V K inst advice theta beta →
        (⟨theta, beta, gamma, y, x, zeta, nu, mu⟩ : Challenges).Good V →
        openPoly V K ⟨theta, beta, gamma, y, x, zeta, nu, mu⟩ inst (P1 theta beta gamma y)
          (evalsAt V K (P1 theta beta gamma y) x) w w' = 0) := by
    intro theta beta gamma y x zeta nu
    by_cases h : beta ∉ zeroBeta V K advice theta ∧ gamma ∉ zeroGamma V K inst advice theta beta ∧ x ≠ 0 ∧ x ^ V.n ≠ 1
    · obtain ⟨w, hw, hw'⟩ := opening_exists hV (D := V.n - 1) (by omega) hK (inst := inst) (hP1 theta beta gamma y)
        theta beta gamma y x h.2.2.1 (e := evalsAt V K (P1 theta beta gamma y) x)
        (evals_opened hV hi (Ch := ⟨theta, beta, gamma, y, x, 0, 0, 0⟩) h.2.2.2 (hq2 theta beta gamma y h.1 h.2.1 x))
        zeta nu
      refine ⟨w, hw, fun mu => ?_⟩
      by_cases hmu : mu ∈ allPoints V x
      · refine ⟨0, by rw [natDegree_zero]; exact Nat.zero_le _, fun _ _ hG => absurd hmu ?_⟩
        have h1 : mu ≠ x ∧ mu ≠ x * V.omega ∧ mu ≠ x * V.omega⁻¹ ∧ mu ≠ x * V.omega⁻¹ ^ 6 := hG.mu
        rw [mem_allPoints]
        rintro (h | h | h | h)
        all_goals first | exact h1.1 h | exact h1.2.1 h | exact h1.2.2.1 h | exact h1.2.2.2 h
      · obtain ⟨w', h1, h2⟩ := hw' mu hmu
        exact ⟨w', h1, fun _ _ _ => h2⟩
    · refine ⟨0, by rw [natDegree_zero]; exact Nat.zero_le _, fun mu => ⟨0, by rw [natDegree_zero]; exact Nat.zero_le _,
        fun h1 h2 hG => absurd ⟨h1, h2, hG.x_ne, hG.x_row⟩ h⟩⟩
  choose w hw hw' using hopen
  choose w' hw'd hw'e using hw'
  refine ⟨⟨advice, li, lt, fun _ beta gamma => honestPerm V K inst advice beta gamma b,
    fun theta beta gamma => honestLookup V K advice theta beta gamma b (li theta) (lt theta), fun _ _ _ => b.random,
    quot, fun theta beta gamma y x => evalsAt V K (P1 theta beta gamma y) x, w,
    fun C => w' C.theta C.beta C.gamma C.y C.x C.zeta C.nu C.mu⟩, rfl, ?_, ?_, ?_⟩
  · exact ⟨bli, blt, fun _ _ _ k i h h' => productPoly_blind V hV _ _ _ _ h h',
      fun _ _ _ l i h h' => productPoly_blind V hV _ _ _ _ h h', fun _ _ _ => rfl⟩
  · intro C
    exact ⟨hP1 C.theta C.beta C.gamma C.y, hw .., hw'd ..⟩
  · intro C hG hb hg
    exact hw'e C.theta C.beta C.gamma C.y C.x C.zeta C.nu C.mu hb hg hG

end Verif.Spec.Halo2
