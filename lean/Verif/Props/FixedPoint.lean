import Verif.Lemmas.FixedPointOps
import Verif.Lemmas.Pairing
import Verif.Lemmas.FixedPointTable
import Verif.Lemmas.AuxFits

/-!
C26: windowed fixed-base multiplication in the circuit, on G1 and on G2.  `Spec.Holds p P` says that
the pair `p` holds the affine coordinates of the finite point `P`; `fe2` reads the two pairs of base
field cells of a G2 point as two elements of the extension field.
-/

namespace Verif.Props
open Verif Spec FixedPoint MainGate

/-! ### Soundness -/

/-- G1: whatever the auxiliary point and the witness, the product is the scalar times the base. -/
theorem C26_mul_g1_sound (w : ℕ) (P aux : G1) (t : List (List Pt1)) (hP : P ≠ 0)
    (ht : assignTable ops1 w P aux t) (s : Fr) (c : Pt1) (h : mul ops1 w t s c) :
    Holds c (s • P) := by
  obtain ⟨K, _, hs, _, hc⟩ := (mul_exact ops1_spec ht (order_g1 hP) s c).1 h
  rwa [← hs, Nat.cast_smul_eq_nsmul]

/-- G2: the same for a base of order `r`. -/
theorem C26_mul_g2_sound (w : ℕ) (P aux : G2) (t : List (List Pt2)) (hP : P ≠ 0) (hr : r • P = 0)
    (ht : assignTable ops2 w P aux t) (s : Fr) (c : Pt2) (h : mul ops2 w t s c) :
    Holds (fe2 c) (smul2 s P) := by
  obtain ⟨K, _, hs, _, hc⟩ := (mul_exact ops2_spec ht (order_g2 hr hP) s c).1 h
  rwa [← smul2_cast hr K, hs] at hc

/-! ### Exact description, completeness -/

/-- G1: the constraints have a witness with result `c` exactly when some 254-bit representative of the
scalar does not meet the bad positions of the auxiliary point, and then `c` is the product. -/
theorem C26_mul_g1_exact (w : ℕ) (P aux : G1) (t : List (List Pt1)) (hP : P ≠ 0)
    (ht : assignTable ops1 w P aux t) (s : Fr) (c : Pt1) :
    mul ops1 w t s c ↔ (∃ K < 2 ^ 254, ((K : ℕ) : Fr) = s ∧ AuxFits w K P aux) ∧
      Holds c (s • P) := by
  rw [mul_exact ops1_spec ht (order_g1 hP) s c]
  constructor
  · rintro ⟨K, h1, rfl, h3, h4⟩
    exact ⟨⟨K, h1, rfl, h3⟩, by rwa [Nat.cast_smul_eq_nsmul]⟩
  · rintro ⟨⟨K, h1, rfl, h3⟩, h4⟩
    exact ⟨K, h1, rfl, h3, by rwa [Nat.cast_smul_eq_nsmul] at h4⟩

/-- G2: the same. -/
theorem C26_mul_g2_exact (w : ℕ) (P aux : G2) (t : List (List Pt2)) (hP : P ≠ 0) (hr : r • P = 0)
    (ht : assignTable ops2 w P aux t) (s : Fr) (c : Pt2) :
    mul ops2 w t s c ↔ (∃ K < 2 ^ 254, ((K : ℕ) : Fr) = s ∧ AuxFits w K P aux) ∧
      Holds (fe2 c) (smul2 s P) := by
  rw [mul_exact ops2_spec ht (order_g2 hr hP) s c]
  constructor
  · rintro ⟨K, h1, rfl, h3, h4⟩
    exact ⟨⟨K, h1, rfl, h3⟩, by rwa [smul2_cast hr K]⟩
  · rintro ⟨⟨K, h1, rfl, h3⟩, h4⟩
    exact ⟨K, h1, rfl, h3, by rwa [smul2_cast hr K] at h4⟩

/-- A zero scalar has no witness. -/
theorem C26_mul_zero_unsatisfiable (w : ℕ) (P aux : G1) (t : List (List Pt1)) (hP : P ≠ 0)
    (ht : assignTable ops1 w P aux t) (c : Pt1) : ¬ mul ops1 w t 0 c := by
  intro h
  have := C26_mul_g1_sound w P aux t hP ht 0 c h
  rw [zero_smul Fr P] at this
  exact this.1 rfl

/-- A zero scalar has no witness, on G2. -/
theorem C26_mul_g2_zero_unsatisfiable (w : ℕ) (P aux : G2) (t : List (List Pt2)) (hP : P ≠ 0)
    (hr : r • P = 0) (ht : assignTable ops2 w P aux t) (c : Pt2) : ¬ mul ops2 w t 0 c := by
  intro h
  have := C26_mul_g2_sound w P aux t hP hr ht 0 c h
  apply this.1
  simp [smul2]

/-- For a given nonzero scalar at most three auxiliary points of G1 are unusable. -/
theorem C26_few_bad_aux (w : ℕ) (P : G1) (hP : P ≠ 0) (s : Fr) (hs : s ≠ 0) :
    ∃ bad : Finset G1, bad.card ≤ 3 ∧ ∀ aux, aux ∉ bad → AuxFits w s.val P aux := by
  refine exists_few_bad ?_
  intro e
  rw [← val_smul_G1] at e
  rcases smul_G1_eq_zero e with h | h
  · exact hs h
  · exact hP h

/-! ### The table -/

/-- Contents of the table: row `i`, column `k` holds `(k + 2) 2^(w i) P`, plus the auxiliary point in
the row before the last; the last row has the correction that cancels the auxiliary point and the sum
of all the offsets. -/
theorem C26_table {G : Type} [AddCommGroup G] (w : ℕ) (hw : validWindow w) (P aux : G) :
    (table w P aux).length = (254 + w - 1) / w ∧
    ∀ i < (254 + w - 1) / w,
      let n := (254 + w - 1) / w
      ((table w P aux).getD i []).length = (if i + 1 = n then 2 ^ (254 - w * i) else 2 ^ w) ∧
      ∀ k < ((table w P aux).getD i []).length, ((table w P aux).getD i []).getD k 0 =
        ((k + 2) * 2 ^ (w * i)) • P +
          (if i + 2 = n then aux
           else if i + 1 = n then -((∑ j ∈ Finset.range n, 2 * 2 ^ (w * j)) • P + aux) else 0) := by
  refine ⟨table_length w P aux, fun i hi => ?_⟩
  obtain ⟨hn, h2, h3, h4, h5, h6⟩ := window_facts w hw.2 hw.1
  have hnw : (254 + w - 1) / w = numberOfWindows w := rfl
  rw [hnw] at hi
  simp only [hnw]
  have hlen : rowLen w i = if i + 1 = numberOfWindows w then 2 ^ (254 - w * i) else 2 ^ w := by
    unfold rowLen
    by_cases h : i = numberOfWindows w - 1
    · rw [if_pos h, if_pos (by omega), h4, h, Nat.mul_comm]
    · rw [if_neg h, if_neg (by omega)]
  rw [table_row hw P aux hi]
  refine ⟨by simpa using hlen, fun k hk => ?_⟩
  rw [getD_lt _ _ hk]
  simp only [List.getElem_map, List.getElem_range, entry]
  rw [C2_eq_sum]
  by_cases a : i = numberOfWindows w - 2
  · rw [if_pos a, if_pos (by omega)]
  · by_cases b : i = numberOfWindows w - 1
    · rw [if_neg a, if_pos b, if_neg (by omega), if_pos (by omega), sub_eq_add_neg]
    · rw [if_neg a, if_neg b, if_neg (by omega), if_neg (by omega), add_zero]

/-- One entry of each row of the table, chosen by any digits, adds up to the number with those digits
times the base: the offsets and the auxiliary point cancel. -/
theorem C26_table_sum {G : Type} [AddCommGroup G] (w : ℕ) (hw : validWindow w) (P aux : G) (K : ℕ)
    (hK : K < 2 ^ 254) :
    ∑ i ∈ Finset.range ((254 + w - 1) / w), ((table w P aux).getD i []).getD (digit w K i) 0 = K • P :=
  table_sum hw P aux hK

/-- The assignment of the table succeeds on G1 exactly when the auxiliary point avoids the listed
points (the entries of the last two rows are finite); the other rows are always finite. -/
theorem C26_table_assignable (w : ℕ) (hw : validWindow w) (P aux : G1) (hP : P ≠ 0) :
    (∃ t, assignTable ops1 w P aux t) ↔ TableFits w P aux := by
  rw [assignTable_iff hw (adm := fun P : G1 => P ≠ 0) assignConstant1_iff,
    tableFits_iff hw (order_g1 hP)]

/-- The same on G2, where the auxiliary point has to be in the subgroup of order `r` too. -/
theorem C26_table_assignable_g2 (w : ℕ) (hw : validWindow w) (P aux : G2) (hP : P ≠ 0)
    (hr : r • P = 0) :
    (∃ t, assignTable ops2 w P aux t) ↔ r • aux = 0 ∧ TableFits w P aux := by
  rw [assignTable_iff hw (adm := fun P : G2 => r • P = 0 ∧ P ≠ 0) assignConstant2_iff]
  exact tableFits2_iff hw hP hr

/-! ### Selection and incomplete addition -/

/-- The multi-selection returns the entry of the table whose index has the given bits. -/
theorem C26_select (bs : List Bool) (tab : List Pt1) (c : Pt1) :
    selectMulti ops1 (bs.map bitCell) tab c ↔
      tab.length = 2 ^ bs.length ∧ c = tab.getD (binary bs) default :=
  selectMulti_iff ops1_spec.select bs tab c

/-- The same on G2. -/
theorem C26_select_g2 (bs : List Bool) (tab : List Pt2) (c : Pt2) :
    selectMulti ops2 (bs.map bitCell) tab c ↔
      tab.length = 2 ^ bs.length ∧ c = tab.getD (binary bs) default :=
  selectMulti_iff ops2_spec.select bs tab c

/-- The windows cut the bits into base-`2^w` digits, least significant first. -/
theorem C26_windows (w : ℕ) (hw : 0 < w) (bs : List Bool) (i : ℕ) (hi : i * w < bs.length) :
    binary ((window bs w).getD i []) = digit w (binary bs) i := by
  have hi' : i < (bs.length + w - 1) / w := by
    show i + 1 ≤ _
    rw [Nat.le_div_iff_mul_le hw, Nat.add_mul, Nat.one_mul]
    omega
  rw [window_getD bs hw hi']
  exact binary_win bs w i hi.le

/-- In every row where the unchecked addition is used, the accumulator and the selected entry are
neither equal nor opposite (so they have different abscissas), whatever the scalar. -/
theorem C26_incomplete_rows_safe {G : Type} [AddCommGroup G] (w : ℕ) (hw : validWindow w) (P : G)
    (hP : addOrderOf P = r) (K : ℕ) (hK : K < 2 ^ 254) (i : ℕ) (h1 : 1 ≤ i)
    (hi : i + 2 < (254 + w - 1) / w) :
    let acc := (∑ j ∈ Finset.range i, (digit w K j + 2) * 2 ^ (w * j)) • P
    let entry := ((digit w K i + 2) * 2 ^ (w * i)) • P
    acc ≠ entry ∧ acc ≠ -entry ∧ acc + entry ≠ 0 := by
  have hi' : i < numberOfWindows w - 2 := by
    have : (254 + w - 1) / w = numberOfWindows w := rfl
    omega
  obtain ⟨bs, hl, rfl⟩ := GrumpkinChip.exists_binary 254 K hK
  obtain ⟨hn, h2, h3, h4, h5, h6⟩ := window_facts w hw.2 hw.1
  have hj : ∀ j ≤ i, j * w ≤ bs.length := fun j hj => by
    have : j * w ≤ (numberOfWindows w - 1) * w := Nat.mul_le_mul_right _ (by omega)
    omega
  have h := row_distinct hw hP bs h1 hi'
  rw [S_eq_sum bs w i (fun j h => hj j h.le), binary_win bs w i (hj i le_rfl)] at h
  refine ⟨h.1, h.2.1, fun e => h.2.1 (eq_neg_of_add_eq_zero_left e)⟩

/-! ### The deployed auxiliary point of G2, examples -/

/-- With the window size 3 of the code, the G2 generator and the auxiliary point hardwired in
src/ecc_chip/bn256.rs:4-37, the table can be assigned. -/
theorem C26_deployed_g2_table : ∃ t, assignTable ops2 3 g2 aux2 t :=
  (C26_table_assignable_g2 3 ⟨by decide, by decide⟩ g2 aux2 g2_ne_zero r_nsmul_g2).2
    ⟨r_nsmul_aux2, aux2_tableFits⟩

/-- The hypotheses are met on G1: a table for window size 3 with the auxiliary point `5 g1`, and the
scalar 1234567 has a witness. -/
example : ∃ t, assignTable ops1 3 g1 (5 • g1) t ∧ ∃ c, mul ops1 3 t 1234567 c := by
  obtain ⟨t, ht⟩ := (C26_table_assignable 3 ⟨by decide, by decide⟩ g1 (5 • g1) g1_ne_zero).2
    (tableFitsN_spec addOrderOf_g1 (by decide +kernel))
  refine ⟨t, ht, coords ((1234567 : Fr) • g1), ?_⟩
  rw [C26_mul_g1_exact 3 g1 (5 • g1) t g1_ne_zero ht]
  refine ⟨⟨1234567, by norm_num, by norm_num, fitsN_spec addOrderOf_g1 (by decide +kernel)⟩, ?_, rfl⟩
  intro e
  rcases smul_G1_eq_zero e with h | h
  · exact absurd h (by decide +kernel)
  · exact g1_ne_zero h

/-- The hypotheses are met on G2 with the auxiliary point of the code. -/
example : ∃ t, assignTable ops2 3 g2 aux2 t ∧ ∃ c, mul ops2 3 t 1234567 c := by
  obtain ⟨t, ht⟩ := C26_deployed_g2_table
  have hf : AuxFits 3 1234567 g2 aux2 := fits3N_spec (by decide +kernel)
  have h0 : smul2 1234567 g2 ≠ 0 := by
    have := hf.2.2.2
    rwa [← smul2_cast r_nsmul_g2] at this
  refine ⟨t, ht, (splitBase (coords (smul2 1234567 g2)).1, splitBase (coords (smul2 1234567 g2)).2), ?_⟩
  rw [C26_mul_g2_exact 3 g2 aux2 t g2_ne_zero r_nsmul_g2 ht]
  exact ⟨⟨1234567, by norm_num, by norm_num, hf⟩, h0, (fe2_split _).symm⟩

/-- `C26_mul_g1_sound`, `C26_mul_zero_unsatisfiable`: with the table of the code for the generator, the scalar 7
gives seven times the generator and the scalar 0 gives nothing. -/
example : ∃ t, assignTable ops1 3 g1 (5 • g1) t ∧ (∃ c, mul ops1 3 t 7 c ∧ Holds c ((7 : Fr) • g1)) ∧
    ∀ c, ¬ mul ops1 3 t 0 c := by
  obtain ⟨t, ht⟩ := (C26_table_assignable 3 ⟨by decide, by decide⟩ g1 (5 • g1) g1_ne_zero).2
    (tableFitsN_spec addOrderOf_g1 (by decide +kernel))
  have hm : mul ops1 3 t 7 (coords ((7 : Fr) • g1)) := by
    rw [C26_mul_g1_exact 3 g1 (5 • g1) t g1_ne_zero ht]
    refine ⟨⟨7, by norm_num, by norm_num, fitsN_spec addOrderOf_g1 (by decide +kernel)⟩, ?_, rfl⟩
    intro e
    rcases smul_G1_eq_zero e with h | h
    · exact absurd h (by decide +kernel)
    · exact g1_ne_zero h
  exact ⟨t, ht, ⟨_, hm, C26_mul_g1_sound 3 g1 _ t g1_ne_zero ht 7 _ hm⟩,
    fun c => C26_mul_zero_unsatisfiable 3 g1 _ t g1_ne_zero ht c⟩

/-- `C26_mul_g2_zero_unsatisfiable`, `C26_table_assignable_g2`: the table of the code for the generator of G2. -/
example : ∃ t, assignTable ops2 3 g2 aux2 t ∧ ∀ c, ¬ mul ops2 3 t 0 c := by
  obtain ⟨t, ht⟩ := (C26_table_assignable_g2 3 ⟨by decide, by decide⟩ g2 aux2 g2_ne_zero r_nsmul_g2).2
    ⟨r_nsmul_aux2, aux2_tableFits⟩
  exact ⟨t, ht, fun c => C26_mul_g2_zero_unsatisfiable 3 g2 aux2 t g2_ne_zero r_nsmul_g2 ht c⟩

/-- `C26_table`, `C26_table_sum`, over the integers: window 3 has 85 rows, and the entries selected by the digits
of 1000 sum to 1000 times the point, whatever the auxiliary point. -/
example : (table 3 (1 : ℤ) 77).length = 85 ∧
    ∑ i ∈ Finset.range 85, ((table 3 (1 : ℤ) 77).getD i []).getD (digit 3 1000 i) 0 = 1000 :=
  ⟨(C26_table 3 ⟨by decide, by decide⟩ (1 : ℤ) 77).1,
    (C26_table_sum 3 ⟨by decide, by decide⟩ (1 : ℤ) 77 1000 (by norm_num)).trans (by norm_num)⟩

/-- `C26_windows`: the second window of the bits of 27 is 3. -/
example : binary ((window [true, true, false, true, true] 3).getD 1 []) = 3 ∧ digit 3 27 1 = 3 := by
  rw [C26_windows 3 (by norm_num) _ 1 (by decide)]
  decide

/-- `C26_incomplete_rows_safe`: `g1` has order `r`. -/
example : addOrderOf g1 = r ∧ validWindow 3 ∧ 1 + 2 < (254 + 3 - 1) / 3 :=
  ⟨addOrderOf_g1, ⟨by decide, by decide⟩, by norm_num⟩

end Verif.Props
