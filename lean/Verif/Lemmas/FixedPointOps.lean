import Verif.Lemmas.FixedPoint

namespace Verif.FixedPoint
open Verif Spec MainGate GrumpkinChip

theorem intSelect_bit (b : Bool) (x y z : Fq) :
    IntegerChip.select x y (bitCell b) z ↔ z = if b then x else y := by
  unfold IntegerChip.select
  cases b <;> simp [bitCell]

theorem addIncomplete1_iff_eqs {a b c : Pt1} : addIncomplete1 a b c ↔
    ∃ l, l * (a.1 - b.1) = a.2 - b.2 ∧ c.1 = l ^ 2 - a.1 - b.1 ∧ c.2 = l * (a.1 - c.1) - a.2 := by
  unfold addIncomplete1 IntegerChip.sub IntegerChip.divIncomplete IntegerChip.square
    IntegerChip.subSub IntegerChip.mul
  constructor
  · rintro ⟨_, _, l, _, _, _, rfl, rfl, h, rfl, h1, rfl, rfl, h2⟩
    exact ⟨l, by linear_combination -h, by rw [h1]; ring, by rw [h2]; ring⟩
  · rintro ⟨l, h, h1, h2⟩
    exact ⟨_, _, l, _, _, _, rfl, rfl, by linear_combination -h, rfl, by rw [h1]; ring, rfl, rfl,
      by rw [h2]; ring⟩

theorem addIncomplete1_iff {a b c : Pt1} {A B : G1} (hA : Holds a A) (hB : Holds b B)
    (hx : a.1 ≠ b.1) : addIncomplete1 a b c ↔ Holds c (A + B) := by
  rw [addIncomplete1_iff_eqs]
  constructor
  · rintro ⟨l, h2, h1, h3⟩
    exact chord_holds hA hB hx h2 h1 h3
  · intro hc
    have hd : a.1 - b.1 ≠ 0 := sub_ne_zero.2 hx
    obtain ⟨l, hl⟩ : ∃ l : Fq, l * (a.1 - b.1) = a.2 - b.2 := ⟨_, div_mul_cancel₀ _ hd⟩
    have h' : Holds (l ^ 2 - a.1 - b.1, l * (a.1 - (l ^ 2 - a.1 - b.1)) - a.2) (A + B) :=
      chord_holds hA hB hx hl rfl rfl
    have e := hc.2.symm.trans h'.2
    exact ⟨l, hl, by rw [e], by rw [e]⟩

theorem ops1_spec : OpsSpec ops1 (fun (p : Pt1) (P : G1) => Holds p P) where
  nz h := h.1
  func h h' := h.2.symm.trans h'.2
  ex h := ⟨_, holds_coords h⟩
  assign := by
    rintro p P ⟨h0, h1, h2⟩
    exact ⟨h0, (Prod.ext h1 h2).symm⟩
  add := by
    intro a b c A B hA hB
    have hx : a.1 ≠ b.1 ↔ A ≠ B ∧ A ≠ -B := by rw [Ne, holds_x_iff hA hB, not_or]
    show (a.1 ≠ b.1 ∧ addIncomplete1 a b c) ↔ _
    rw [← and_assoc, ← hx]
    exact and_congr_right fun h => addIncomplete1_iff hA hB h
  addInc := by
    intro a b c A B hA hB h1 h2
    apply addIncomplete1_iff hA hB
    rw [Ne, holds_x_iff hA hB, not_or]; exact ⟨h1, h2⟩
  select := by
    intro b p1 p2 c
    show select1 (bitCell b) p1 p2 c ↔ _
    unfold select1
    rw [intSelect_bit, intSelect_bit, Prod.ext_iff]
    cases b <;> simp

/-- Coordinates in the extension field held by a point of cells. -/
def fe2 (p : Pt2) : Fq2 × Fq2 := (Integer2Chip.fe p.1, Integer2Chip.fe p.2)

theorem fe2_inj {p p' : Pt2} : fe2 p = fe2 p' ↔ p = p' := by
  unfold fe2
  rw [Prod.ext_iff, Prod.ext_iff, Integer2Chip.fe_inj, Integer2Chip.fe_inj]

theorem fe2_split (x : Fq2 × Fq2) : fe2 (splitBase x.1, splitBase x.2) = x := rfl

theorem exists_fe (x : Fq2) : ∃ a : Integer2Chip.I2, Integer2Chip.fe a = x := ⟨(x.re, x.im), rfl⟩

theorem addIncomplete2_iff_eqs {a b c : Pt2} : addIncomplete2 a b c ↔
    (fe2 a).1 ≠ (fe2 b).1 ∧ ∃ l, l * ((fe2 a).1 - (fe2 b).1) = (fe2 a).2 - (fe2 b).2 ∧
      (fe2 c).1 = l ^ 2 - (fe2 a).1 - (fe2 b).1 ∧
      (fe2 c).2 = l * ((fe2 a).1 - (fe2 c).1) - (fe2 a).2 := by
  unfold addIncomplete2 fe2
  simp only [Integer2Chip.sub_iff, Integer2Chip.divIncomplete_iff, Integer2Chip.square_iff,
    Integer2Chip.subSub_iff, Integer2Chip.mul_iff]
  constructor
  · rintro ⟨num, den, l, l2, t, t', h1, h2, ⟨h30, h3⟩, h4, h5, h6, h7, h8⟩
    have hne : Integer2Chip.fe a.1 ≠ Integer2Chip.fe b.1 := by
      intro e; apply h30; rw [h2, e, sub_self]
    refine ⟨hne, Integer2Chip.fe l, ?_, ?_, ?_⟩
    · rw [eq_div_iff h30, h1, h2] at h3
      linear_combination -h3
    · rw [h5, h4]
    · rw [h8, h7, h6]; ring
  · rintro ⟨hne, l, h1, h2, h3⟩
    obtain ⟨l', rfl⟩ := exists_fe l
    obtain ⟨num, hnum⟩ := exists_fe (Integer2Chip.fe b.2 - Integer2Chip.fe a.2)
    obtain ⟨den, hden⟩ := exists_fe (Integer2Chip.fe b.1 - Integer2Chip.fe a.1)
    obtain ⟨l2, hl2⟩ := exists_fe (Integer2Chip.fe l' ^ 2)
    obtain ⟨t, ht⟩ := exists_fe (Integer2Chip.fe a.1 - Integer2Chip.fe c.1)
    obtain ⟨t', ht'⟩ := exists_fe (Integer2Chip.fe t * Integer2Chip.fe l')
    have hd : Integer2Chip.fe den ≠ 0 := by
      rw [hden]; exact sub_ne_zero.2 (Ne.symm hne)
    refine ⟨num, den, l', l2, t, t', hnum, hden, ⟨hd, ?_⟩, hl2, ?_, ht, ht', ?_⟩
    · rw [eq_div_iff hd, hnum, hden]; linear_combination -h1
    · rw [hl2]; exact h2
    · rw [ht', ht, h3]; ring

theorem addIncomplete2_iff {a b c : Pt2} {A B : G2} (hA : Holds (fe2 a) A) (hB : Holds (fe2 b) B) :
    addIncomplete2 a b c ↔ (fe2 a).1 ≠ (fe2 b).1 ∧ Holds (fe2 c) (A + B) := by
  rw [addIncomplete2_iff_eqs]
  apply and_congr_right
  intro hx
  constructor
  · rintro ⟨l, h2, h1, h3⟩
    exact chord_holds hA hB hx h2 h1 h3
  · intro hc
    have hd : (fe2 a).1 - (fe2 b).1 ≠ 0 := sub_ne_zero.2 hx
    obtain ⟨l, hl⟩ : ∃ l : Fq2, l * ((fe2 a).1 - (fe2 b).1) = (fe2 a).2 - (fe2 b).2 :=
      ⟨_, div_mul_cancel₀ _ hd⟩
    have h' := chord_holds hA hB hx hl (c := (l ^ 2 - (fe2 a).1 - (fe2 b).1,
      l * ((fe2 a).1 - (l ^ 2 - (fe2 a).1 - (fe2 b).1)) - (fe2 a).2)) rfl rfl
    have e := hc.2.symm.trans h'.2
    exact ⟨l, hl, by rw [e], by rw [e]⟩

theorem ops2_spec : OpsSpec ops2 (fun (p : Pt2) (P : G2) => Holds (fe2 p) P) where
  nz h := h.1
  func h h' := fe2_inj.1 (h.2.symm.trans h'.2)
  ex {P} h := ⟨(splitBase (coords P).1, splitBase (coords P).2), h, rfl⟩
  assign := by
    rintro p P ⟨_, h0, h1, h2⟩
    refine ⟨h0, ?_⟩
    have e : p = (splitBase (coords P).1, splitBase (coords P).2) :=
      Prod.ext (Prod.ext h1.1 h1.2) (Prod.ext h2.1 h2.2)
    rw [e, fe2_split]
  add := by
    intro a b c A B hA hB
    have hx : (fe2 a).1 ≠ (fe2 b).1 ↔ A ≠ B ∧ A ≠ -B := by rw [Ne, holds_x_iff hA hB, not_or]
    show (Integer2Chip.assertNotEqual a.1 b.1 ∧ addIncomplete2 a b c) ↔ _
    rw [← and_assoc, ← hx, Integer2Chip.assertNotEqual_iff, addIncomplete2_iff hA hB]
    exact ⟨fun h => h.2, fun h => ⟨h.1, h⟩⟩
  addInc := by
    intro a b c A B hA hB h1 h2
    show addIncomplete2 a b c ↔ _
    rw [addIncomplete2_iff hA hB]
    have hx : (fe2 a).1 ≠ (fe2 b).1 := by
      rw [Ne, holds_x_iff hA hB, not_or]; exact ⟨h1, h2⟩
    exact ⟨fun h => h.2, fun h => ⟨hx, h⟩⟩
  select := by
    intro b p1 p2 c
    show select2 (bitCell b) p1 p2 c ↔ _
    unfold select2
    have hb : bitCell b = 0 ∨ bitCell b = 1 := by cases b <;> simp [bitCell]
    rw [Integer2Chip.select_iff hb, Integer2Chip.select_iff hb]
    cases b
    · simp only [bitCell, Bool.false_eq_true, if_false, zero_ne_one, false_and, true_and, false_or]
      exact Prod.ext_iff.symm
    · simp only [bitCell, if_true, one_ne_zero, false_and, true_and, or_false]
      exact Prod.ext_iff.symm

/-! ### Digits -/

theorem binary_drop (bs : List Bool) (m : ℕ) (h : m ≤ bs.length) :
    binary (bs.drop m) = binary bs / 2 ^ m ∧ binary (bs.take m) = binary bs % 2 ^ m := by
  have e : binary bs = binary (bs.take m) + 2 ^ m * binary (bs.drop m) := by
    conv_lhs => rw [← List.take_append_drop m bs]
    rw [binary_append, List.length_take, Nat.min_eq_left h]
  have hlt : binary (bs.take m) < 2 ^ m := by
    have := binary_lt (bs.take m)
    rwa [List.length_take, Nat.min_eq_left h] at this
  rw [e]
  constructor
  · rw [Nat.add_mul_div_left _ _ (by positivity), Nat.div_eq_of_lt hlt, zero_add]
  · rw [Nat.add_mul_mod_self_left, Nat.mod_eq_of_lt hlt]

theorem binary_win (bs : List Bool) (w i : ℕ) (h : i * w ≤ bs.length) :
    binary (win bs w i) = digit w (binary bs) i := by
  unfold win digit
  have h1 := (binary_drop bs (i * w) h).1
  rw [Nat.mul_comm w i, ← h1]
  generalize bs.drop (i * w) = l
  by_cases hl : w ≤ l.length
  · exact (binary_drop l w hl).2
  · rw [List.take_of_length_le (by omega), Nat.mod_eq_of_lt]
    exact lt_of_lt_of_le (binary_lt l) (Nat.pow_le_pow_right (by norm_num) (by omega))

theorem S_eq_sum (bs : List Bool) (w : ℕ) : ∀ i, (∀ j < i, j * w ≤ bs.length) →
    S bs w i = ∑ j ∈ Finset.range i, (digit w (binary bs) j + 2) * 2 ^ (w * j)
  | 0, _ => by simp [S]
  | i + 1, h => by
    rw [S, Finset.sum_range_succ, S_eq_sum bs w i (fun j hj => h j (by omega)),
      binary_win bs w i (h i (by omega))]

theorem C2_eq_sum (w : ℕ) : ∀ i, C2 w i = ∑ j ∈ Finset.range i, 2 * 2 ^ (w * j)
  | 0 => by simp [C2]
  | i + 1 => by rw [C2, Finset.sum_range_succ, C2_eq_sum w i]

section
variable {G : Type} [AddCommGroup G] {Pt : Type} [Inhabited Pt]
  {O : Ops G Pt} {Hd : Pt → G → Prop}

omit [Inhabited Pt] in
/-- The last two additions are between points of different abscissa. -/
theorem auxFits_iff {w : ℕ} (hw : validWindow w) (P aux : G) {m : ℕ} (hm : numberOfWindows w = m + 2) {bs : List Bool}
    (hl : bs.length = 254) :
      ((S bs w m • P ≠ entry w P aux m (binary (win bs w m)) ∧
        S bs w m • P ≠ -entry w P aux m (binary (win bs w m)) ∧
        S bs w m • P + entry w P aux m (binary (win bs w m)) ≠
          entry w P aux (m + 1) (binary (win bs w (m + 1))) ∧
        S bs w m • P + entry w P aux m (binary (win bs w m)) ≠
          -entry w P aux (m + 1) (binary (win bs w (m + 1)))) ↔
      AuxFits w (binary bs) P aux) := by
  obtain ⟨hn, h2, h3, h4, h5, h6⟩ := window_facts w hw.2 hw.1
  have hmw : (m + 1) * w < 254 := by rw [hm] at h2; simpa using h2
  have hj : ∀ j < m + 2, j * w ≤ bs.length := by
    intro j hj
    have : j * w ≤ (m + 1) * w := Nat.mul_le_mul_right _ (by omega)
    omega
  have hS := S_eq_sum bs w m (fun j h => hj j (by omega))
  have hC := C2_eq_sum w (m + 2)
  have hSn := S_eq bs w (m + 2) (.inr (hj _ (by omega)))
  rw [List.take_of_length_le (by rw [hl, ← hm]; exact h3)] at hSn
  have hSn' : S bs w (m + 2) = S bs w m + (binary (win bs w m) + 2) * 2 ^ (w * m) +
      (binary (win bs w (m + 1)) + 2) * 2 ^ (w * (m + 1)) := rfl
  have hm' : (254 + w - 1) / w = m + 2 := hm
  unfold AuxFits entry
  rw [hm, hm']
  simp only [Nat.add_sub_cancel, show m + 2 - 1 = m + 1 from rfl, if_true,
    show ¬ (m + 1 = m) by omega, if_false]
  rw [← hS, ← hC, ← binary_win bs w m (hj _ (by omega)),
    ← binary_win bs w (m + 1) (hj _ (by omega))]
  generalize (binary (win bs w m) + 2) * 2 ^ (w * m) = M at *
  generalize (binary (win bs w (m + 1)) + 2) * 2 ^ (w * (m + 1)) = N at *
  generalize S bs w m = L at *
  generalize C2 w (m + 2) = C at *
  have hK : L + M + N = binary bs + C := by rw [← hSn', hSn]
  have hKP : binary bs • P = L • P + M • P + N • P - C • P := by
    rw [eq_sub_iff_add_eq, ← add_nsmul, ← add_nsmul, ← add_nsmul, hK]
  rw [hKP]
  refine and_congr ?_ (and_congr ?_ (and_congr ?_ ?_))
  · rw [not_iff_not]
    exact ⟨fun h => by rw [h]; abel, fun h => by rw [h]; abel⟩
  · rw [not_iff_not]
    exact ⟨fun h => by rw [h]; abel, fun h => by rw [h]; abel⟩
  · rw [not_iff_not]
    constructor
    · intro h
      have : aux + aux = (L • P + (M • P + aux)) + aux - L • P - M • P := by abel
      rw [this, h]; abel
    · intro h
      have : L • P + (M • P + aux) = (aux + aux) + L • P + M • P - aux := by abel
      rw [this, h]; abel
  · rw [not_iff_not]
    constructor
    · intro h
      have : L • P + M • P + N • P - C • P = (L • P + (M • P + aux)) + (N • P - (C • P + aux)) := by
        abel
      rw [this, h]; abel
    · intro h
      have : L • P + (M • P + aux) =
          (L • P + M • P + N • P - C • P) - (N • P - (C • P + aux)) := by abel
      rw [this, h]; abel

/-- The exact meaning of the constraints, in terms of integers. -/
theorem mul_exact (hO : OpsSpec O Hd) {w : ℕ} {P aux : G} {t : List (List Pt)}
    (ht : assignTable O w P aux t) (hP : addOrderOf P = r) (s : Fr) (c : Pt) :
    mul O w t s c ↔ ∃ K : ℕ, K < 2 ^ 254 ∧ ((K : ℕ) : Fr) = s ∧ AuxFits w K P aux ∧
      Hd c (K • P) := by
  rw [mul_iff hO ht hP]
  have hw := ht.1
  obtain ⟨hn, h2, h3, h4, h5, h6⟩ := window_facts w hw.2 hw.1
  obtain ⟨m, hm⟩ : ∃ m, numberOfWindows w = m + 2 := ⟨numberOfWindows w - 2, by omega⟩
  have hmw : (m + 1) * w < 254 := by rw [hm] at h2; simpa using h2
  have key := fun (bs : List Bool) (hl : bs.length = 254) => auxFits_iff hw P aux hm hl
  constructor
  · rintro ⟨bs, hl, hv, hc, hH⟩
    refine ⟨binary bs, hl ▸ binary_lt bs, hv, (key bs hl).1 ?_, hH⟩
    simpa only [hm, Nat.add_sub_cancel, show m + 2 - 1 = m + 1 from rfl] using hc
  · rintro ⟨K, hK, hv, ha, hH⟩
    obtain ⟨bs, hl, hb⟩ := exists_binary 254 K hK
    subst hb
    refine ⟨bs, hl, hv, ?_, hH⟩
    simpa only [hm, Nat.add_sub_cancel, show m + 2 - 1 = m + 1 from rfl] using (key bs hl).2 ha

end

end Verif.FixedPoint
