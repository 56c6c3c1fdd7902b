import Verif.Model.FixedPoint
import Verif.Lemmas.GrumpkinChip
import Verif.Lemmas.Integer2

namespace Verif.FixedPoint
open Verif Spec MainGate GrumpkinChip

/-! ### Selection -/

section sel
variable {G Pt : Type} [Inhabited Pt] {O : Ops G Pt}

/-- Selection by a bit is exact. -/
def SelectSpec (O : Ops G Pt) : Prop :=
  ∀ (b : Bool) (p1 p2 c : Pt), O.select (bitCell b) p1 p2 c ↔ c = if b then p1 else p2

omit [Inhabited Pt] in
theorem selectLayer_iff (hO : SelectSpec O) (b : Bool) (red red' : ℕ → Pt) :
    ∀ k j, selectLayer O (bitCell b) (List.range' j k)
      (fun i => if i < j then red (2 * i + if b then 1 else 0) else red i) red' ↔
      red' = fun i => if i < j + k then red (2 * i + if b then 1 else 0) else red i := by
  intro k
  induction k with
  | zero => intro j; simp [selectLayer]
  | succ k ih =>
    intro j
    rw [List.range'_succ, selectLayer]
    have h1 : ¬ 2 * j + 1 < j := by omega
    have h2 : ¬ 2 * j < j := by omega
    simp only [h1, h2, if_false, hO b, exists_eq_left]
    have hu : Function.update (fun i => if i < j then red (2 * i + if b then 1 else 0) else red i) j
        (if b then red (2 * j + 1) else red (2 * j)) =
        fun i => if i < j + 1 then red (2 * i + if b then 1 else 0) else red i := by
      funext i
      by_cases hi : i = j
      · subst hi
        rw [Function.update_self]
        cases b <;> simp
      · rw [Function.update_of_ne hi]
        by_cases h : i < j
        · simp [h, Nat.lt_succ_of_lt h]
        · have : ¬ i < j + 1 := by omega
          simp [h, this]
    rw [hu, ih (j + 1)]
    have : j + 1 + k = j + (k + 1) := by omega
    rw [this]

omit [Inhabited Pt] in
theorem selectLayers_iff (hO : SelectSpec O) : ∀ (bs : List Bool) (red : ℕ → Pt) (c : Pt),
    (∃ red', selectLayers O (bs.map bitCell) red red' ∧ c = red' 0) ↔ c = red (binary bs)
  | [], red, c => by simp [selectLayers, binary]
  | b :: bs, red, c => by
    rw [List.map_cons]
    simp only [selectLayers, List.length_map]
    have h0 := selectLayer_iff hO b red
    have hr : ∀ red', selectLayer O (bitCell b) (List.range (2 ^ bs.length)) red red' ↔
        red' = fun i => if i < 2 ^ bs.length then red (2 * i + if b then 1 else 0) else red i := by
      intro red'
      have := h0 red' (2 ^ bs.length) 0
      simpa [List.range_eq_range'] using this
    simp only [hr, exists_eq_left]
    rw [selectLayers_iff hO bs]
    have hlt := binary_lt bs
    simp only [hlt, if_true, binary]
    rw [Nat.add_comm]

theorem selectMulti_iff (hO : SelectSpec O) (bs : List Bool) (tab : List Pt) (c : Pt) :
    selectMulti O (bs.map bitCell) tab c ↔
      tab.length = 2 ^ bs.length ∧ c = tab.getD (binary bs) default := by
  unfold selectMulti
  rw [selectLayers_iff hO, List.length_map]

end sel

theorem getD_lt {α : Type} (l : List α) (d : α) {i : ℕ} (h : i < l.length) : l.getD i d = l[i] := by
  rw [List.getD_eq_getElem?_getD, List.getElem?_eq_getElem h, Option.getD_some]

/-! ### Windows -/

/-- The `i`-th window. -/
def win {α : Type} (bits : List α) (w i : ℕ) : List α := (bits.drop (i * w)).take w

theorem window_getD {α : Type} (bits : List α) {w : ℕ} (hw : 0 < w) {i : ℕ}
    (hi : i < (bits.length + w - 1) / w) : (window bits w).getD i [] = win bits w i := by
  have hdm := Nat.div_add_mod bits.length w
  have hmod := Nat.mod_lt bits.length hw
  have hi' : i * w < bits.length := by
    have : i * w + w ≤ bits.length + w - 1 := by
      have h1 : (i + 1) * w ≤ (bits.length + w - 1) / w * w := Nat.mul_le_mul_right _ hi
      have h2 := Nat.div_mul_le_self (bits.length + w - 1) w
      rw [Nat.add_mul, one_mul] at h1; omega
    omega
  unfold window win
  by_cases hn : i < bits.length / w
  · rw [List.getD_eq_getElem?_getD, List.getElem?_append_left (by simpa using hn)]
    simp [hn]
  · have hi2 : i = bits.length / w := by
      have h1 : i * w < (bits.length / w + 1) * w := by
        rw [Nat.add_mul, one_mul, Nat.mul_comm (bits.length / w)]; omega
      have := Nat.lt_of_mul_lt_mul_right h1
      omega
    subst hi2
    have hl : bits.length % w ≠ 0 := by
      intro h0; rw [h0] at hdm; rw [Nat.mul_comm] at hi'; omega
    rw [List.getD_eq_getElem?_getD, List.getElem?_append_right (by simp)]
    simp only [List.length_map, List.length_range, Nat.sub_self, hl, ne_eq, not_false_eq_true,
      if_true, List.getElem?_cons_zero, Option.getD_some]
    have e : bits.length - bits.length % w = bits.length / w * w := by
      rw [Nat.mul_comm]; omega
    rw [e, List.take_of_length_le]
    rw [List.length_drop, Nat.mul_comm]; omega

theorem window_map {α β : Type} (f : α → β) (bits : List α) (w : ℕ) :
    window (bits.map f) w = (window bits w).map (List.map f) := by
  unfold window
  simp only [List.length_map, List.map_append, List.map_map]
  congr 1
  · apply List.map_congr_left
    intro i _
    simp [List.map_drop, List.map_take]
  · split <;> simp [List.map_drop]

theorem win_length {α : Type} (bits : List α) (w i : ℕ) :
    (win bits w i).length = min w (bits.length - i * w) := by
  unfold win; simp

theorem binary_append (a b : List Bool) : binary (a ++ b) = binary a + 2 ^ a.length * binary b := by
  induction a with
  | nil => simp [binary]
  | cons x a ih => simp only [List.cons_append, binary, ih, List.length_cons, pow_succ]; ring

theorem binary_take_win (bs : List Bool) (w : ℕ) (i : ℕ) (h : i * w ≤ bs.length) :
    binary (bs.take ((i + 1) * w)) = binary (bs.take (i * w)) + 2 ^ (w * i) * binary (win bs w i) := by
  unfold win
  have : bs.take ((i + 1) * w) = bs.take (i * w) ++ (bs.drop (i * w)).take w := by
    rw [Nat.add_mul, one_mul, List.take_add]
  rw [this, binary_append, List.length_take, Nat.min_eq_left h, Nat.mul_comm w]

/-- Sum of the digits plus two. -/
def S (bs : List Bool) (w : ℕ) : ℕ → ℕ
  | 0 => 0
  | i + 1 => S bs w i + (binary (win bs w i) + 2) * 2 ^ (w * i)

/-- Sum of the corrections. -/
def C2 (w : ℕ) : ℕ → ℕ
  | 0 => 0
  | i + 1 => C2 w i + 2 * 2 ^ (w * i)

theorem S_eq (bs : List Bool) (w : ℕ) : ∀ i, i = 0 ∨ (i - 1) * w ≤ bs.length →
    S bs w i = binary (bs.take (i * w)) + C2 w i
  | 0, _ => by simp [S, C2, binary]
  | i + 1, h => by
    have h' : i * w ≤ bs.length := by simpa using h
    rw [S, S_eq bs w i ?_, binary_take_win bs w i h', C2]
    · ring
    · rcases Nat.eq_zero_or_pos i with h0 | h0
      · exact .inl h0
      · right; exact le_trans (Nat.mul_le_mul_right _ (Nat.sub_le _ _)) h'

theorem S_lt {w : ℕ} (hw : 2 ≤ w) (bs : List Bool) : ∀ i, S bs w i < 2 * 2 ^ (w * i)
  | 0 => by simp [S]
  | i + 1 => by
    have ih := S_lt hw bs i
    have hb : binary (win bs w i) < 2 ^ w := by
      refine lt_of_lt_of_le (binary_lt _) (Nat.pow_le_pow_right (by norm_num) ?_)
      rw [win_length]; exact Nat.min_le_left _ _
    have h4 : 4 ≤ 2 ^ w := by
      calc 4 = 2 ^ 2 := by norm_num
        _ ≤ 2 ^ w := Nat.pow_le_pow_right (by norm_num) hw
    rw [S, Nat.mul_add, Nat.mul_one, pow_add]
    generalize 2 ^ (w * i) = X at *
    generalize 2 ^ w = W at *
    generalize binary (win bs w i) = k at *
    nlinarith [Nat.zero_le X]

theorem S_pos (bs : List Bool) (w : ℕ) (i : ℕ) : 0 < S bs w (i + 1) := by
  rw [S]; positivity

/-! ### The table -/

theorem window_facts : ∀ w < 64, 2 ≤ w →
    4 ≤ numberOfWindows w ∧ (numberOfWindows w - 1) * w < 254 ∧ 254 ≤ numberOfWindows w * w ∧
    lastBits w = 254 - (numberOfWindows w - 1) * w ∧ lastBits w ≤ w ∧
    w * (numberOfWindows w - 2) ≤ 251 := by decide

theorem win_length_eq {w : ℕ} (hw : validWindow w) {bs : List Bool} (hl : bs.length = 254) {i : ℕ}
    (hi : i < numberOfWindows w) :
    (win bs w i).length = if i = numberOfWindows w - 1 then lastBits w else w := by
  obtain ⟨h1, h2, h3, h4, h5, h6⟩ := window_facts w hw.2 hw.1
  rw [win_length, hl]
  split
  · rename_i e; subst e; rw [h4]; apply Nat.min_eq_right; omega
  · apply Nat.min_eq_left
    have : (i + 1) * w ≤ (numberOfWindows w - 1) * w := Nat.mul_le_mul_right _ (by omega)
    rw [Nat.add_mul, one_mul] at this
    omega

section table
variable {G : Type} [AddCommGroup G]

theorem iterate_double (w : ℕ) (p : G) : (fun p : G => p + p)^[w] p = 2 ^ w • p := by
  induction w with
  | zero => simp
  | succ w ih =>
    rw [Function.iterate_succ_apply', ih, ← two_nsmul, ← mul_nsmul, pow_succ]

/-- Length of a row. -/
def rowLen (w i : ℕ) : ℕ := if i = numberOfWindows w - 1 then 2 ^ lastBits w else 2 ^ w

theorem rowLen_le {w : ℕ} (hw : validWindow w) (i : ℕ) : rowLen w i ≤ 2 ^ w := by
  unfold rowLen
  split
  · exact Nat.pow_le_pow_right (by norm_num) (window_facts w hw.2 hw.1).2.2.2.2.1
  · exact le_refl _

theorem plainRow_length {w : ℕ} (hw : validWindow w) (P : G) (i : ℕ) :
    (plainRow w P i).length = rowLen w i := by
  cases i with
  | zero =>
    have := (window_facts w hw.2 hw.1).1
    have h : ¬ 0 = numberOfWindows w - 1 := by omega
    simp [plainRow, row0, rowLen, h]
  | succ i => simp [plainRow, nextRow, rowLen]

theorem plainRow_getD {w : ℕ} (hw : validWindow w) (P : G) : ∀ i k, i < numberOfWindows w →
    k < rowLen w i → (plainRow w P i).getD k 0 = ((k + 2) * 2 ^ (w * i)) • P
  | 0, k, _, hk => by
    have hk' := lt_of_lt_of_le hk (rowLen_le hw 0)
    simp [plainRow, row0, hk']
  | i + 1, k, hi, hk => by
    have hne : ¬ i = numberOfWindows w - 1 := by omega
    have hk' : k < rowLen w i := by
      have := lt_of_lt_of_le hk (rowLen_le hw (i + 1))
      unfold rowLen; rwa [if_neg hne]
    have ih := plainRow_getD hw P i k (by omega) hk'
    unfold rowLen at hk
    rw [plainRow, nextRow, List.getD_eq_getElem?_getD, List.getElem?_map,
      List.getElem?_range hk, Option.map_some, Option.getD_some, iterate_double, ih, ← mul_nsmul,
      Nat.mul_add, Nat.mul_one, pow_add]
    ring_nf

theorem correction_eq {w : ℕ} (hw : validWindow w) (P aux : G) :
    correction w P aux = -(C2 w (numberOfWindows w) • P + aux) := by
  obtain ⟨h1, -⟩ := window_facts w hw.2 hw.1
  have hpos : ∀ i, 0 < rowLen w i := by intro i; unfold rowLen; split <;> positivity
  have key : ∀ m, m + 1 ≤ numberOfWindows w →
      (List.range' 1 m).foldl (fun acc i => acc + (plainRow w P i).getD 0 0)
        ((plainRow w P 0).getD 0 0) = C2 w (m + 1) • P := by
    intro m
    induction m with
    | zero =>
      intro _
      rw [List.range'_zero, List.foldl_nil, plainRow_getD hw P 0 0 (by omega) (hpos 0)]
      simp [C2]
    | succ m ih =>
      intro hm
      rw [List.range'_1_concat, List.foldl_append, List.foldl_cons, List.foldl_nil, ih (by omega),
        plainRow_getD hw P (1 + m) 0 (by omega) (hpos _), ← add_nsmul]
      rw [Nat.add_comm 1 m]
      simp [C2]
  unfold correction
  rw [key _ (by omega)]
  congr 4
  omega

/-- The point in a cell of the table. -/
def entry (w : ℕ) (P aux : G) (i k : ℕ) : G :=
  if i = numberOfWindows w - 2 then ((k + 2) * 2 ^ (w * i)) • P + aux
  else if i = numberOfWindows w - 1 then
    ((k + 2) * 2 ^ (w * i)) • P - (C2 w (numberOfWindows w) • P + aux)
  else ((k + 2) * 2 ^ (w * i)) • P

theorem table_row {w : ℕ} (hw : validWindow w) (P aux : G) {i : ℕ} (hi : i < numberOfWindows w) :
    (table w P aux).getD i [] = (List.range (rowLen w i)).map (entry w P aux i) := by
  unfold table
  rw [List.getD_eq_getElem?_getD, List.getElem?_map, List.getElem?_range hi, Option.map_some,
    Option.getD_some]
  apply List.ext_getElem
  · split
    · simp [plainRow_length hw]
    · split <;> simp [plainRow_length hw]
  · intro k h1 h2
    have hk : k < rowLen w i := by simpa using h2
    have hp := plainRow_getD hw P i k hi hk
    have hk' : k < (plainRow w P i).length := by rw [plainRow_length hw]; exact hk
    rw [getD_lt _ _ hk'] at hp
    simp only [List.getElem_map, List.getElem_range, entry]
    split
    · rename_i e; simp [e] at hp ⊢; rw [hp]
    · rename_i e1
      split
      · rename_i e; subst e
        simp only [List.getElem_map, hp, correction_eq hw, sub_eq_add_neg]
      · rw [hp]

variable {Pt : Type} [Inhabited Pt] {O : Ops G Pt}

theorem forall₂_getD {α β : Type} {R : α → β → Prop} {l : List α} {l' : List β}
    (h : List.Forall₂ R l l') (d : α) (d' : β) {i : ℕ} (hi : i < l.length) :
    R (l.getD i d) (l'.getD i d') := by
  have hi' : i < l'.length := h.length_eq ▸ hi
  rw [getD_lt _ _ hi, getD_lt _ _ hi']
  exact List.forall₂_iff_get.1 h |>.2 i hi hi'

theorem table_length (w : ℕ) (P aux : G) : (table w P aux).length = numberOfWindows w := by
  simp [table]

theorem assigned_row {w : ℕ} {P aux : G} {t : List (List Pt)} (h : assignTable O w P aux t) :
    t.length = numberOfWindows w ∧ ∀ i < numberOfWindows w, (t.getD i []).length = rowLen w i ∧
      ∀ k < rowLen w i, O.assignConstant (entry w P aux i k) ((t.getD i []).getD k default) := by
  obtain ⟨hw, ht⟩ := h
  refine ⟨by rw [← ht.length_eq, table_length], fun i hi => ?_⟩
  have hr := forall₂_getD ht [] [] (i := i) (by rwa [table_length])
  rw [table_row hw P aux hi] at hr
  refine ⟨by rw [← hr.length_eq]; simp, fun k hk => ?_⟩
  have := forall₂_getD hr 0 default (i := k) (by simpa using hk)
  rw [getD_lt _ _ (by simpa using hk)] at this
  simpa using this

end table

/-! ### Multiplication -/

section mul
variable {G : Type} [AddCommGroup G] {Pt : Type} [Inhabited Pt]

/-- What the point operations of a chip have to do. -/
structure OpsSpec (O : Ops G Pt) (Hd : Pt → G → Prop) : Prop where
  nz : ∀ {p P}, Hd p P → P ≠ 0
  func : ∀ {p p' P}, Hd p P → Hd p' P → p = p'
  ex : ∀ {P}, P ≠ 0 → ∃ p, Hd p P
  assign : ∀ {p P}, O.assignConstant P p → Hd p P
  add : ∀ {a b c A B}, Hd a A → Hd b B → (O.add a b c ↔ A ≠ B ∧ A ≠ -B ∧ Hd c (A + B))
  addInc : ∀ {a b c A B}, Hd a A → Hd b B → A ≠ B → A ≠ -B →
    (O.addIncomplete a b c ↔ Hd c (A + B))
  select : SelectSpec O

variable {O : Ops G Pt} {Hd : Pt → G → Prop}

theorem nsmul_eq_iff {P : G} (hP : addOrderOf P = r) {a b : ℕ} (ha : a < r) (hb : b < r) :
    a • P = b • P ↔ a = b := by
  rw [nsmul_eq_nsmul_iff_modEq, hP]
  constructor
  · intro h; exact Nat.ModEq.eq_of_lt_of_lt h ha hb
  · rintro rfl; rfl

/-- The incomplete additions never meet points with the same abscissa. -/
theorem row_distinct {w : ℕ} (hw : validWindow w) {P : G} (hP : addOrderOf P = r) (bs : List Bool)
    {i : ℕ} (h1 : 1 ≤ i) (hi : i < numberOfWindows w - 2) :
    S bs w i • P ≠ ((binary (win bs w i) + 2) * 2 ^ (w * i)) • P ∧
    S bs w i • P ≠ -(((binary (win bs w i) + 2) * 2 ^ (w * i)) • P) ∧
    S bs w (i + 1) • P ≠ 0 := by
  obtain ⟨hn, -, -, -, -, hle⟩ := window_facts w hw.2 hw.1
  have hS := S_lt hw.1 bs i
  have hS' := S_lt hw.1 bs (i + 1)
  have hp : 0 < S bs w i := by
    obtain ⟨j, rfl⟩ : ∃ j, i = j + 1 := ⟨i - 1, by omega⟩
    exact S_pos bs w j
  have hp' := S_pos bs w i
  have hr : S bs w (i + 1) < r := by
    refine lt_of_lt_of_le hS' ?_
    have : w * (i + 1) ≤ 251 := le_trans (Nat.mul_le_mul_left _ (by omega)) hle
    calc 2 * 2 ^ (w * (i + 1)) ≤ 2 * 2 ^ 251 :=
          Nat.mul_le_mul_left _ (Nat.pow_le_pow_right (by norm_num) this)
      _ ≤ r := by decide +kernel
  have hsum : S bs w (i + 1) = S bs w i + (binary (win bs w i) + 2) * 2 ^ (w * i) := rfl
  have hB : 2 * 2 ^ (w * i) ≤ (binary (win bs w i) + 2) * 2 ^ (w * i) :=
    Nat.mul_le_mul_right _ (by omega)
  generalize (binary (win bs w i) + 2) * 2 ^ (w * i) = B at *
  have h0 : S bs w (i + 1) • P ≠ 0 := by
    intro e
    have : S bs w (i + 1) • P = 0 • P := by rw [e, zero_nsmul]
    rw [nsmul_eq_iff hP hr (by omega)] at this
    omega
  refine ⟨?_, ?_, h0⟩
  · rw [Ne, nsmul_eq_iff hP (by omega) (by omega)]; omega
  · intro e
    apply h0
    rw [hsum, add_nsmul, e, neg_add_cancel]

/-- Point selected in row `i`. -/
theorem select_row (hO : OpsSpec O Hd) {w : ℕ} {P aux : G} {t : List (List Pt)}
    (ht : assignTable O w P aux t) {bs : List Bool} (hl : bs.length = 254) {i : ℕ}
    (hi : i < numberOfWindows w) :
    ∃ p, Hd p (entry w P aux i (binary (win bs w i))) ∧ ∀ q,
      selectMulti O ((window (bs.map bitCell) w).getD i []) (t.getD i []) q ↔ q = p := by
  have hw := ht.1
  obtain ⟨_, hrow⟩ := assigned_row ht
  obtain ⟨hlen, hent⟩ := hrow i hi
  have hwl := win_length_eq hw hl hi
  have hb : binary (win bs w i) < rowLen w i := by
    refine lt_of_lt_of_le (binary_lt _) ?_
    rw [hwl]; unfold rowLen; split <;> exact le_refl _
  refine ⟨_, hO.assign (hent _ hb), fun q => ?_⟩
  have hwin : (window (bs.map bitCell) w).getD i [] = (win bs w i).map bitCell := by
    rw [window_map, List.getD_eq_getElem?_getD, List.getElem?_map]
    have := window_getD bs (w := w) (by have := hw.1; omega) (i := i) (by rw [hl]; exact hi)
    rw [List.getD_eq_getElem?_getD] at this
    rw [← this]
    cases (window bs w)[i]? <;> simp
  rw [hwin, selectMulti_iff hO.select, hlen, hwl]
  have : rowLen w i = 2 ^ (if i = numberOfWindows w - 1 then lastBits w else w) := by
    unfold rowLen; split <;> rfl
  simp [this]

theorem addRows_inc (hO : OpsSpec O Hd) {w : ℕ} {P aux : G} {t : List (List Pt)}
    (ht : assignTable O w P aux t) (hP : addOrderOf P = r) {bs : List Bool}
    (hl : bs.length = 254) : ∀ k i, 1 ≤ i → i + k ≤ numberOfWindows w - 2 → ∀ {acc c : Pt},
    Hd acc (S bs w i • P) →
    (addRows O O.addIncomplete (window (bs.map bitCell) w) t (List.range' i k) acc c ↔
      Hd c (S bs w (i + k) • P))
  | 0, i, _, _, acc, c, h => by
    simp only [List.range'_zero, addRows, Nat.add_zero]
    exact ⟨fun e => e ▸ h, fun h' => hO.func h' h⟩
  | k + 1, i, h1, hk, acc, c, h => by
    have hw := ht.1
    obtain ⟨p, hp, hsel⟩ := select_row hO ht hl (i := i) (by omega)
    have hd := row_distinct hw hP bs h1 (by omega)
    have he : entry w P aux i (binary (win bs w i)) =
        ((binary (win bs w i) + 2) * 2 ^ (w * i)) • P := by
      unfold entry
      rw [if_neg (by omega), if_neg (by omega)]
    rw [he] at hp
    have hsum : S bs w i • P + ((binary (win bs w i) + 2) * 2 ^ (w * i)) • P =
        S bs w (i + 1) • P := by rw [← add_nsmul]; rfl
    have hadd : ∀ acc', O.addIncomplete acc p acc' ↔ Hd acc' (S bs w (i + 1) • P) := by
      intro acc'
      rw [hO.addInc h hp hd.1 hd.2.1, hsum]
    rw [List.range'_succ]
    simp only [addRows, hsel, exists_and_left, exists_eq_left, hadd]
    have ih := fun {acc' : Pt} (h' : Hd acc' (S bs w (i + 1) • P)) =>
      addRows_inc hO ht hP hl k (i + 1) (by omega) (by omega) (c := c) h'
    rw [show i + (k + 1) = i + 1 + k by omega]
    constructor
    · rintro ⟨acc', h', hr⟩; exact (ih h').1 hr
    · intro hc
      obtain ⟨acc', h'⟩ := hO.ex hd.2.2
      exact ⟨acc', h', (ih h').2 hc⟩

/-- The entries selected in the last two rows complete the sum to the multiple. -/
theorem sum_entries {w : ℕ} (hw : validWindow w) (P aux : G) {bs : List Bool} (hl : bs.length = 254) :
    S bs w (numberOfWindows w - 2) • P +
      entry w P aux (numberOfWindows w - 2) (binary (win bs w (numberOfWindows w - 2))) +
      entry w P aux (numberOfWindows w - 1) (binary (win bs w (numberOfWindows w - 1))) =
    binary bs • P := by
  obtain ⟨hn, h2, h3, h4, h5, h6⟩ := window_facts w hw.2 hw.1
  have hS := S_eq bs w (numberOfWindows w) (.inr (by rw [hl]; omega))
  rw [List.take_of_length_le (by rw [hl]; omega)] at hS
  have hb : binary bs • P = S bs w (numberOfWindows w) • P - C2 w (numberOfWindows w) • P := by
    rw [hS, add_nsmul, add_sub_cancel_right]
  rw [hb]
  obtain ⟨m, hm⟩ : ∃ m, numberOfWindows w = m + 2 := ⟨numberOfWindows w - 2, by omega⟩
  unfold entry
  rw [if_pos rfl, if_neg (by omega), if_pos rfl, hm]
  simp only [Nat.add_sub_cancel, show m + 2 - 1 = m + 1 from rfl]
  have : S bs w (m + 2) • P = S bs w m • P + ((binary (win bs w m) + 2) * 2 ^ (w * m)) • P +
      ((binary (win bs w (m + 1)) + 2) * 2 ^ (w * (m + 1))) • P := by
    rw [← add_nsmul, ← add_nsmul]; rfl
  rw [this]
  abel

/-- The whole multiplication: the bits are those of a representative of the scalar, the last two
additions are between points of different abscissa, and the result is the multiple. -/
theorem mul_iff (hO : OpsSpec O Hd) {w : ℕ} {P aux : G} {t : List (List Pt)}
    (ht : assignTable O w P aux t) (hP : addOrderOf P = r) (s : Fr) (c : Pt) :
    mul O w t s c ↔ ∃ bs : List Bool, bs.length = 254 ∧ ((binary bs : ℕ) : Fr) = s ∧
      (let n := numberOfWindows w
       let A := S bs w (n - 2) • P
       let E := entry w P aux (n - 2) (binary (win bs w (n - 2)))
       let E' := entry w P aux (n - 1) (binary (win bs w (n - 1)))
       A ≠ E ∧ A ≠ -E ∧ A + E ≠ E' ∧ A + E ≠ -E') ∧ Hd c (binary bs • P) := by
  have hw := ht.1
  obtain ⟨hn, h2, h3, h4, h5, h6⟩ := window_facts w hw.2 hw.1
  obtain ⟨htl, hrow⟩ := assigned_row ht
  have hsum := fun (bs : List Bool) (hl : bs.length = 254) => sum_entries hw P aux hl
  unfold mul
  have hlen : 2 ^ lastBits w = (t.getD (numberOfWindows w - 1) []).length := by
    rw [(hrow _ (by omega)).1]; simp [rowLen]
  simp only [htl, hlen, true_and]
  -- one direction at a time
  have main : ∀ bs : List Bool, bs.length = 254 →
      ((∃ acc0 acc1, selectMulti O ((window (bs.map bitCell) w).getD 0 []) (t.getD 0 []) acc0 ∧
        addRows O O.addIncomplete (window (bs.map bitCell) w) t
          (List.range' 1 (numberOfWindows w - 2 - 1)) acc0 acc1 ∧
        addRows O O.add (window (bs.map bitCell) w) t
          (List.range' (numberOfWindows w - 2) 2) acc1 c) ↔
      (S bs w (numberOfWindows w - 2) • P ≠
          entry w P aux (numberOfWindows w - 2) (binary (win bs w (numberOfWindows w - 2))) ∧
        S bs w (numberOfWindows w - 2) • P ≠
          -entry w P aux (numberOfWindows w - 2) (binary (win bs w (numberOfWindows w - 2))) ∧
        S bs w (numberOfWindows w - 2) • P +
          entry w P aux (numberOfWindows w - 2) (binary (win bs w (numberOfWindows w - 2))) ≠
          entry w P aux (numberOfWindows w - 1) (binary (win bs w (numberOfWindows w - 1))) ∧
        S bs w (numberOfWindows w - 2) • P +
          entry w P aux (numberOfWindows w - 2) (binary (win bs w (numberOfWindows w - 2))) ≠
          -entry w P aux (numberOfWindows w - 1) (binary (win bs w (numberOfWindows w - 1)))) ∧
      Hd c (binary bs • P)) := by
    intro bs hl
    obtain ⟨p0, hp0, hsel0⟩ := select_row hO ht hl (i := 0) (by omega)
    obtain ⟨p1, hp1, hsel1⟩ := select_row hO ht hl (i := numberOfWindows w - 2) (by omega)
    obtain ⟨p2, hp2, hsel2⟩ := select_row hO ht hl (i := numberOfWindows w - 1) (by omega)
    have he0 : entry w P aux 0 (binary (win bs w 0)) = S bs w 1 • P := by
      unfold entry
      rw [if_neg (by omega), if_neg (by omega)]
      simp [S]
    rw [he0] at hp0
    have hinc : ∀ acc1, addRows O O.addIncomplete (window (bs.map bitCell) w) t
          (List.range' 1 (numberOfWindows w - 2 - 1)) p0 acc1 ↔
          Hd acc1 (S bs w (numberOfWindows w - 2) • P) := by
      intro acc1
      rw [addRows_inc hO ht hP hl _ 1 (le_refl _) (by omega) hp0,
        show 1 + (numberOfWindows w - 2 - 1) = numberOfWindows w - 2 by omega]
    have hr2 : List.range' (numberOfWindows w - 2) 2 =
        [numberOfWindows w - 2, numberOfWindows w - 1] := by
      rw [show (2 : ℕ) = 1 + 1 from rfl, List.range'_succ, List.range'_one,
        show numberOfWindows w - (1 + 1) + 1 = numberOfWindows w - 1 by omega]
    have hs := hsum bs hl
    rw [hr2]
    simp only [hsel0, exists_and_left, exists_eq_left, hinc, addRows, hsel1, hsel2]
    generalize entry w P aux (numberOfWindows w - 2) (binary (win bs w (numberOfWindows w - 2))) =
      E at *
    generalize entry w P aux (numberOfWindows w - 1) (binary (win bs w (numberOfWindows w - 1))) =
      E' at *
    constructor
    · rintro ⟨acc1, h1, acc2, ha, acc3, hb, rfl⟩
      obtain ⟨a1, a2, a3⟩ := (hO.add h1 hp1).1 ha
      obtain ⟨b1, b2, b3⟩ := (hO.add a3 hp2).1 hb
      exact ⟨⟨a1, a2, b1, b2⟩, hs ▸ b3⟩
    · rintro ⟨⟨a1, a2, b1, b2⟩, hc⟩
      have hnz : S bs w (numberOfWindows w - 2) • P ≠ 0 := by
        have := (row_distinct hw hP bs (i := numberOfWindows w - 2 - 1) (by omega) (by omega)).2.2
        rwa [show numberOfWindows w - 2 - 1 + 1 = numberOfWindows w - 2 by omega] at this
      obtain ⟨acc1, h1⟩ := hO.ex hnz
      obtain ⟨acc2, h2⟩ := hO.ex (P := S bs w (numberOfWindows w - 2) • P + E)
        (fun e => a2 (eq_neg_of_add_eq_zero_left e))
      exact ⟨acc1, h1, acc2, (hO.add h1 hp1).2 ⟨a1, a2, h2⟩, c,
        (hO.add h2 hp2).2 ⟨b1, b2, hs ▸ hc⟩, rfl⟩
  constructor
  · rintro ⟨bits, acc0, acc1, hb, h1, h2, h3⟩
    obtain ⟨bs, rfl, hl, hv⟩ := toBits_iff.1 hb
    exact ⟨bs, hl, hv, (main bs hl).1 ⟨acc0, acc1, h1, h2, h3⟩⟩
  · rintro ⟨bs, hl, hv, hrest⟩
    obtain ⟨acc0, acc1, h1, h2, h3⟩ := (main bs hl).2 hrest
    exact ⟨_, acc0, acc1, toBits_iff.2 ⟨bs, rfl, hl, hv⟩, h1, h2, h3⟩

end mul

end Verif.FixedPoint
