import Verif.Lemmas.HonestPoints

/-! The honest prover in the multiplication of a fixed base. -/

namespace Verif.Layout
open Verif Spec FixedPoint GrumpkinChip

variable {X : Setting} {s : Known} {G P : Type} [AddCommGroup G] {O : LOps G P} {IsP : Known → P → G → Prop} {adm : G → Prop}

/-- A row of points has been assigned. -/
def RowIs (IsP : Known → P → G → Prop) (s : Known) (row : List P) (f : ℕ → G) (n : ℕ) : Prop :=
  row.length = n ∧ ∀ i p, row[i]? = some p → IsP s p (f i)

/-- The table of a fixed base has been assigned. -/
def TabIs (IsP : Known → P → G → Prop) (s : Known) (tab : List (List P)) (w : ℕ) (B aux : G) : Prop :=
  tab.length = numberOfWindows w ∧ ∀ i row, tab[i]? = some row → RowIs IsP s row (entry w B aux i) (rowLen w i)

/-- Cells of bits. -/
def BitsAre (s : Known) (cells : List Cell) (bs : List Bool) : Prop := List.Forall₂ (fun c b => Has s c (bitCell b)) cells bs

theorem BitsAre.mono {s s' : Known} {cells : List Cell} {bs : List Bool} (h : BitsAre s cells bs) (hs : s.Before s') :
    BitsAre s' cells bs := h.imp fun _ _ h => h.mono hs

section
variable (hO : O.Complete X IsP adm)
include hO

theorem RowIs.mono {s s' : Known} {row : List P} {f : ℕ → G} {n : ℕ} (h : RowIs IsP s row f n) (hs : s.Before s') :
    RowIs IsP s' row f n := ⟨h.1, fun i p hp => hO.mono _ _ _ _ hs (h.2 i p hp)⟩

theorem TabIs.mono {s s' : Known} {tab : List (List P)} {w : ℕ} {B aux : G} (h : TabIs IsP s tab w B aux) (hs : s.Before s') :
    TabIs IsP s' tab w B aux := ⟨h.1, fun i row hr => (h.2 i row hr).mono hO hs⟩

omit [AddCommGroup G] hO in
theorem runs_nthRow {row : List P} {f : ℕ → G} {n i : ℕ} (h : RowIs IsP s row f n) (hi : i < n) :
    Runs X (nth row i) s fun p s' => s' = s ∧ IsP s p (f i) := by
  have hl : i < row.length := h.1 ▸ hi
  exact runs_nth (List.getElem?_eq_getElem hl) ⟨rfl, h.2 _ _ (List.getElem?_eq_getElem hl)⟩

theorem runs_selectLayer {cond : Cell} {bit : Bool} {f : ℕ → G} {n : ℕ} : ∀ (k j : ℕ) (red : List P) (s : Known),
    2 * (j + k) ≤ n → Has s cond (bitCell bit) →
    RowIs IsP s red (fun i => if i < j then f (2 * i + if bit then 1 else 0) else f i) n →
    Runs X (selectLayer O cond (List.range' j k) red) s fun red' s' =>
      RowIs IsP s' red' (fun i => if i < j + k then f (2 * i + if bit then 1 else 0) else f i) n
  | 0, j, red, s, _, _, h => runs_pure h
  | k + 1, j, red, s, hn, hc, h => by
    refine runs_bind (R := fun red1 s1 => RowIs IsP s1 red1 (fun i => if i < j + 1 then f (2 * i + if bit then 1 else 0) else f i) n)
      ?_ ?_
    · refine runs_bind (runs_nthRow h (i := 2 * j + 1) (by omega)) ?_
      rintro p1 s1 - ⟨rfl, h1⟩
      refine runs_bind (runs_nthRow h (i := 2 * j) (by omega)) ?_
      rintro p0 s2 - ⟨rfl, h0⟩
      rw [if_neg (show ¬ 2 * j + 1 < j by omega)] at h1
      rw [if_neg (show ¬ 2 * j < j by omega)] at h0
      refine runs_bind (hO.select _ _ _ _ _ _ bit h1 h0 hc) fun v s3 b3 h3 => runs_pure ?_
      have h' := h.mono hO b3
      refine ⟨by rw [List.length_set]; exact h.1, fun i p hp => ?_⟩
      by_cases e : i = j
      · subst e
        rw [List.getElem?_set_self (by rw [h.1]; omega)] at hp
        cases hp
        beta_reduce
        rw [if_pos (Nat.lt_succ_self i)]
        cases bit
        · exact h3
        · exact h3
      · rw [List.getElem?_set_ne (Ne.symm e)] at hp
        have := h'.2 i p hp
        beta_reduce at this ⊢
        by_cases hij : i < j
        · rw [if_pos hij] at this
          rw [if_pos (show i < j + 1 by omega)]
          exact this
        · rw [if_neg hij] at this
          rw [if_neg (show ¬ i < j + 1 by omega)]
          exact this
    · intro red1 s1 b1 h1
      rw [show j + (k + 1) = j + 1 + k by omega]
      exact runs_selectLayer k (j + 1) red1 s1 (by omega) (hc.mono b1) h1

theorem runs_selectLayers : ∀ (cells : List Cell) (bs : List Bool) (red : List P) (f : ℕ → G) (n : ℕ) (s : Known),
    2 ^ bs.length ≤ n → BitsAre s cells bs → RowIs IsP s red f n →
    Runs X (selectLayers O cells red) s fun red' s' => ∃ p, red'[0]? = some p ∧ IsP s' p (f (binary bs))
  | [], bs, red, f, n, s, hn, hb, h => by
    obtain rfl := List.forall₂_nil_left_iff.1 hb
    have hl : 0 < red.length := by
      rw [h.1]
      exact lt_of_lt_of_le (by decide) hn
    exact runs_pure ⟨_, List.getElem?_eq_getElem hl, h.2 _ _ (List.getElem?_eq_getElem hl)⟩
  | c :: cells, bs, red, f, n, s, hn, hb, h => by
    obtain ⟨b, bs, h0, hb', rfl⟩ := List.forall₂_cons_left_iff.1 hb
    have hlen : cells.length = bs.length := hb'.length_eq
    rw [List.length_cons, pow_succ] at hn
    have hlt := binary_lt bs
    unfold selectLayers
    rw [hlen, List.range_eq_range']
    refine runs_bind (runs_selectLayer hO (bit := b) (f := f) (n := n) (2 ^ bs.length) 0 red s (by omega) h0 ?_) fun red1 s1 b1 h1 => ?_
    · simpa only [Nat.not_lt_zero, if_false] using h
    · refine runs_mono (runs_selectLayers cells bs red1 _ n s1 (by omega) (BitsAre.mono hb' b1) h1) ?_
      rintro red' s' - ⟨p, hp, hI⟩
      refine ⟨p, hp, ?_⟩
      rw [Nat.zero_add, if_pos hlt] at hI
      rw [binary, Nat.add_comm]
      exact hI

theorem runs_selectMulti {cells : List Cell} {bs : List Bool} {row : List P} {f : ℕ → G} {n : ℕ} (hn : n = 2 ^ bs.length)
    (hb : BitsAre s cells bs) (h : RowIs IsP s row f n) :
    Runs X (selectMulti O cells row) s fun p s' => IsP s' p (f (binary bs)) := by
  refine runs_bind (R := fun _ s' => s' = s) (runs_check ?_ rfl) ?_
  · rw [h.1, hn, hb.length_eq]
  rintro _ s' - rfl
  refine runs_bind (runs_selectLayers hO cells bs row f n s' hn.ge hb h) ?_
  rintro red s1 - ⟨p, hp, hI⟩
  exact runs_nth hp hI

omit hO in
theorem window_get {α : Type} {bits : List α} {w : ℕ} (hw : validWindow w) (hl : bits.length = 254) {i : ℕ} (hi : i < numberOfWindows w) :
    (window bits w)[i]? = some (win bits w i) := by
  have h := window_getD bits (w := w) (by have := hw.1; omega) (i := i) (by rw [hl]; exact hi)
  rw [List.getD_eq_getElem?_getD] at h
  cases e : (window bits w)[i]? with
  | some x => rw [e] at h; exact congrArg some h
  | none =>
    rw [e] at h
    have h' : ([] : List α) = win bits w i := h
    exfalso
    have hlen : (win bits w i).length = min w (bits.length - i * w) := win_length bits w i
    rw [← h', List.length_nil, hl] at hlen
    obtain ⟨h1, h2, -⟩ := window_facts w hw.2 hw.1
    have : i * w ≤ (numberOfWindows w - 1) * w := Nat.mul_le_mul_right _ (by omega)
    have := hw.1
    omega

omit hO in
theorem BitsAre.win {cells : List Cell} {bs : List Bool} (h : BitsAre s cells bs) (w i : ℕ) :
    BitsAre s (win cells w i) (win bs w i) := List.forall₂_take _ (List.forall₂_drop _ h)

omit hO in
theorem tab_get {tab : List (List P)} {w : ℕ} {B aux : G} (h : TabIs IsP s tab w B aux) {i : ℕ} (hi : i < numberOfWindows w) :
    ∃ row, tab[i]? = some row ∧ RowIs IsP s row (entry w B aux i) (rowLen w i) := by
  have hl : i < tab.length := h.1 ▸ hi
  exact ⟨_, List.getElem?_eq_getElem hl, h.2 _ _ (List.getElem?_eq_getElem hl)⟩

/-- The point selected in row `i`. -/
theorem runs_rowPoint {w : ℕ} (hw : validWindow w) {tab : List (List P)} {B aux : G} (ht : TabIs IsP s tab w B aux) {cells : List Cell}
    {bs : List Bool} (hb : BitsAre s cells bs) (hl : bs.length = 254) {i : ℕ} (hi : i < numberOfWindows w) {β : Type}
    {f : P → Synth β} {R : β → Known → Prop}
    (hf : ∀ q s', s.Before s' → IsP s' q (entry w B aux i (binary (win bs w i))) → Runs X (f q) s' R) :
    Runs X (do
      let sel ← nth (window cells w) i
      let row ← nth tab i
      let q ← selectMulti O sel row
      f q) s R := by
  have hcl : cells.length = 254 := hb.length_eq.trans hl
  obtain ⟨row, hrow, hR⟩ := tab_get ht hi
  refine runs_bind (R := fun a s' => a = win cells w i ∧ s' = s) (runs_nth (window_get hw hcl hi) ⟨rfl, rfl⟩) ?_
  rintro _ s1 - ⟨rfl, rfl⟩
  refine runs_bind (R := fun a s' => a = row ∧ s' = s1) (runs_nth hrow ⟨rfl, rfl⟩) ?_
  rintro _ s2 - ⟨rfl, rfl⟩
  refine runs_bind (runs_selectMulti hO ?_ (hb.win w i) hR) fun q s3 b3 h3 => hf q s3 b3 h3
  rw [win_length_eq hw hl hi]
  unfold rowLen
  split <;> rfl

theorem runs_addRows_cons {w : ℕ} (hw : validWindow w) {tab : List (List P)} {B aux : G} (ht : TabIs IsP s tab w B aux) {cells : List Cell}
    {bs : List Bool} (hb : BitsAre s cells bs) (hl : bs.length = 254) {i : ℕ} (hi : i < numberOfWindows w) {is : List ℕ}
    {addOp : P → P → Synth P} {acc : P} {R1 R : P → Known → Prop}
    (hf : ∀ q s', s.Before s' → IsP s' q (entry w B aux i (binary (win bs w i))) → Runs X (addOp acc q) s' R1)
    (hr : ∀ acc' s', s.Before s' → R1 acc' s' → Runs X (addRows O addOp (window cells w) tab is acc') s' R) :
    Runs X (addRows O addOp (window cells w) tab (i :: is) acc) s R :=
  runs_bind (runs_rowPoint hO hw ht hb hl hi hf) hr

theorem runs_addRows_inc {w : ℕ} (hw : validWindow w) {tab : List (List P)} {B aux : G} (hB : addOrderOf B = r) {cells : List Cell}
    {bs : List Bool} (hl : bs.length = 254) : ∀ (k i : ℕ) (acc : P) (s : Known), 1 ≤ i → i + k ≤ numberOfWindows w - 2 →
    TabIs IsP s tab w B aux → BitsAre s cells bs → IsP s acc (S bs w i • B) →
    Runs X (addRows O O.addIncomplete (window cells w) tab (List.range' i k) acc) s fun c s' => IsP s' c (S bs w (i + k) • B)
  | 0, i, acc, s, _, _, _, _, ha => runs_pure ha
  | k + 1, i, acc, s, h1, hk, ht, hb, ha => by
    have hd := row_distinct hw hB bs h1 (by omega)
    have he : entry w B aux i (binary (win bs w i)) = ((binary (win bs w i) + 2) * 2 ^ (w * i)) • B := by
      unfold entry
      rw [if_neg (by omega), if_neg (by omega)]
    have hsum : S bs w i • B + ((binary (win bs w i) + 2) * 2 ^ (w * i)) • B = S bs w (i + 1) • B := by rw [← add_nsmul]; rfl
    rw [List.range'_succ]
    refine runs_addRows_cons hO hw ht hb hl (by omega) (R1 := fun c s' => IsP s' c (S bs w (i + 1) • B)) ?_ ?_
    · intro q s' hs hq
      rw [he] at hq
      rw [← hsum]
      exact hO.addIncomplete _ _ _ _ _ (hO.mono _ _ _ _ hs ha) hq hd.1 hd.2.1
    · intro acc' s' hs h'
      rw [show i + (k + 1) = i + 1 + k by omega]
      exact runs_addRows_inc hw hB hl k (i + 1) acc' s' (by omega) (by omega) (ht.mono hO hs) (hb.mono hs) h'

/-- The multiplication of a fixed base succeeds with the product. -/
theorem runs_mulFixed {w : ℕ} (hw : validWindow w) {tab : List (List P)} {B aux : G} (hB : addOrderOf B = r)
    (ht : TabIs IsP s tab w B aux) {a : Cell} {v : Fr} (ha : Has s a v) (hfit : AuxFits w v.val B aux) :
    Runs X (mulFixed O w tab a) s fun p s' => IsP s' p (v.val • B) := by
  obtain ⟨hn, h2, h3, h4, h5, h6⟩ := window_facts w hw.2 hw.1
  obtain ⟨m, hm⟩ : ∃ m, numberOfWindows w = m + 2 := ⟨numberOfWindows w - 2, by omega⟩
  have hl := canonBits_length v
  have hv := canonBits_binary v
  rw [← hv] at hfit ⊢
  obtain ⟨f1, f2, f3, f4⟩ := (auxFits_iff hw B aux hm hl).2 hfit
  have hsum := sum_entries hw B aux hl
  rw [hm] at hsum
  rw [show m + 2 - 2 = m from rfl, show m + 2 - 1 = m + 1 from rfl] at hsum
  refine runs_bind (R := fun _ s' => s' = s) (runs_check ht.1.symm rfl) ?_
  rintro _ s' - rfl
  obtain ⟨row, hrow, hR⟩ := tab_get ht (i := numberOfWindows w - 1) (by omega)
  refine runs_bind (R := fun x s1 => x = row ∧ s1 = s') (runs_nth hrow ⟨rfl, rfl⟩) ?_
  rintro _ s1 - ⟨rfl, rfl⟩
  refine runs_bind (R := fun _ s' => s' = s1) (runs_check ?_ rfl) ?_
  · rw [hR.1]
    unfold rowLen
    rw [if_pos rfl]
  rintro _ s2 - rfl
  refine runs_bind (runs_toBits ha) fun bits s3 b3 h3 => ?_
  generalize canonBits v = bs at *
  have h3 : BitsAre s3 bits bs := h3
  have ht := ht.mono hO b3
  refine runs_rowPoint hO hw ht h3 hl (i := 0) (by omega) fun acc0 s4 b4 hacc0 => ?_
  have ht := ht.mono hO b4
  have h3 := h3.mono b4
  have he0 : entry w B aux 0 (binary (win bs w 0)) = S bs w 1 • B := by
    unfold entry
    rw [if_neg (by omega), if_neg (by omega)]
    simp [S]
  rw [he0] at hacc0
  refine runs_bind (runs_addRows_inc hO hw hB hl (numberOfWindows w - 2 - 1) 1 acc0 s4 le_rfl (by omega) ht h3 hacc0)
    fun acc1 s5 b5 hacc1 => ?_
  have ht := ht.mono hO b5
  have h3 := h3.mono b5
  rw [show 1 + (numberOfWindows w - 2 - 1) = m by omega] at hacc1
  rw [hm, show m + 2 - 2 = m from rfl, show (2 : ℕ) = 1 + 1 from rfl, List.range'_succ, List.range'_one]
  refine runs_addRows_cons hO hw ht h3 hl (by omega)
    (R1 := fun c s' => IsP s' c (S bs w m • B + entry w B aux m (binary (win bs w m)))) ?_ ?_
  · intro q s' hs hq
    exact hO.add _ _ _ _ _ (hO.mono _ _ _ _ hs hacc1) hq f1 f2
  · intro acc2 s6 b6 hacc2
    have ht := ht.mono hO b6
    have h3 := h3.mono b6
    refine runs_addRows_cons hO hw ht h3 hl (by omega) (R1 := fun c s' => IsP s' c (binary bs • B)) ?_ fun c s' _ h => runs_pure h
    intro q s' hs hq
    rw [← hsum]
    exact hO.add _ _ _ _ _ (hO.mono _ _ _ _ hs hacc2) hq f3 f4

/-- The table is assigned if its entries can be. -/
theorem runs_assignTable {w : ℕ} (hw : validWindow w) {B aux : G}
    (hadm : ∀ i < numberOfWindows w, ∀ k < rowLen w i, adm (entry w B aux i k)) :
    Runs X (assignTable O w B aux) s fun tab s' => TabIs IsP s' tab w B aux := by
  refine runs_bind (R := fun _ s' => s' = s) (runs_check ⟨hw.1, hw.2⟩ rfl) ?_
  rintro _ s' - rfl
  have hmem : ∀ row ∈ table w B aux, ∀ g ∈ row, adm g := by
    intro row hrow g hg
    obtain ⟨i, hi, rfl⟩ := List.getElem_of_mem hrow
    have hi' : i < numberOfWindows w := by rw [← table_length w B aux]; exact hi
    have := table_row hw B aux hi'
    rw [getD_lt _ _ hi] at this
    rw [this] at hg
    obtain ⟨k, hk, rfl⟩ := List.mem_map.1 hg
    exact hadm i hi' k (List.mem_range.1 hk)
  refine runs_mono (runs_mapS (R := fun row l s' => List.Forall₂ (fun g p => IsP s' p g) row l)
    (fun _ _ _ _ hs h => h.imp fun _ _ h => hO.mono _ _ _ _ hs h) _ _ fun row hrow s1 _ =>
      runs_mapS (R := fun g p s' => IsP s' p g) (fun _ _ _ _ hs h => hO.mono _ _ _ _ hs h) _ _ fun g hg s2 _ =>
        hO.assignConstant _ _ (hmem row hrow g hg)) ?_
  intro tab s1 _ h
  refine ⟨by rw [← h.length_eq, table_length], fun i row hrow => ?_⟩
  obtain ⟨hi, rfl⟩ := List.getElem?_eq_some_iff.1 hrow
  have hi' : i < numberOfWindows w := by rw [← table_length w B aux, h.length_eq]; exact hi
  have hr := forall₂_getD h [] [] (i := i) (by rw [table_length]; exact hi')
  rw [table_row hw B aux hi', getD_lt _ _ hi] at hr
  refine ⟨by rw [← hr.length_eq]; simp, fun k p hp => ?_⟩
  obtain ⟨hk, rfl⟩ := List.getElem?_eq_some_iff.1 hp
  have hk' : k < rowLen w i := by
    have := hr.length_eq
    rw [List.length_map, List.length_range] at this
    omega
  have := (List.forall₂_iff_get.1 hr).2 k (by simpa using hk') hk
  simpa using this

end

end Verif.Layout
