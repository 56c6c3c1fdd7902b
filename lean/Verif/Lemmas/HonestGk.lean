import Verif.Lemmas.Honest

/-! The honest prover in the operations of the main gate and of the Grumpkin chip. -/

namespace Verif.Layout
open Verif MainGate

variable {X : Setting} {α β : Type} {s : Known}

theorem runs_nth_of {β' : Type} {R : α → β' → Prop} {l : List α} {vs : List β'} {i : ℕ} {v : β'} (h : List.Forall₂ R l vs)
    (hi : vs[i]? = some v) : Runs X (nth l i) s fun a s' => s' = s ∧ R a v := by
  have hlt := (List.getElem?_eq_some_iff.1 hi).1
  have hl : i < l.length := h.length_eq ▸ hlt
  refine runs_nth (List.getElem?_eq_getElem hl) ⟨rfl, ?_⟩
  have := h.get hl (h.length_eq ▸ hl)
  rw [List.getElem?_eq_getElem hlt] at hi
  cases hi
  exact this

theorem runs_add {a b : Cell} {x y : Fr} (ha : Has s a x) (hb : Has s b y) :
    Runs X (add a b) s fun c s' => Has s' c (x + y) := by
  refine runs_bind (runs_apply [x, y, x + y] rfl (Nat.le_of_ble_eq_true rfl) (.inr (Nat.le_of_ble_eq_true rfl)) (.inl rfl)
    (.cons ha (.cons hb (.cons (fun w hw => ?_) .nil))) ?_) fun l s' _ h => runs_mono (runs_nth_of h rfl) ?_
  · beta_reduce; rw [ha.keep hw, hb.keep hw]
  · exact (GrumpkinChip.add_gate_iff.2 rfl : MainGate.add x y (x + y))
  · rintro c s'' - ⟨rfl, h⟩
    exact h

theorem runs_sub {a b : Cell} {x y : Fr} (ha : Has s a x) (hb : Has s b y) :
    Runs X (sub a b) s fun c s' => Has s' c (x - y) := by
  refine runs_bind (runs_apply [x, y, x - y] rfl (Nat.le_of_ble_eq_true rfl) (.inr (Nat.le_of_ble_eq_true rfl)) (.inl rfl)
    (.cons ha (.cons hb (.cons (fun w hw => ?_) .nil))) ?_) fun l s' _ h => runs_mono (runs_nth_of h rfl) ?_
  · beta_reduce; rw [ha.keep hw, hb.keep hw]
  · exact (GrumpkinChip.sub_gate_iff.2 rfl : MainGate.sub x y (x - y))
  · rintro c s'' - ⟨rfl, h⟩
    exact h

theorem runs_mul {a b : Cell} {x y : Fr} (ha : Has s a x) (hb : Has s b y) :
    Runs X (mul a b) s fun c s' => Has s' c (x * y) := by
  refine runs_bind (runs_apply [x, y, x * y] rfl (Nat.le_of_ble_eq_true rfl) (.inr (Nat.le_of_ble_eq_true rfl)) (.inl rfl)
    (.cons ha (.cons hb (.cons (fun w hw => ?_) .nil))) ?_) fun l s' _ h => runs_mono (runs_nth_of h rfl) ?_
  · beta_reduce; rw [ha.keep hw, hb.keep hw]
  · exact (GrumpkinChip.mul_gate_iff.2 rfl : MainGate.mul x y (x * y))
  · rintro c s'' - ⟨rfl, h⟩
    exact h

theorem runs_mulAdd {a b d : Cell} {x y z : Fr} (ha : Has s a x) (hb : Has s b y) (hd : Has s d z) :
    Runs X (mulAdd a b d) s fun c s' => Has s' c (x * y + z) := by
  refine runs_bind (runs_apply [x, y, z, x * y + z] rfl (Nat.le_of_ble_eq_true rfl) (.inr (Nat.le_of_ble_eq_true rfl)) (.inl rfl)
    (.cons ha (.cons hb (.cons hd (.cons (fun w hw => ?_) .nil)))) ?_) fun l s' _ h => runs_mono (runs_nth_of h rfl) ?_
  · beta_reduce; rw [ha.keep hw, hb.keep hw, hd.keep hw]
  · exact (GrumpkinChip.mulAdd_iff.2 rfl : MainGate.mulAdd x y z (x * y + z))
  · rintro c s'' - ⟨rfl, h⟩
    exact h

theorem runs_addConstant {a : Cell} {x k : Fr} (ha : Has s a x) :
    Runs X (addConstant a k) s fun c s' => Has s' c (x + k) := by
  refine runs_bind (runs_apply [x, x + k] rfl (Nat.le_of_ble_eq_true rfl) (.inl rfl) (.inl rfl)
    (.cons ha (.cons (fun w hw => ?_) .nil)) ?_) fun l s' _ h => runs_mono (runs_nth_of h rfl) ?_
  · beta_reduce; rw [ha.keep hw]
  · exact (GrumpkinChip.addConstant_iff.2 rfl : MainGate.addConstant x k (x + k))
  · rintro c s'' - ⟨rfl, h⟩
    exact h

theorem runs_negWithConstant {a : Cell} {x k : Fr} (ha : Has s a x) :
    Runs X (negWithConstant a k) s fun c s' => Has s' c (k - x) := by
  refine runs_bind (runs_apply [x, k - x] rfl (Nat.le_of_ble_eq_true rfl) (.inl rfl) (.inl rfl)
    (.cons ha (.cons (fun w hw => ?_) .nil)) ?_) fun l s' _ h => runs_mono (runs_nth_of h rfl) ?_
  · beta_reduce; rw [ha.keep hw]
  · exact (GrumpkinChip.negWithConstant_iff.2 rfl : MainGate.negWithConstant x k (k - x))
  · rintro c s'' - ⟨rfl, h⟩
    exact h

theorem runs_assignConstant (k : Fr) : Runs X (assignConstant k) s fun c s' => Has s' c k := by
  refine runs_bind (runs_apply [k] rfl (Nat.le_of_ble_eq_true rfl) (.inl rfl) (.inl rfl)
    (.cons (fun w hw => rfl) .nil) ?_) fun l s' _ h => runs_mono (runs_nth_of h rfl) ?_
  · exact (GrumpkinChip.assignConstant_gate_iff.2 rfl : MainGate.assignConstant k k)
  · rintro c s'' - ⟨rfl, h⟩
    exact h

theorem runs_invertUnsafe {a : Cell} {x : Fr} (ha : Has s a x) (hx : x ≠ 0) :
    Runs X (invertUnsafe a) s fun c s' => Has s' c x⁻¹ := by
  refine runs_bind (runs_apply [x, x⁻¹] rfl (Nat.le_of_ble_eq_true rfl) (.inr (Nat.le_of_ble_eq_true rfl)) (.inl rfl)
    (.cons ha (.cons (fun w hw => ?_) .nil)) ?_) fun l s' _ h => runs_mono (runs_nth_of h rfl) ?_
  · beta_reduce; rw [ha.keep hw]
  · exact (GrumpkinChip.invertUnsafe_iff.2 (mul_inv_cancel₀ hx) : MainGate.invertUnsafe x x⁻¹)
  · rintro c s'' - ⟨rfl, h⟩
    exact h

theorem runs_select {a b cond : Cell} {x y z : Fr} (ha : Has s a x) (hb : Has s b y) (hc : Has s cond z) :
    Runs X (select a b cond) s fun c s' => Has s' c (z * (x - y) + y) := by
  refine runs_bind (runs_apply [z, x, z, y, z * (x - y) + y] rfl (Nat.le_of_ble_eq_true rfl) (.inr (Nat.le_of_ble_eq_true rfl)) (.inr (Nat.le_of_ble_eq_true rfl))
    (.cons hc (.cons ha (.cons hc (.cons hb (.cons (fun w hw => ?_) .nil))))) ?_) fun l s' _ h => runs_mono (runs_nth_of h rfl) ?_
  · beta_reduce; rw [ha.keep hw, hb.keep hw, hc.keep hw]
    ring
  · exact (GrumpkinChip.select_gate_iff.2 rfl : MainGate.select x y z (z * (x - y) + y))
  · rintro c s'' - ⟨rfl, h⟩
    exact h

theorem runs_mulSub {a b d : Cell} {x y z : Fr} (ha : Has s a x) (hb : Has s b y) (hd : Has s d z) :
    Runs X (mulSub a b d) s fun c s' => Has s' c (x * y - z) := by
  refine runs_bind (runs_apply [x, y, z, x * y - z] rfl (Nat.le_of_ble_eq_true rfl) (.inr (Nat.le_of_ble_eq_true rfl)) (.inl rfl)
    (.cons ha (.cons hb (.cons hd (.cons (fun w hw => ?_) .nil)))) ?_) fun l s' _ h => runs_mono (runs_nth_of h rfl) ?_
  · beta_reduce; rw [ha.keep hw, hb.keep hw, hd.keep hw]
  · exact (GrumpkinChip.mulSub_iff.2 rfl : GrumpkinChip.mulSub x y z (x * y - z))
  · rintro c s'' - ⟨rfl, h⟩
    exact h

theorem runs_mulSubSub {a b d e : Cell} {x y z u : Fr} (ha : Has s a x) (hb : Has s b y) (hd : Has s d z) (he : Has s e u) :
    Runs X (mulSubSub a b d e) s fun c s' => Has s' c (x * y - z - u) := by
  refine runs_bind (runs_apply [x, y, z, u, x * y - z - u] rfl (Nat.le_of_ble_eq_true rfl) (.inr (Nat.le_of_ble_eq_true rfl)) (.inl rfl)
    (.cons ha (.cons hb (.cons hd (.cons he (.cons (fun w hw => ?_) .nil))))) ?_) fun l s' _ h => runs_mono (runs_nth_of h rfl) ?_
  · beta_reduce; rw [ha.keep hw, hb.keep hw, hd.keep hw, he.keep hw]
  · exact (GrumpkinChip.mulSubSub_iff.2 rfl : GrumpkinChip.mulSubSub x y z u (x * y - z - u))
  · rintro c s'' - ⟨rfl, h⟩
    exact h

theorem runs_subMul {a b d : Cell} {x y z : Fr} (ha : Has s a x) (hb : Has s b y) (hd : Has s d z) :
    Runs X (subMul a b d) s fun c s' => Has s' c ((x - y) * z) := by
  refine runs_bind (runs_apply [x, z, y, z, (x - y) * z] rfl (Nat.le_of_ble_eq_true rfl) (.inr (Nat.le_of_ble_eq_true rfl)) (.inr (Nat.le_of_ble_eq_true rfl))
    (.cons ha (.cons hd (.cons hb (.cons hd (.cons (fun w hw => ?_) .nil))))) ?_) fun l s' _ h => runs_mono (runs_nth_of h rfl) ?_
  · beta_reduce; rw [ha.keep hw, hb.keep hw, hd.keep hw]
  · exact (GrumpkinChip.subMul_iff.2 rfl : GrumpkinChip.subMul x y z ((x - y) * z))
  · rintro c s'' - ⟨rfl, h⟩
    exact h

theorem runs_scaleMul {k : Fr} {a b : Cell} {x y : Fr} (ha : Has s a x) (hb : Has s b y) :
    Runs X (scaleMul k a b) s fun c s' => Has s' c (k * (x * y)) := by
  refine runs_bind (runs_apply [x, y, k * (x * y)] rfl (Nat.le_of_ble_eq_true rfl) (.inr (Nat.le_of_ble_eq_true rfl)) (.inl rfl)
    (.cons ha (.cons hb (.cons (fun w hw => ?_) .nil))) ?_) fun l s' _ h => runs_mono (runs_nth_of h rfl) ?_
  · beta_reduce; rw [ha.keep hw, hb.keep hw, mul_assoc]
  · exact (GrumpkinChip.scaleMul_iff.2 rfl : GrumpkinChip.scaleMul k x y (k * (x * y)) 0)
  · rintro c s'' - ⟨rfl, h⟩
    exact h

theorem runs_lambdaDoubleUnsafe {a : PtCell} {x y : Fr} (ha : Has s a.1 x) (hb : Has s a.2 y) (hy : y ≠ 0) :
    Runs X (lambdaDoubleUnsafe a) s fun c s' => Has s' c (y⁻¹ * x * x * GrumpkinChip.THREE_OVER_TWO) := by
  have he : GrumpkinChip.lambdaDoubleUnsafe (x, y) (y⁻¹ * x * x * GrumpkinChip.THREE_OVER_TWO) := by
    rw [GrumpkinChip.lambdaDoubleUnsafe_iff]
    generalize GrumpkinChip.THREE_OVER_TWO = t
    field_simp
  refine runs_bind (runs_apply [y⁻¹ * x * x * GrumpkinChip.THREE_OVER_TWO, y, x, x] rfl (Nat.le_of_ble_eq_true rfl)
    (.inr (Nat.le_of_ble_eq_true rfl)) (.inr (Nat.le_of_ble_eq_true rfl))
    (.cons (fun w hw => ?_) (.cons hb (.cons ha (.cons ha .nil)))) he) fun l s' _ h => runs_mono (runs_nth_of h rfl) ?_
  · beta_reduce; rw [ha.keep hw, hb.keep hw]
  · rintro c s'' - ⟨rfl, h⟩
    exact h

theorem runs_assignBit {f : Input → (Cell → Fr) → Fr} {v : Fr} (hv : v = 0 ∨ v = 1) (hf : ∀ w, Keeps s w → f X.inp w = v) :
    Runs X (assignBit f) s fun c s' => Has s' c v := by
  refine runs_bind (runs_apply [v, v, v] rfl (Nat.le_of_ble_eq_true rfl) (.inr (Nat.le_of_ble_eq_true rfl)) (.inl rfl)
    (.cons hf (.cons hf (.cons hf .nil))) ?_) fun l s' _ h => ?_
  · refine (GrumpkinChip.mul_gate_iff.2 ?_ : MainGate.mul v v v)
    rcases hv with rfl | rfl
    · rw [mul_zero]
    · rw [mul_one]
  refine runs_bind (runs_nth_of h (i := 0) rfl) ?_
  rintro c0 _ - ⟨rfl, h0⟩
  refine runs_bind (runs_nth_of h (i := 1) rfl) ?_
  rintro c1 _ - ⟨rfl, h1⟩
  refine runs_bind (runs_nth_of h (i := 2) rfl) ?_
  rintro c2 _ - ⟨rfl, h2⟩
  refine runs_bind (R := fun _ s1 => s1 = _) (runs_constrainEqual h0 h2 rfl) ?_
  rintro _ _ - rfl
  refine runs_bind (R := fun _ s1 => s1 = _) (runs_constrainEqual h1 h2 rfl) ?_
  rintro _ _ - rfl
  exact runs_pure h2

theorem runs_subInvertUnsafe {a b : Cell} {x y : Fr} (ha : Has s a x) (hb : Has s b y) (hxy : x ≠ y) :
    Runs X (subInvertUnsafe a b) s fun c s' => Has s' c (x - y)⁻¹ := by
  have hf : ArgIs X s (um fun _ w => (w a - w b)⁻¹) (x - y)⁻¹ := fun w hw => by beta_reduce; rw [ha.keep hw, hb.keep hw]
  refine runs_bind (runs_apply [x, (x - y)⁻¹, y, (x - y)⁻¹] rfl (Nat.le_of_ble_eq_true rfl) (.inr (Nat.le_of_ble_eq_true rfl)) (.inr (Nat.le_of_ble_eq_true rfl))
    (.cons ha (.cons hf (.cons hb (.cons hf .nil)))) ?_) fun l s' _ h => ?_
  · obtain ⟨c', h1, h2⟩ := GrumpkinChip.subInvertUnsafe_iff.2 (mul_inv_cancel₀ (sub_ne_zero.2 hxy))
    rw [← h2] at h1
    exact h1
  refine runs_bind (runs_nth_of h (i := 1) rfl) ?_
  rintro c0 _ - ⟨rfl, h0⟩
  refine runs_bind (runs_nth_of h (i := 3) rfl) ?_
  rintro c1 _ - ⟨rfl, h1⟩
  refine runs_bind (R := fun _ s1 => s1 = _) (runs_constrainEqual h0 h1 rfl) ?_
  rintro _ _ - rfl
  exact runs_pure h0

/-! ### Points -/

/-- The cells of a point have been filled with the coordinates of `P`. -/
def HasPt (s : Known) (p : PtCell) (P : Gk) : Prop :=
  P ≠ 0 ∧ Has s p.1 (coords P).1 ∧ Has s p.2 (coords P).2

theorem HasPt.mono {s' : Known} {p : PtCell} {P : Gk} (h : HasPt s p P) (hs : s.Before s') : HasPt s' p P :=
  ⟨h.1, h.2.1.mono hs, h.2.2.mono hs⟩

theorem runs_addGk {a b : PtCell} {A B : Gk} (ha : HasPt s a A) (hb : HasPt s b B) (h : A ≠ B) (h' : A ≠ -B) :
    Runs X (addGk a b) s fun c s' => HasPt s' c (A + B) := by
  have hA := holds_coords ha.1
  have hB := holds_coords hb.1
  have hx : (coords A).1 ≠ (coords B).1 := by
    rw [Ne, holds_x_iff hA hB]
    exact fun e => e.elim h h'
  obtain ⟨xa, ya⟩ := ha.2
  obtain ⟨xb, yb⟩ := hb.2
  generalize coords A = p at *
  generalize coords B = p' at *
  have hs := chord_holds hA hB hx (l := (p.2 - p'.2) * (p.1 - p'.1)⁻¹)
    (c := ((p.2 - p'.2) * (p.1 - p'.1)⁻¹ * ((p.2 - p'.2) * (p.1 - p'.1)⁻¹) - p.1 - p'.1,
      (p.2 - p'.2) * (p.1 - p'.1)⁻¹ * (p.1 - ((p.2 - p'.2) * (p.1 - p'.1)⁻¹ * ((p.2 - p'.2) * (p.1 - p'.1)⁻¹) - p.1 - p'.1)) - p.2))
    (inv_mul_cancel_right₀ (sub_ne_zero.2 hx) _) (by dsimp only; ring) rfl
  refine runs_bind (runs_subInvertUnsafe xa xb hx) fun i s1 b1 h1 => ?_
  refine runs_bind (runs_subMul (ya.mono b1) (yb.mono b1) h1) fun l s2 b2 h2 => ?_
  have xa2 := xa.mono (b1.trans b2)
  refine runs_bind (runs_mulSubSub h2 h2 xa2 (xb.mono (b1.trans b2))) fun x s3 b3 h3 => ?_
  refine runs_bind (runs_sub (xa2.mono b3) h3) fun d s4 b4 h4 => ?_
  refine runs_bind (runs_mulSub (h2.mono (b3.trans b4)) h4 (ya.mono (((b1.trans b2).trans b3).trans b4))) fun y s5 b5 h5 => ?_
  refine runs_pure ⟨hs.1, ?_, ?_⟩
  · rw [hs.2]
    exact h3.mono (b4.trans b5)
  · rw [hs.2]
    exact h5

theorem runs_doubleIncompleteGk {a : PtCell} {A : Gk} (ha : HasPt s a A) :
    Runs X (doubleIncompleteGk a) s fun c s' => HasPt s' c (A + A) := by
  have hA := holds_coords ha.1
  have hy := holds_gk_y hA
  obtain ⟨xa, ya⟩ := ha.2
  have h2y : 2 * (coords A).2 ≠ 0 := mul_ne_zero two_ne_zero_r hy
  have h32 := GrumpkinChip.three_over_two
  have hrun := fun (s : Known) (xa : Has s a.1 (coords A).1) (ya : Has s a.2 (coords A).2) =>
    runs_lambdaDoubleUnsafe (X := X) (s := s) xa ya hy
  generalize coords A = p at *
  generalize GrumpkinChip.THREE_OVER_TWO = k at *
  have hl : p.2⁻¹ * p.1 * p.1 * k * (2 * p.2) = 3 * p.1 ^ 2 := by
    field_simp
    linear_combination p.1 ^ 2 * h32
  generalize p.2⁻¹ * p.1 * p.1 * k = l at *
  have hs := double_holds hA h2y (l := l) (c := (l * l - p.1 - p.1, l * (p.1 - (l * l - p.1 - p.1)) - p.2))
    hl (by dsimp only; ring) rfl
  refine runs_bind (hrun _ xa ya) fun i s1 b1 h1 => ?_
  have xa1 := xa.mono b1
  refine runs_bind (runs_mulSubSub h1 h1 xa1 xa1) fun x s3 b3 h3 => ?_
  refine runs_bind (runs_sub (xa1.mono b3) h3) fun d s4 b4 h4 => ?_
  refine runs_bind (runs_mulSub (h1.mono (b3.trans b4)) h4 (ya.mono ((b1.trans b3).trans b4))) fun y s5 b5 h5 => ?_
  refine runs_pure ⟨hs.1, ?_, ?_⟩
  · rw [hs.2]
    exact h3.mono (b4.trans b5)
  · rw [hs.2]
    exact h5

theorem runs_assignPoint {f : Input → Fr × Fr} {P : Gk} (hP : P ≠ 0) (hf : f X.inp = coords P) :
    Runs X (assignPoint f) s fun p s' => HasPt s' p P := by
  have hc := GrumpkinChip.assignPoint_iff.2 ⟨P, holds_coords hP⟩
  unfold GrumpkinChip.assignPoint at hc
  rw [GrumpkinChip.assertIsOnCurve_iff] at hc
  refine runs_bind runs_assignValue fun x s1 b1 hx => ?_
  refine runs_bind runs_assignValue fun y s2 b2 hy => ?_
  have hx := hx.mono b2
  rw [hf] at hx hy
  refine runs_bind (R := fun _ s' => HasPt s' (x, y) P) ?_ fun _ s' b h => runs_pure h
  refine runs_bind (runs_mul hy hy) fun y2 s3 b3 h3 => ?_
  have hx3 := hx.mono b3
  refine runs_bind (runs_mul hx3 hx3) fun x2 s4 b4 h4 => ?_
  refine runs_bind (runs_mul h4 (hx3.mono b4)) fun x3 s5 b5 h5 => ?_
  refine runs_bind (runs_addConstant h5) fun x3b s6 b6 h6 => ?_
  have h3 := h3.mono ((b4.trans b5).trans b6)
  have e : (coords P).1 * (coords P).1 * (coords P).1 + GrumpkinChip.curveB = (coords P).2 * (coords P).2 := by
    unfold GrumpkinChip.curveB
    generalize coords P = p at hc
    linear_combination -hc
  rw [e] at h6
  have b := ((b3.trans b4).trans b5).trans b6
  exact runs_constrainEqual h3 h6 ⟨hP, hx.mono b, hy.mono b⟩

theorem runs_assignConstantGk {P : Gk} (hP : P ≠ 0) : Runs X (assignConstantGk (coords P)) s fun p s' => HasPt s' p P := by
  refine runs_bind (runs_assignConstant _) fun x s1 b1 hx => ?_
  refine runs_bind (runs_assignConstant _) fun y s2 b2 hy => ?_
  exact runs_pure ⟨hP, hx.mono b2, hy⟩

theorem runs_negGk {p : PtCell} {P : Gk} (hp : HasPt s p P) : Runs X (negGk p) s fun c s' => HasPt s' c (-P) := by
  have hn := holds_neg (holds_coords hp.1)
  refine runs_bind (runs_negWithConstant hp.2.2) fun y s1 b1 hy => ?_
  rw [zero_sub] at hy
  refine runs_pure ⟨hn.1, ?_, ?_⟩
  · rw [hn.2]
    exact hp.2.1.mono b1
  · rw [hn.2]
    exact hy

theorem runs_selectGk {cond : Cell} {p1 p2 : PtCell} {P1 P2 : Gk} {bit : Bool} (hc : Has s cond (Spec.bitCell bit))
    (h1 : HasPt s p1 P1) (h2 : HasPt s p2 P2) :
    Runs X (selectGk cond p1 p2) s fun c s' => HasPt s' c (if bit then P1 else P2) := by
  refine runs_bind (runs_select h1.2.1 h2.2.1 hc) fun x s1 b1 hx => ?_
  refine runs_bind (runs_select (h1.2.2.mono b1) (h2.2.2.mono b1) (hc.mono b1)) fun y s2 b2 hy => ?_
  refine runs_pure ?_
  have hx := hx.mono b2
  cases bit
  · simp only [Spec.bitCell, Bool.false_eq_true, if_false, zero_mul, zero_add] at hx hy ⊢
    exact ⟨h2.1, hx, hy⟩
  · simp only [Spec.bitCell, if_true, one_mul, sub_add_cancel] at hx hy ⊢
    exact ⟨h1.1, hx, hy⟩

theorem runs_mulBitsLoop : ∀ (bits : List Cell) (bs : List Bool) (res dbl : PtCell) (R D : Gk) (s : Known),
    List.Forall₂ (fun c b => Has s c (Spec.bitCell b)) bits bs → HasPt s res R → HasPt s dbl D → GrumpkinChip.good bs R D →
    Runs X (mulBitsLoop bits res dbl) s fun c s' => HasPt s' c (R + Spec.binary bs • D)
  | [], bs, res, dbl, R, D, s, hb, hr, hd, hg => by
    rw [List.forall₂_nil_left_iff] at hb
    subst hb
    refine runs_pure ?_
    rw [Spec.binary, zero_nsmul, add_zero]
    exact hr
  | bit :: bits, bs, res, dbl, R, D, s, hb, hr, hd, hg => by
    obtain ⟨b, bs, h0, hb', rfl⟩ := List.forall₂_cons_left_iff.1 hb
    have hsum : R + Spec.binary (b :: bs) • D = (if b then R + D else R) + Spec.binary bs • (D + D) := by
      rw [Spec.binary, ← two_nsmul D, ← mul_nsmul', mul_comm, add_nsmul]
      cases b
      · simp
      · simp [add_assoc]
    rw [hsum]
    refine runs_bind (runs_addGk hr hd hg.1.1 hg.1.2) fun t s1 b1 ht => ?_
    refine runs_bind (runs_selectGk (h0.mono b1) ht (hr.mono b1)) fun res' s2 b2 hr' => ?_
    refine runs_bind (runs_doubleIncompleteGk (hd.mono (b1.trans b2))) fun dbl' s3 b3 hd' => ?_
    exact runs_mulBitsLoop bits bs res' dbl' _ _ s3 (hb'.imp fun _ _ h => h.mono ((b1.trans b2).trans b3)) (hr'.mono b3) hd' hg.2

theorem runs_mulBits {aux auxNeg point : PtCell} {bits : List Cell} {bs : List Bool} {A P : Gk}
    (hb : List.Forall₂ (fun c b => Has s c (Spec.bitCell b)) bits bs) (ha : HasPt s aux A) (hn : HasPt s auxNeg (-A))
    (hp : HasPt s point P) (hg : GrumpkinChip.good bs A P) (h0 : A + Spec.binary bs • P ≠ -A) (h1 : Spec.binary bs • P ≠ 0) :
    Runs X (mulBits aux auxNeg point bits) s fun c s' => HasPt s' c (Spec.binary bs • P) := by
  refine runs_bind (runs_mulBitsLoop bits bs aux point A P s hb ha hp hg) fun res s1 b1 hr => ?_
  refine runs_mono (runs_addGk hr (hn.mono b1) h0 ?_) fun c s' b h => ?_
  · rw [neg_neg]
    intro e
    exact h1 (by simpa using e)
  · rw [show A + Spec.binary bs • P + -A = Spec.binary bs • P by abel] at h
    exact h

/-! ### Bits -/

theorem runs_bitsOf {f : Input → (Cell → Fr) → Fr} {v : Fr} (hf : ∀ w, Keeps s w → f X.inp w = v) (n : ℕ) :
    Runs X (mapS (fun i => assignBit fun inp w => bitOf (f inp w) i) (List.range n)) s fun bits s' =>
      List.Forall₂ (fun c b => Has s' c (Spec.bitCell b)) bits ((List.range n).map v.val.testBit) := by
  refine runs_mono (runs_mapS (R := fun i c s' => Has s' c (Spec.bitCell (v.val.testBit i)))
    (fun _ _ _ _ hb h => h.mono hb) _ _ fun i _ s' hb => ?_) fun bits s' _ h => ?_
  · refine runs_assignBit ?_ fun w hw => ?_
    · cases v.val.testBit i
      · exact .inl rfl
      · exact .inr rfl
    · rw [hf w (hw.mono hb)]
      rfl
  · rw [List.forall₂_map_right_iff]
    exact h.flip

end Verif.Layout
