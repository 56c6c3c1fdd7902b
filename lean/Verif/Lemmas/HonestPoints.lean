import Verif.Lemmas.HonestPoseidon
import Verif.Lemmas.FixedPointTable

/-! The honest prover in the operations on points of G1 and G2. -/

namespace Verif.Layout
open Verif Spec

variable {X : Setting} {s : Known} {J : IntegerImpl} {Is : Known → J.I → Fq → Prop}

/-- An element of the extension field has been assigned. -/
def Is2 (Is : Known → J.I → Fq → Prop) (s : Known) (a : I2 J) (x : Fq2) : Prop := Is s a.1 x.re ∧ Is s a.2 x.im

/-- A point of G1 has been assigned. -/
def IsP1 (Is : Known → J.I → Fq → Prop) (s : Known) (p : P1 J) (P : G1) : Prop :=
  P ≠ 0 ∧ Is s p.1 (coords P).1 ∧ Is s p.2 (coords P).2

/-- A point of G2 has been assigned. -/
def IsP2 (Is : Known → J.I → Fq → Prop) (s : Known) (p : P2 J) (P : G2) : Prop :=
  P ≠ 0 ∧ Is2 Is s p.1 (coords P).1 ∧ Is2 Is s p.2 (coords P).2

/-- The point operations are complete: `IsP s p P` says that the point `P` has been assigned to `p`; `adm` are the points
that can be assigned as constants. -/
structure LOps.Complete {G P : Type} [AddCommGroup G] (O : LOps G P) (X : Setting) (IsP : Known → P → G → Prop)
    (adm : G → Prop) : Prop where
  mono : ∀ s s' p A, s.Before s' → IsP s p A → IsP s' p A
  assignConstant : ∀ s A, adm A → Runs X (O.assignConstant A) s fun c s' => IsP s' c A
  addIncomplete : ∀ s a b A B, IsP s a A → IsP s b B → A ≠ B → A ≠ -B →
    Runs X (O.addIncomplete a b) s fun c s' => IsP s' c (A + B)
  add : ∀ s a b A B, IsP s a A → IsP s b B → A ≠ B → A ≠ -B → Runs X (O.add a b) s fun c s' => IsP s' c (A + B)
  select : ∀ s cond a b A B (bit : Bool), IsP s a A → IsP s b B → Has s cond (bitCell bit) →
    Runs X (O.select cond a b) s fun c s' => IsP s' c (if bit then A else B)

section
variable (hJ : J.Complete X Is)
include hJ

theorem Is2.mono {s s' : Known} {a : I2 J} {x : Fq2} (h : Is2 Is s a x) (hs : s.Before s') : Is2 Is s' a x :=
  ⟨hJ.mono _ _ _ _ hs h.1, hJ.mono _ _ _ _ hs h.2⟩

theorem IsP1.mono {s s' : Known} {p : P1 J} {P : G1} (h : IsP1 Is s p P) (hs : s.Before s') : IsP1 Is s' p P :=
  ⟨h.1, hJ.mono _ _ _ _ hs h.2.1, hJ.mono _ _ _ _ hs h.2.2⟩

theorem IsP2.mono {s s' : Known} {p : P2 J} {P : G2} (h : IsP2 Is s p P) (hs : s.Before s') : IsP2 Is s' p P :=
  ⟨h.1, Is2.mono hJ h.2.1 hs, Is2.mono hJ h.2.2 hs⟩

theorem runs_assignConstantI2 (x : Fq2) : Runs X (assignConstantI2 (J := J) (FixedPoint.splitBase x)) s fun c s' => Is2 Is s' c x :=
  runs_bind (hJ.assignConstant _ _) fun _ _ _ h1 => runs_bind (hJ.assignConstant _ _) fun _ _ b2 h2 =>
    runs_pure ⟨hJ.mono _ _ _ _ b2 h1, h2⟩

theorem runs_sub2 {a b : I2 J} {x y : Fq2} (ha : Is2 Is s a x) (hb : Is2 Is s b y) :
    Runs X (sub2 a b) s fun c s' => Is2 Is s' c (x - y) :=
  runs_bind (hJ.sub _ _ _ _ _ ha.1 hb.1) fun _ _ b1 h1 =>
    runs_bind (hJ.sub _ _ _ _ _ (ha.mono hJ b1).2 (hb.mono hJ b1).2) fun _ _ b2 h2 =>
      runs_pure ⟨hJ.mono _ _ _ _ b2 h1, h2⟩

theorem runs_subSub2 {a b d : I2 J} {x y z : Fq2} (ha : Is2 Is s a x) (hb : Is2 Is s b y) (hd : Is2 Is s d z) :
    Runs X (subSub2 a b d) s fun c s' => Is2 Is s' c (x - y - z) :=
  runs_bind (hJ.subSub _ _ _ _ _ _ _ ha.1 hb.1 hd.1) fun _ _ b1 h1 =>
    runs_bind (hJ.subSub _ _ _ _ _ _ _ (ha.mono hJ b1).2 (hb.mono hJ b1).2 (hd.mono hJ b1).2) fun _ _ b2 h2 =>
      runs_pure ⟨hJ.mono _ _ _ _ b2 h1, h2⟩

theorem runs_mulI2 {a b : I2 J} {x y : Fq2} (ha : Is2 Is s a x) (hb : Is2 Is s b y) :
    Runs X (mulI2 a b) s fun c s' => Is2 Is s' c (x * y) := by
  have e : x * y = ⟨x.re * y.re - x.im * y.im, (x.re + x.im) * (y.re + y.im) - (x.re * y.re + x.im * y.im)⟩ := by
    apply QuadraticAlgebra.ext
    · rw [QuadraticAlgebra.re_mul]; ring
    · rw [QuadraticAlgebra.im_mul]; ring
  rw [e]
  refine runs_bind (hJ.mul _ _ _ _ _ ha.1 hb.1) fun t1 s1 b1 h1 => ?_
  have ha := ha.mono hJ b1
  have hb := hb.mono hJ b1
  refine runs_bind (hJ.add _ _ _ _ _ ha.1 ha.2) fun t0 s2 b2 h0 => ?_
  have ha := ha.mono hJ b2
  have hb := hb.mono hJ b2
  have h1 := hJ.mono _ _ _ _ b2 h1
  refine runs_bind (hJ.mul _ _ _ _ _ ha.2 hb.2) fun t2 s3 b3 h2 => ?_
  have hb := hb.mono hJ b3
  have h1 := hJ.mono _ _ _ _ b3 h1
  have h0 := hJ.mono _ _ _ _ b3 h0
  refine runs_bind (hJ.add _ _ _ _ _ hb.1 hb.2) fun t3 s4 b4 h3 => ?_
  have h1 := hJ.mono _ _ _ _ b4 h1
  have h0 := hJ.mono _ _ _ _ b4 h0
  have h2 := hJ.mono _ _ _ _ b4 h2
  refine runs_bind (hJ.sub _ _ _ _ _ h1 h2) fun i0 s5 b5 h5 => ?_
  have h1 := hJ.mono _ _ _ _ b5 h1
  have h0 := hJ.mono _ _ _ _ b5 h0
  have h2 := hJ.mono _ _ _ _ b5 h2
  have h3 := hJ.mono _ _ _ _ b5 h3
  refine runs_bind (hJ.add _ _ _ _ _ h1 h2) fun t1' s6 b6 h6 => ?_
  refine runs_bind (hJ.mul _ _ _ _ _ (hJ.mono _ _ _ _ b6 h0) (hJ.mono _ _ _ _ b6 h3)) fun t0' s7 b7 h7 => ?_
  refine runs_bind (hJ.sub _ _ _ _ _ h7 (hJ.mono _ _ _ _ b7 h6)) fun i1 s8 b8 h8 => ?_
  exact runs_pure ⟨hJ.mono _ _ _ _ ((b6.trans b7).trans b8) h5, h8⟩

theorem runs_square2 {a : I2 J} {x : Fq2} (ha : Is2 Is s a x) : Runs X (square2 a) s fun c s' => Is2 Is s' c (x * x) := by
  have e : x * x = ⟨x.re * x.re - x.im * x.im, 2 * (x.re * x.im)⟩ := by
    apply QuadraticAlgebra.ext
    · rw [QuadraticAlgebra.re_mul]; ring
    · rw [QuadraticAlgebra.im_mul]; ring
  rw [e]
  refine runs_bind (hJ.square _ _ _ ha.1) fun t0 s1 b1 h1 => ?_
  have ha := ha.mono hJ b1
  refine runs_bind (hJ.square _ _ _ ha.2) fun t1 s2 b2 h2 => ?_
  have ha := ha.mono hJ b2
  refine runs_bind (hJ.sub _ _ _ _ _ (hJ.mono _ _ _ _ b2 h1) h2) fun i0 s3 b3 h3 => ?_
  have ha := ha.mono hJ b3
  refine runs_bind (hJ.mul _ _ _ _ _ ha.1 ha.2) fun t2 s4 b4 h4 => ?_
  refine runs_bind (hJ.mul2 _ _ _ h4) fun i1 s5 b5 h5 => ?_
  exact runs_pure ⟨hJ.mono _ _ _ _ (b4.trans b5) h3, h5⟩

theorem runs_norm {a : I2 J} {x : Fq2} (ha : Is2 Is s a x) :
    Runs X (norm a) s fun c s' => Is s' c (x.re * x.re + x.im * x.im) := by
  refine runs_bind (hJ.square _ _ _ ha.1) fun t0 s1 b1 h1 => ?_
  refine runs_bind (hJ.square _ _ _ (ha.mono hJ b1).2) fun t1 s2 b2 h2 => ?_
  exact hJ.add _ _ _ _ _ (hJ.mono _ _ _ _ b2 h1) h2

omit hJ in
theorem norm_ne_zero {x : Fq2} (hx : x ≠ 0) : x.re * x.re + x.im * x.im ≠ 0 := by
  rw [← pow_two, ← pow_two, Ne, Integer2Chip.norm_eq_zero]
  intro h
  exact hx (QuadraticAlgebra.ext h.1 h.2)

theorem runs_divIncomplete2 {a b : I2 J} {x y : Fq2} (ha : Is2 Is s a x) (hb : Is2 Is s b y) (hy : y ≠ 0) :
    Runs X (divIncomplete2 a b) s fun c s' => Is2 Is s' c (x / y) := by
  have hn := norm_ne_zero hy
  have e : x / y = x * ⟨y.re * (y.re * y.re + y.im * y.im)⁻¹, -(y.im * (y.re * y.re + y.im * y.im)⁻¹)⟩ := by
    rw [div_eq_iff hy, mul_assoc]
    have : (⟨y.re * (y.re * y.re + y.im * y.im)⁻¹, -(y.im * (y.re * y.re + y.im * y.im)⁻¹)⟩ : Fq2) * y = 1 := by
      have hi := inv_mul_cancel₀ hn
      generalize (y.re * y.re + y.im * y.im)⁻¹ = k at *
      apply QuadraticAlgebra.ext
      · simp only [QuadraticAlgebra.re_mul, QuadraticAlgebra.re_one]; linear_combination hi
      · simp only [QuadraticAlgebra.im_mul, QuadraticAlgebra.im_one]; ring
    rw [this, mul_one]
  rw [e]
  refine runs_bind (runs_norm hJ hb) fun n s1 b1 h1 => ?_
  have ha := ha.mono hJ b1
  have hb := hb.mono hJ b1
  refine runs_bind (hJ.invertIncomplete _ _ _ h1 hn) fun ninv s2 b2 h2 => ?_
  have ha := ha.mono hJ b2
  have hb := hb.mono hJ b2
  refine runs_bind (hJ.mul _ _ _ _ _ hb.1 h2) fun i0 s3 b3 h3 => ?_
  have ha := ha.mono hJ b3
  have hb := hb.mono hJ b3
  refine runs_bind (hJ.mul _ _ _ _ _ hb.2 (hJ.mono _ _ _ _ b3 h2)) fun i1 s4 b4 h4 => ?_
  have ha := ha.mono hJ b4
  refine runs_bind (hJ.neg _ _ _ h4) fun i1' s5 b5 h5 => ?_
  exact runs_mulI2 hJ (ha.mono hJ b5) ⟨hJ.mono _ _ _ _ (b4.trans b5) h3, h5⟩

theorem runs_selectI2 {a b : I2 J} {cond : Cell} {x y : Fq2} {bit : Bool} (ha : Is2 Is s a x) (hb : Is2 Is s b y)
    (hc : Has s cond (bitCell bit)) : Runs X (selectI2 a b cond) s fun c s' => Is2 Is s' c (if bit then x else y) := by
  refine runs_bind (hJ.select _ _ _ _ _ _ bit ha.1 hb.1 hc) fun i0 s1 b1 h1 => ?_
  refine runs_bind (hJ.select _ _ _ _ _ _ bit (ha.mono hJ b1).2 (hb.mono hJ b1).2 (hc.mono b1)) fun i1 s2 b2 h2 => ?_
  have h1 := hJ.mono _ _ _ _ b2 h1
  refine runs_pure ?_
  cases bit
  · exact ⟨h1, h2⟩
  · exact ⟨h1, h2⟩

theorem runs_assertNotEqual2 {a b : I2 J} {x y : Fq2} (ha : Is2 Is s a x) (hb : Is2 Is s b y) (hxy : x ≠ y) :
    Runs X (assertNotEqual2 a b) s fun _ _ => True := by
  refine runs_bind (runs_sub2 hJ ha hb) fun c s1 b1 h1 => ?_
  refine runs_bind (runs_norm hJ h1) fun n s2 b2 h2 => ?_
  exact hJ.assertNotZero _ _ _ h2 (norm_ne_zero (sub_ne_zero.2 hxy))

/-! ### Points -/

omit hJ in
theorem chord_coords {F : Type} [Field F] [DecidableEq F] {b : F} {A B : (shortW b).Point} (hA : A ≠ 0) (hB : B ≠ 0) (h1 : A ≠ B) (h2 : A ≠ -B) :
    (coords A).1 ≠ (coords B).1 ∧ A + B ≠ 0 ∧ ∀ l, l = ((coords B).2 - (coords A).2) / ((coords B).1 - (coords A).1) →
      l * l - (coords A).1 - (coords B).1 = (coords (A + B)).1 ∧
      ((coords A).1 - (l * l - (coords A).1 - (coords B).1)) * l - (coords A).2 = (coords (A + B)).2 := by
  have ha := holds_coords hA
  have hb := holds_coords hB
  have hx : (coords A).1 ≠ (coords B).1 := fun e => by
    rcases (holds_x_iff ha hb).1 e with h | h
    · exact h1 h
    · exact h2 h
  refine ⟨hx, fun e => h2 (eq_neg_of_add_eq_zero_left e), ?_⟩
  intro l hl
  generalize coords A = p at *
  generalize coords B = p' at *
  have hd : p'.1 - p.1 ≠ 0 := sub_ne_zero.2 (Ne.symm hx)
  rw [eq_div_iff hd] at hl
  have h := chord_holds ha hb hx (l := l) (c := (l * l - p.1 - p'.1, (p.1 - (l * l - p.1 - p'.1)) * l - p.2))
    (by linear_combination -hl) (by dsimp only; ring) (by dsimp only; ring)
  rw [h.2]
  exact ⟨rfl, rfl⟩

theorem runs_addIncomplete1 {a b : P1 J} {A B : G1} (ha : IsP1 Is s a A) (hb : IsP1 Is s b B) (h1 : A ≠ B) (h2 : A ≠ -B) :
    Runs X (addIncomplete1 a b) s fun c s' => IsP1 Is s' c (A + B) := by
  obtain ⟨hx, hnz, hl⟩ := chord_coords ha.1 hb.1 h1 h2
  refine runs_bind (hJ.sub _ _ _ _ _ hb.2.2 ha.2.2) fun num s1 b1 k1 => ?_
  have ha := ha.mono hJ b1
  have hb := hb.mono hJ b1
  refine runs_bind (hJ.sub _ _ _ _ _ hb.2.1 ha.2.1) fun den s2 b2 k2 => ?_
  have ha := ha.mono hJ b2
  have hb := hb.mono hJ b2
  refine runs_bind (hJ.divIncomplete _ _ _ _ _ (hJ.mono _ _ _ _ b2 k1) k2 (sub_ne_zero.2 (Ne.symm hx))) fun lam s3 b3 k3 => ?_
  have ha := ha.mono hJ b3
  have hb := hb.mono hJ b3
  obtain ⟨e1, e2⟩ := hl _ rfl
  generalize ((coords B).2 - (coords A).2) / ((coords B).1 - (coords A).1) = l at *
  refine runs_bind (hJ.square _ _ _ k3) fun l2 s4 b4 k4 => ?_
  have ha := ha.mono hJ b4
  have hb := hb.mono hJ b4
  have k3 := hJ.mono _ _ _ _ b4 k3
  refine runs_bind (hJ.subSub _ _ _ _ _ _ _ k4 ha.2.1 hb.2.1) fun x s5 b5 k5 => ?_
  have ha := ha.mono hJ b5
  have k3 := hJ.mono _ _ _ _ b5 k3
  refine runs_bind (hJ.sub _ _ _ _ _ ha.2.1 k5) fun t s6 b6 k6 => ?_
  have ha := ha.mono hJ b6
  have k3 := hJ.mono _ _ _ _ b6 k3
  refine runs_bind (hJ.mul _ _ _ _ _ k6 k3) fun t' s7 b7 k7 => ?_
  have ha := ha.mono hJ b7
  refine runs_bind (hJ.sub _ _ _ _ _ k7 ha.2.2) fun y s8 b8 k8 => ?_
  rw [e2] at k8
  rw [e1] at k5
  exact runs_pure ⟨hnz, hJ.mono _ _ _ _ ((b6.trans b7).trans b8) k5, k8⟩

theorem runs_addIncomplete2 {a b : P2 J} {A B : G2} (ha : IsP2 Is s a A) (hb : IsP2 Is s b B) (h1 : A ≠ B) (h2 : A ≠ -B) :
    Runs X (addIncomplete2 a b) s fun c s' => IsP2 Is s' c (A + B) := by
  obtain ⟨hx, hnz, hl⟩ := chord_coords ha.1 hb.1 h1 h2
  refine runs_bind (runs_sub2 hJ hb.2.2 ha.2.2) fun num s1 b1 k1 => ?_
  have ha := ha.mono hJ b1
  have hb := hb.mono hJ b1
  refine runs_bind (runs_sub2 hJ hb.2.1 ha.2.1) fun den s2 b2 k2 => ?_
  have ha := ha.mono hJ b2
  have hb := hb.mono hJ b2
  refine runs_bind (runs_divIncomplete2 hJ (k1.mono hJ b2) k2 (sub_ne_zero.2 (Ne.symm hx))) fun lam s3 b3 k3 => ?_
  have ha := ha.mono hJ b3
  have hb := hb.mono hJ b3
  obtain ⟨e1, e2⟩ := hl _ rfl
  generalize ((coords B).2 - (coords A).2) / ((coords B).1 - (coords A).1) = l at *
  refine runs_bind (runs_square2 hJ k3) fun l2 s4 b4 k4 => ?_
  have ha := ha.mono hJ b4
  have hb := hb.mono hJ b4
  have k3 := k3.mono hJ b4
  refine runs_bind (runs_subSub2 hJ k4 ha.2.1 hb.2.1) fun x s5 b5 k5 => ?_
  have ha := ha.mono hJ b5
  have k3 := k3.mono hJ b5
  refine runs_bind (runs_sub2 hJ ha.2.1 k5) fun t s6 b6 k6 => ?_
  have ha := ha.mono hJ b6
  have k3 := k3.mono hJ b6
  refine runs_bind (runs_mulI2 hJ k6 k3) fun t' s7 b7 k7 => ?_
  have ha := ha.mono hJ b7
  refine runs_bind (runs_sub2 hJ k7 ha.2.2) fun y s8 b8 k8 => ?_
  rw [e2] at k8
  rw [e1] at k5
  exact runs_pure ⟨hnz, k5.mono hJ ((b6.trans b7).trans b8), k8⟩

theorem lops1_complete : (lops1 (J := J)).Complete X (IsP1 Is) fun P => P ≠ 0 where
  mono _ _ _ _ hs h := h.mono hJ hs
  assignConstant s A hA := by
    refine runs_bind (R := fun _ s' => s' = s) (runs_check hA rfl) ?_
    rintro _ s' - rfl
    refine runs_bind (hJ.assignConstant _ _) fun x s1 b1 h1 => ?_
    refine runs_bind (hJ.assignConstant _ _) fun y s2 b2 h2 => ?_
    exact runs_pure ⟨hA, hJ.mono _ _ _ _ b2 h1, h2⟩
  addIncomplete s a b A B ha hb h1 h2 := runs_addIncomplete1 hJ ha hb h1 h2
  add s a b A B ha hb h1 h2 := by
    refine runs_bind (hJ.assertNotEqual _ _ _ _ _ ha.2.1 hb.2.1 (chord_coords ha.1 hb.1 h1 h2).1) fun _ s1 b1 _ => ?_
    exact runs_addIncomplete1 hJ (ha.mono hJ b1) (hb.mono hJ b1) h1 h2
  select s cond a b A B bit ha hb hc := by
    refine runs_bind (hJ.select _ _ _ _ _ _ bit ha.2.1 hb.2.1 hc) fun x s1 b1 h1 => ?_
    refine runs_bind (hJ.select _ _ _ _ _ _ bit (ha.mono hJ b1).2.2 (hb.mono hJ b1).2.2 (hc.mono b1)) fun y s2 b2 h2 => ?_
    have h1 := hJ.mono _ _ _ _ b2 h1
    refine runs_pure ?_
    cases bit
    · exact ⟨hb.1, h1, h2⟩
    · exact ⟨ha.1, h1, h2⟩

theorem lops2_complete : (lops2 (J := J)).Complete X (IsP2 Is) fun P => r • P = 0 ∧ P ≠ 0 where
  mono _ _ _ _ hs h := h.mono hJ hs
  assignConstant s A hA := by
    refine runs_bind (R := fun _ s' => s' = s) (runs_check hA.1 rfl) ?_
    rintro _ s' - rfl
    refine runs_bind (R := fun _ s1 => s1 = s') (runs_check hA.2 rfl) ?_
    rintro _ s0 - rfl
    refine runs_bind (runs_assignConstantI2 hJ _) fun x s1 b1 h1 => ?_
    refine runs_bind (runs_assignConstantI2 hJ _) fun y s2 b2 h2 => ?_
    exact runs_pure ⟨hA.2, h1.mono hJ b2, h2⟩
  addIncomplete s a b A B ha hb h1 h2 := runs_addIncomplete2 hJ ha hb h1 h2
  add s a b A B ha hb h1 h2 := by
    refine runs_bind (runs_assertNotEqual2 hJ ha.2.1 hb.2.1 (chord_coords ha.1 hb.1 h1 h2).1) fun _ s1 b1 _ => ?_
    exact runs_addIncomplete2 hJ (ha.mono hJ b1) (hb.mono hJ b1) h1 h2
  select s cond a b A B bit ha hb hc := by
    refine runs_bind (runs_selectI2 hJ ha.2.1 hb.2.1 hc) fun x s1 b1 h1 => ?_
    refine runs_bind (runs_selectI2 hJ (ha.mono hJ b1).2.2 (hb.mono hJ b1).2.2 (hc.mono b1)) fun y s2 b2 h2 => ?_
    have h1 := h1.mono hJ b2
    refine runs_pure ?_
    cases bit
    · exact ⟨hb.1, h1, h2⟩
    · exact ⟨ha.1, h1, h2⟩

end

end Verif.Layout
