import Verif.Model.GrumpkinChip
import Verif.Spec.Circuit
import Verif.Lemmas.ShortW
import Verif.Lemmas.GroupOrder

namespace Verif
open WeierstrassCurve WeierstrassCurve.Affine Spec

section generic
variable {F : Type*} [Field F] {b : F}

theorem holds_iff {p : F × F} {P : (shortW b).Point} :
    Holds p P ↔ ∃ h : (shortW b).Nonsingular p.1 p.2, P = Point.some p.1 p.2 h := by
  constructor
  · rintro ⟨h0, h⟩
    cases P with
    | zero => exact absurd rfl h0
    | some x y hn => subst h; exact ⟨hn, rfl⟩
  · rintro ⟨h, rfl⟩
    exact ⟨Point.some_ne_zero h, rfl⟩

theorem holds_inj {p : F × F} {P Q : (shortW b).Point} (h : Holds p P) (h' : Holds p Q) : P = Q := by
  obtain ⟨_, rfl⟩ := holds_iff.1 h
  obtain ⟨_, rfl⟩ := holds_iff.1 h'
  rfl

theorem holds_coords {P : (shortW b).Point} (h : P ≠ 0) : Holds (coords P) P := ⟨h, rfl⟩

theorem holds_neg {p : F × F} {P : (shortW b).Point} (h : Holds p P) : Holds (p.1, -p.2) (-P) := by
  obtain ⟨hn, rfl⟩ := holds_iff.1 h
  obtain ⟨h', e⟩ := shortW_neg_some hn
  rw [e]; exact holds_iff.2 ⟨h', rfl⟩

theorem holds_x_iff {p p' : F × F} {P P' : (shortW b).Point} (h : Holds p P) (h' : Holds p' P') :
    p.1 = p'.1 ↔ P = P' ∨ P = -P' := by
  constructor
  · intro hx
    obtain ⟨hn, hP⟩ := holds_iff.1 h
    obtain ⟨hn', hP'⟩ := holds_iff.1 h'
    have e1 := (shortW_equation_iff _ _).1 hn.1
    have e2 := (shortW_equation_iff _ _).1 hn'.1
    rw [hx] at e1
    rcases sq_eq_sq_iff_eq_or_eq_neg.1 (e1.trans e2.symm) with hy | hy
    · left
      have : p = p' := Prod.ext hx hy
      subst this; exact holds_inj h h'
    · right
      have : p = (p'.1, -p'.2) := Prod.ext hx hy
      exact holds_inj h (this ▸ holds_neg h')
  · rintro (rfl | rfl)
    · exact congrArg Prod.fst (h.2.symm.trans h'.2)
    · have e : coords (-P') = (p'.1, -p'.2) := (holds_neg h').2
      have e' : p = (p'.1, -p'.2) := h.2.symm.trans e
      rw [e']

variable [DecidableEq F]

/-- Chord addition in terms of coordinates. -/
theorem chord_holds {p p' c : F × F} {P P' : (shortW b).Point} (h : Holds p P) (h' : Holds p' P')
    (hx : p.1 ≠ p'.1) {l : F} (hl : l * (p.1 - p'.1) = p.2 - p'.2)
    (hx3 : c.1 = l ^ 2 - p.1 - p'.1) (hy3 : c.2 = l * (p.1 - c.1) - p.2) : Holds c (P + P') := by
  obtain ⟨hn, rfl⟩ := holds_iff.1 h
  obtain ⟨hn', rfl⟩ := holds_iff.1 h'
  obtain ⟨h3, e⟩ := shortW_add_chord hn hn' hx hl hx3 hy3
  rw [e]; exact holds_iff.2 ⟨h3, rfl⟩

theorem double_holds {p c : F × F} {P : (shortW b).Point} (h : Holds p P)
    (hy : 2 * p.2 ≠ 0) {l : F} (hl : l * (2 * p.2) = 3 * p.1 ^ 2)
    (hx3 : c.1 = l ^ 2 - p.1 - p.1) (hy3 : c.2 = l * (p.1 - c.1) - p.2) : Holds c (P + P) := by
  obtain ⟨hn, rfl⟩ := holds_iff.1 h
  obtain ⟨h3, e⟩ := shortW_double hn hy hl hx3 hy3
  rw [e]; exact holds_iff.2 ⟨h3, rfl⟩

end generic

theorem holds_gk_iff {p : Fr × Fr} : (∃ P : Gk, Holds p P) ↔ p.2 ^ 2 = p.1 ^ 3 + -17 := by
  rw [← gk_nonsingular_iff]
  constructor
  · rintro ⟨P, h⟩; exact (holds_iff.1 h).1
  · intro h; exact ⟨_, holds_iff.2 ⟨h, rfl⟩⟩

theorem holds_gk_y {p : Fr × Fr} {P : Gk} (h : Holds p P) : p.2 ≠ 0 :=
  gk_y_ne_zero (holds_gk_iff.1 ⟨P, h⟩)

namespace GrumpkinChip
open MainGate

theorem three_over_two : THREE_OVER_TWO * 2 = 3 := by
  unfold THREE_OVER_TWO
  have h : ((0xa1f0fac9f8000002 + 2 ^ 64 * (0x9419f4243cdcb848 + 2 ^ 64 *
    (0xdc2822db40c0ac2e + 2 ^ 64 * 0x183227397098d014)) : ℕ) * 2) % r = 3 % r := by decide +kernel
  have := (ZMod.natCast_eq_natCast_iff _ _ r).2 h
  push_cast at this ⊢
  exact this

attribute [local simp] apply cell toMul toAdd toSub Comb.ab Comb.cd Comb.next

theorem mulSub_iff {a b c d : Fr} : mulSub a b c d ↔ d = a * b - c := by
  unfold mulSub; simp
  constructor <;> intro h <;> linear_combination -h

theorem mulSubSub_iff {a b c d e : Fr} : mulSubSub a b c d e ↔ e = a * b - c - d := by
  unfold mulSubSub; simp
  constructor <;> intro h <;> linear_combination -h

theorem subInvertUnsafe_iff {a b c : Fr} : subInvertUnsafe a b c ↔ (a - b) * c = 1 := by
  unfold subInvertUnsafe; simp
  constructor <;> intro h <;> linear_combination h

theorem subMul_iff {a b c d : Fr} : subMul a b c d ↔ d = (a - b) * c := by
  unfold subMul; simp
  constructor <;> intro h <;> linear_combination -h

theorem scaleMul_iff {s a b c e : Fr} : scaleMul s a b c e ↔ c = s * (a * b) := by
  unfold scaleMul; simp
  constructor <;> intro h <;> linear_combination -h

theorem lambdaDoubleUnsafe_iff {a : Pt} {l : Fr} :
    lambdaDoubleUnsafe a l ↔ l * a.2 = THREE_OVER_TWO * a.1 ^ 2 := by
  unfold lambdaDoubleUnsafe; simp
  constructor <;> intro h <;> linear_combination h

theorem add_gate_iff {a b c : Fr} : MainGate.add a b c ↔ c = a + b := by
  unfold MainGate.add; simp
  constructor <;> intro h <;> linear_combination -h
theorem sub_gate_iff {a b c : Fr} : MainGate.sub a b c ↔ c = a - b := by
  unfold MainGate.sub; simp
  constructor <;> intro h <;> linear_combination -h
theorem mul_gate_iff {a b c : Fr} : MainGate.mul a b c ↔ c = a * b := by
  unfold MainGate.mul; simp
  constructor <;> intro h <;> linear_combination -h
theorem mulAdd_iff {a b c d : Fr} : MainGate.mulAdd a b c d ↔ d = a * b + c := by
  unfold MainGate.mulAdd; simp
  constructor <;> intro h <;> linear_combination -h
theorem addConstant_iff {a k c : Fr} : addConstant a k c ↔ c = a + k := by
  unfold addConstant; simp
  constructor <;> intro h <;> linear_combination -h
theorem negWithConstant_iff {a k c : Fr} : negWithConstant a k c ↔ c = k - a := by
  unfold negWithConstant; simp
  constructor <;> intro h <;> linear_combination -h
theorem assignConstant_gate_iff {k c : Fr} : MainGate.assignConstant k c ↔ c = k := by
  unfold MainGate.assignConstant; simp
  constructor <;> intro h <;> linear_combination -h
theorem invertUnsafe_iff {a c : Fr} : invertUnsafe a c ↔ a * c = 1 := by
  unfold invertUnsafe; simp
  constructor <;> intro h <;> linear_combination h
theorem select_gate_iff {a b s c : Fr} : MainGate.select a b s c ↔ c = s * (a - b) + b := by
  unfold MainGate.select; simp
  constructor <;> intro h <;> linear_combination -h
theorem assignBit_iff {b : Fr} : assignBit b ↔ b = 0 ∨ b = 1 := by
  unfold assignBit; simp
  constructor
  · intro h
    have : b * (b - 1) = 0 := by linear_combination h
    rcases mul_eq_zero.1 this with h | h
    · exact .inl h
    · exact .inr (sub_eq_zero.1 h)
  · rintro (rfl | rfl) <;> ring

theorem bits_eq_map {bits : List Fr} (h : ∀ b ∈ bits, assignBit b) :
    ∃ bs : List Bool, bits = bs.map bitCell := by
  induction bits with
  | nil => exact ⟨[], rfl⟩
  | cons b bits ih =>
    obtain ⟨bs, rfl⟩ := ih fun b hb => h b (List.mem_cons_of_mem _ hb)
    rcases assignBit_iff.1 (h b List.mem_cons_self) with rfl | rfl
    · exact ⟨false :: bs, rfl⟩
    · exact ⟨true :: bs, rfl⟩

theorem assignBit_bitCell (b : Bool) : assignBit (bitCell b) := by
  rw [assignBit_iff]; cases b <;> simp [bitCell]

theorem foldr_bitCell (bs : List Bool) :
    (bs.map bitCell).foldr (fun b acc => b + 2 * acc) 0 = ((binary bs : ℕ) : Fr) := by
  induction bs with
  | nil => simp [binary]
  | cons b bs ih => rw [List.map_cons, List.foldr_cons, ih]; cases b <;> simp [binary, bitCell]

theorem toBits_iff {v : Fr} {n : ℕ} {bits : List Fr} :
    toBits v n bits ↔ ∃ bs : List Bool, bits = bs.map bitCell ∧ bs.length = n ∧
      ((binary bs : ℕ) : Fr) = v := by
  constructor
  · rintro ⟨hl, hb, hv⟩
    obtain ⟨bs, rfl⟩ := bits_eq_map hb
    exact ⟨bs, rfl, by simpa using hl, by rw [← hv, foldr_bitCell]⟩
  · rintro ⟨bs, rfl, hl, hv⟩
    refine ⟨by simpa using hl, ?_, by rw [foldr_bitCell, hv]⟩
    intro b hb
    obtain ⟨b', _, rfl⟩ := List.mem_map.1 hb
    exact assignBit_bitCell b'

theorem assertIsOnCurve_iff {p : Pt} : assertIsOnCurve p ↔ p.2 ^ 2 = p.1 ^ 3 + -17 := by
  unfold assertIsOnCurve
  simp only [mul_gate_iff, addConstant_iff, curveB]
  constructor
  · rintro ⟨_, _, _, _, rfl, rfl, rfl, rfl, h⟩; linear_combination h
  · intro h; exact ⟨_, _, _, _, rfl, rfl, rfl, rfl, by linear_combination h⟩

theorem assignPoint_iff {p : Pt} : assignPoint p ↔ ∃ P : Gk, Holds p P := by
  rw [assignPoint, assertIsOnCurve_iff, holds_gk_iff]

theorem neg_iff {p c : Pt} {P : Gk} (hP : Holds p P) : neg p c ↔ Holds c (-P) := by
  unfold neg
  rw [negWithConstant_iff]
  have hn := holds_neg hP
  constructor
  · rintro ⟨h2, h1⟩
    have : c = (p.1, -p.2) := Prod.ext h1 (by rw [h2]; ring)
    rw [this]; exact hn
  · intro h
    have : c = (p.1, -p.2) := h.2.symm.trans hn.2
    rw [this]; exact ⟨by ring, rfl⟩

theorem add_iff {a b c : Pt} {A B : Gk} (hA : Holds a A) (hB : Holds b B) :
    add a b c ↔ a.1 ≠ b.1 ∧ Holds c (A + B) := by
  unfold add
  simp only [subInvertUnsafe_iff, subMul_iff, mulSubSub_iff, sub_gate_iff, mulSub_iff]
  have key : ∀ inv : Fr, (a.1 - b.1) * inv = 1 → a.1 ≠ b.1 := by
    intro inv h e; rw [e, sub_self, zero_mul] at h; exact zero_ne_one h
  constructor
  · rintro ⟨inv, l, s, hi, rfl, hc1, rfl, hc2⟩
    refine ⟨key _ hi, ?_⟩
    refine chord_holds hA hB (key _ hi) (l := (a.2 - b.2) * inv) ?_ ?_ hc2
    · linear_combination (a.2 - b.2) * hi
    · rw [hc1]; ring
  · rintro ⟨hx, hc⟩
    have hd : a.1 - b.1 ≠ 0 := sub_ne_zero.2 hx
    obtain ⟨inv, hi⟩ : ∃ inv : Fr, (a.1 - b.1) * inv = 1 := ⟨_, mul_inv_cancel₀ hd⟩
    let l := (a.2 - b.2) * inv
    let c' : Pt := (l ^ 2 - a.1 - b.1, l * (a.1 - (l ^ 2 - a.1 - b.1)) - a.2)
    have h' : Holds c' (A + B) :=
      chord_holds hA hB hx (l := l) (by simp only [l]; linear_combination (a.2 - b.2) * hi) rfl rfl
    have e : c = c' := hc.2.symm.trans h'.2
    refine ⟨inv, l, a.1 - c.1, hi, rfl, ?_, rfl, ?_⟩
    · rw [e]; simp only [c']; ring
    · rw [e]

theorem doubleIncomplete_iff {a c : Pt} {A : Gk} (hA : Holds a A) :
    doubleIncomplete a c ↔ Holds c (A + A) := by
  unfold doubleIncomplete
  simp only [lambdaDoubleUnsafe_iff, mulSubSub_iff, sub_gate_iff, mulSub_iff]
  have hy := holds_gk_y hA
  have h2y : 2 * a.2 ≠ 0 := mul_ne_zero two_ne_zero_r hy
  have h32 := three_over_two
  generalize THREE_OVER_TWO = k at *
  constructor
  · rintro ⟨l, s, hl, hc1, rfl, hc2⟩
    refine double_holds hA h2y (l := l) ?_ ?_ hc2
    · linear_combination 2 * hl + a.1 ^ 2 * h32
    · rw [hc1]; ring
  · intro hc
    obtain ⟨l, hl⟩ : ∃ l : Fr, l * a.2 = k * a.1 ^ 2 := ⟨k * a.1 ^ 2 / a.2, div_mul_cancel₀ _ hy⟩
    have h' : Holds (l ^ 2 - a.1 - a.1, l * (a.1 - (l ^ 2 - a.1 - a.1)) - a.2) (A + A) :=
      double_holds hA h2y (l := l) (by linear_combination 2 * hl + a.1 ^ 2 * h32) rfl rfl
    have e := hc.2.symm.trans h'.2
    refine ⟨l, a.1 - c.1, hl, ?_, rfl, ?_⟩
    · rw [e]; ring
    · rw [e]

theorem double_iff {a c : Pt} {A : Gk} (hA : Holds a A) : double a c ↔ Holds c (A + A) := by
  rw [← doubleIncomplete_iff hA]
  unfold double doubleIncomplete
  simp only [lambdaDoubleUnsafe_iff, mulSubSub_iff, sub_gate_iff, mulSub_iff, scaleMul_iff,
    invertUnsafe_iff, mul_gate_iff]
  have hy := holds_gk_y hA
  constructor
  · rintro ⟨num, inv, l, s, _, rfl, hi, rfl, hc1, rfl, hc2⟩
    exact ⟨_, _, by linear_combination THREE_OVER_TWO * a.1 ^ 2 * hi, hc1, rfl, hc2⟩
  · rintro ⟨l, s, hl, hc1, rfl, hc2⟩
    refine ⟨_, a.2⁻¹, l, _, 0, rfl, mul_inv_cancel₀ hy, ?_, hc1, rfl, hc2⟩
    have := congrArg (· * a.2⁻¹) hl
    simp only [mul_assoc, mul_inv_cancel₀ hy, mul_one] at this
    rw [this]; ring

theorem addIncomplete_iff_eqs {a b c : Pt} : addIncomplete a b c ↔
    ∃ l, c.1 = l ^ 2 - a.1 - b.1 ∧ l * (a.1 - b.1) = a.2 - b.2 ∧ c.2 = l * (a.1 - c.1) - a.2 := by
  unfold addIncomplete
  simp only [mulSub_iff]
  simp
  constructor
  · rintro ⟨l, h1, h2, h3⟩
    exact ⟨l, by linear_combination -h1, by linear_combination -h2, by linear_combination h3⟩
  · rintro ⟨l, h1, h2, h3⟩
    exact ⟨l, by linear_combination -h1, by linear_combination -h2, by linear_combination h3⟩

theorem addIncomplete_iff {a b c : Pt} {A B : Gk} (hA : Holds a A) (hB : Holds b B)
    (hx : a.1 ≠ b.1) : addIncomplete a b c ↔ Holds c (A + B) := by
  rw [addIncomplete_iff_eqs]
  constructor
  · rintro ⟨l, h1, h2, h3⟩
    exact chord_holds hA hB hx h2 h1 h3
  · intro hc
    have hd : a.1 - b.1 ≠ 0 := sub_ne_zero.2 hx
    obtain ⟨l, hl⟩ : ∃ l : Fr, l * (a.1 - b.1) = a.2 - b.2 := ⟨_, div_mul_cancel₀ _ hd⟩
    have h' : Holds (l ^ 2 - a.1 - b.1, l * (a.1 - (l ^ 2 - a.1 - b.1)) - a.2) (A + B) :=
      chord_holds hA hB hx hl rfl rfl
    have e := hc.2.symm.trans h'.2
    exact ⟨l, by rw [e], hl, by rw [e]⟩

theorem select_iff {bit : Bool} {p1 p2 c : Pt} :
    select (bitCell bit) p1 p2 c ↔ c = if bit then p1 else p2 := by
  unfold select
  simp only [select_gate_iff]
  constructor
  · rintro ⟨h1, h2⟩
    apply Prod.ext
    · rw [h1]; cases bit <;> simp [bitCell]
    · rw [h2]; cases bit <;> simp [bitCell]
  · rintro rfl
    cases bit <;> simp [bitCell]

theorem gk_double_ne_zero {P : Gk} (h : P ≠ 0) : P + P ≠ 0 := by
  intro h2
  apply h
  have hq := q_nsmul P
  have e : q • P = ((q - 1) / 2) • (P + P) + P := by
    have : q = (q - 1) / 2 * 2 + 1 := by decide +kernel
    conv_lhs => rw [this]
    rw [add_nsmul, mul_nsmul', two_nsmul, one_nsmul]
  rw [e, h2, nsmul_zero, zero_add] at hq
  exact hq

/-- Every addition of the loop is between points of different abscissa. -/
def good : List Bool → Gk → Gk → Prop
  | [], _, _ => True
  | b :: bs, R, D => (R ≠ D ∧ R ≠ -D) ∧ good bs (if b then R + D else R) (D + D)

theorem good_iff (bs : List Bool) : ∀ R D : Gk, good bs R D ↔ ∀ i < bs.length,
    R + binary (bs.take i) • D ≠ 2 ^ i • D ∧ R + binary (bs.take i) • D ≠ -(2 ^ i • D) := by
  induction bs with
  | nil => intro R D; simp [good]
  | cons b bs ih =>
    intro R D
    rw [good, ih]
    have hstep : ∀ i, R + binary ((b :: bs).take (i + 1)) • D =
        (if b then R + D else R) + binary (bs.take i) • (D + D) := by
      intro i
      rw [List.take_succ_cons, binary, ← two_nsmul D, ← mul_nsmul', mul_comm 2, add_nsmul]
      cases b
      · simp
      · simp [add_assoc]
    have hpow : ∀ i, 2 ^ (i + 1) • D = 2 ^ i • (D + D) := by
      intro i; rw [pow_succ, mul_nsmul', two_nsmul]
    constructor
    · rintro ⟨h0, h⟩ i hi
      cases i with
      | zero => simpa [binary] using h0
      | succ i =>
        rw [hstep, hpow]
        exact h i (by simpa using hi)
    · intro h
      refine ⟨by simpa [binary] using h 0 (by simp), fun i hi => ?_⟩
      have := h (i + 1) (by simpa using hi)
      rwa [hstep, hpow] at this

theorem mulBitsLoop_iff (bs : List Bool) : ∀ {res dbl final : Pt} {R D : Gk}, Holds res R →
    Holds dbl D → (mulBitsLoop (bs.map bitCell) res dbl final ↔
      good bs R D ∧ Holds final (R + binary bs • D)) := by
  induction bs with
  | nil =>
    intro res dbl final R D hR hD
    simp only [List.map_nil, mulBitsLoop, good, true_and, binary, zero_nsmul, add_zero]
    constructor
    · rintro rfl; exact hR
    · intro h; exact h.2.symm.trans hR.2
  | cons b bs ih =>
    intro res dbl final R D hR hD
    rw [List.map_cons, mulBitsLoop, good]
    have hx : res.1 ≠ dbl.1 ↔ R ≠ D ∧ R ≠ -D := by
      rw [Ne, holds_x_iff hR hD, not_or]
    have hsum : R + binary (b :: bs) • D = (if b then R + D else R) + binary bs • (D + D) := by
      rw [binary, ← two_nsmul D, ← mul_nsmul', mul_comm, add_nsmul]
      cases b
      · simp
      · simp [add_assoc]
    rw [hsum]
    constructor
    · rintro ⟨t, res', dbl', ha, hs, hd, hl⟩
      obtain ⟨hx', ht⟩ := (add_iff hR hD).1 ha
      rw [select_iff] at hs
      have hd' := (doubleIncomplete_iff hD).1 hd
      have hR' : Holds res' (if b then R + D else R) := by
        rw [hs]; cases b
        · exact hR
        · exact ht
      obtain ⟨hg, hf⟩ := (ih hR' hd').1 hl
      exact ⟨⟨hx.1 hx', hg⟩, hf⟩
    · rintro ⟨⟨hne, hg⟩, hf⟩
      have hsne : R + D ≠ 0 := fun e => hne.2 (eq_neg_of_add_eq_zero_left e)
      have ht : Holds (coords (R + D)) (R + D) := holds_coords hsne
      have hdd := holds_coords (gk_double_ne_zero hD.1)
      have hR' : Holds (if b then coords (R + D) else res) (if b then R + D else R) := by
        cases b
        · exact hR
        · exact ht
      exact ⟨coords (R + D), _, coords (D + D), (add_iff hR hD).2 ⟨hx.2 hne, ht⟩,
        select_iff.2 rfl, (doubleIncomplete_iff hD).2 hdd, (ih hR' hdd).2 ⟨hg, hf⟩⟩

theorem mulBits_iff {aux auxNeg p c : Pt} {A P : Gk} (hA : Holds aux A) (hN : Holds auxNeg (-A))
    (hP : Holds p P) (bs : List Bool) :
    mulBits aux auxNeg p (bs.map bitCell) c ↔
      good bs A P ∧ A + binary bs • P ≠ 0 ∧ A + binary bs • P ≠ -A ∧
        Holds c (binary bs • P) := by
  unfold mulBits
  simp only [mulBitsLoop_iff bs hA hP]
  constructor
  · rintro ⟨res, ⟨hg, hr⟩, ha⟩
    obtain ⟨hx, hc⟩ := (add_iff hr hN).1 ha
    rw [Ne, holds_x_iff hr hN, not_or] at hx
    refine ⟨hg, hr.1, hx.1, ?_⟩
    convert hc using 1; abel
  · rintro ⟨hg, h0, h1, hc⟩
    have hr := holds_coords h0
    refine ⟨_, ⟨hg, hr⟩, (add_iff hr hN).2 ⟨?_, ?_⟩⟩
    · rw [Ne, holds_x_iff hr hN, not_or]
      refine ⟨h1, ?_⟩
      rw [neg_neg]
      intro e
      exact hc.1 (by simpa using e)
    · convert hc using 1; abel

/-- The auxiliary points that break one multiplication. -/
noncomputable def badAux (bs : List Bool) (P : Gk) : List Gk :=
  (List.range bs.length).flatMap (fun i =>
    [2 ^ i • P - binary (bs.take i) • P, -(2 ^ i • P) - binary (bs.take i) • P]) ++
  [-(binary bs • P), ((q + 1) / 2) • (-(binary bs • P))]

theorem badAux_length (bs : List Bool) (P : Gk) : (badAux bs P).length = 2 * bs.length + 2 := by
  unfold badAux
  rw [List.length_append, List.length_flatMap]
  simp [mul_comm]

theorem half_double (A X : Gk) (h : A + A = X) : A = ((q + 1) / 2) • X := by
  have e : (q + 1) / 2 * 2 = q + 1 := by decide +kernel
  rw [← h, ← two_nsmul, ← mul_nsmul', e, add_nsmul, q_nsmul, one_nsmul, zero_add]

theorem good_of_not_bad {bs : List Bool} {P A : Gk} (h : A ∉ badAux bs P) :
    good bs A P ∧ A + binary bs • P ≠ 0 ∧ A + binary bs • P ≠ -A := by
  unfold badAux at h
  rw [List.mem_append, not_or, List.mem_flatMap] at h
  obtain ⟨h1, h2⟩ := h
  simp only [List.mem_cons, List.not_mem_nil, or_false, not_or] at h2
  refine ⟨(good_iff _ _ _).2 fun i hi => ⟨fun e => h1 ?_, fun e => h1 ?_⟩, fun e => h2.1 ?_,
    fun e => h2.2 (half_double _ _ ?_)⟩
  · exact ⟨i, List.mem_range.2 hi, by
      rw [← e, add_sub_cancel_right]; exact List.mem_cons_self⟩
  · exact ⟨i, List.mem_range.2 hi, by
      rw [← e, add_sub_cancel_right]; exact List.mem_cons_of_mem _ List.mem_cons_self⟩
  · exact eq_neg_of_add_eq_zero_left e
  · have : A + A = (A + binary bs • P - -A) - binary bs • P := by abel
    rw [this, e]; abel

/-- Some auxiliary point works for all the bases at once. -/
theorem exists_aux (bs : List Bool) (Ps : List Gk)
    (hlen : Ps.length * (2 * bs.length + 2) + 1 < q) :
    ∃ A : Gk, A ≠ 0 ∧ ∀ P ∈ Ps,
      good bs A P ∧ A + binary bs • P ≠ 0 ∧ A + binary bs • P ≠ -A := by
  classical
  by_contra hcon
  push Not at hcon
  let L : List Gk := 0 :: Ps.flatMap (badAux bs)
  have hall : ∀ A : Gk, A ∈ L := by
    intro A
    by_contra hA
    simp only [L, List.mem_cons, not_or, List.mem_flatMap, not_exists, not_and] at hA
    obtain ⟨P, hP, hbad⟩ := hcon A hA.1
    obtain ⟨h1, h2, h3⟩ := good_of_not_bad (hA.2 P hP)
    exact h3 (hbad h1 h2)
  have hl : L.length = Ps.length * (2 * bs.length + 2) + 1 := by
    simp only [L, List.length_cons, List.length_flatMap, badAux_length]
    simp
  have hc : Nat.card Gk ≤ L.length := by
    have hu : (Set.univ : Set Gk) ⊆ (L.toFinset : Set Gk) := fun A _ => by
      simpa using hall A
    have h1 := Set.ncard_le_ncard hu (Finset.finite_toSet _)
    rw [Set.ncard_univ, Set.ncard_coe_finset] at h1
    exact h1.trans (List.toFinset_card_le _)
  rw [card_Gk, hl] at hc
  omega

theorem exists_binary : ∀ (n k : ℕ), k < 2 ^ n → ∃ bs : List Bool, bs.length = n ∧ binary bs = k
  | 0, k, h => ⟨[], rfl, by simp at h; simp [binary, h]⟩
  | n + 1, k, h => by
    obtain ⟨bs, hl, hb⟩ := exists_binary n (k / 2) (by rw [pow_succ] at h; omega)
    refine ⟨decide (k % 2 = 1) :: bs, by simp [hl], ?_⟩
    rw [binary, hb]
    by_cases h1 : k % 2 = 1
    · simp [h1]; omega
    · simp [h1]; omega

theorem binary_lt (bs : List Bool) : binary bs < 2 ^ bs.length := by
  induction bs with
  | nil => simp [binary]
  | cons b bs ih =>
    rw [binary, List.length_cons, pow_succ]
    cases b <;> simp <;> omega

end GrumpkinChip
end Verif
