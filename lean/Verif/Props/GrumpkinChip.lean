import Verif.Lemmas.GrumpkinChip

/-!
C24 and C25: Grumpkin arithmetic in the circuit.  `Spec.Holds p P` says that the pair of cells `p`
holds the affine coordinates of the finite curve point `P`; the group law is Mathlib's.
-/

namespace Verif.Props
open Verif Spec GrumpkinChip MainGate

/-! ### C24 -/

/-- An assigned point is a finite point of the curve, and every finite point can be assigned. -/
theorem C24_assign_point (p : Pt) : assignPoint p ↔ ∃ P : Gk, Holds p P := assignPoint_iff

/-- The checked addition accepts exactly the sum, and only for points of different abscissa. -/
theorem C24_add (a b c : Pt) (A B : Gk) (hA : Holds a A) (hB : Holds b B) :
    GrumpkinChip.add a b c ↔ a.1 ≠ b.1 ∧ Holds c (A + B) := add_iff hA hB

/-- Said of points: the checked addition has a witness exactly when the points are neither equal nor
opposite. -/
theorem C24_add_satisfiable (a b : Pt) (A B : Gk) (hA : Holds a A) (hB : Holds b B) :
    (∃ c, GrumpkinChip.add a b c) ↔ A ≠ B ∧ A ≠ -B := by
  simp only [add_iff hA hB, Ne, holds_x_iff hA hB, not_or]
  constructor
  · rintro ⟨c, h, _⟩; exact h
  · intro h
    exact ⟨_, h, holds_coords fun e => h.2 (eq_neg_of_add_eq_zero_left e)⟩

/-- Both doublings accept exactly the double, and always have a witness. -/
theorem C24_double (a c : Pt) (A : Gk) (hA : Holds a A) :
    (GrumpkinChip.double a c ↔ Holds c (A + A)) ∧
    (doubleIncomplete a c ↔ Holds c (A + A)) ∧ (∃ c', Holds c' (A + A)) :=
  ⟨double_iff hA, doubleIncomplete_iff hA, _, holds_coords (gk_double_ne_zero hA.1)⟩

/-- The unchecked addition is exact for points of different abscissa. -/
theorem C24_add_incomplete (a b c : Pt) (A B : Gk) (hA : Holds a A) (hB : Holds b B)
    (hx : a.1 ≠ b.1) : addIncomplete a b c ↔ Holds c (A + B) := addIncomplete_iff hA hB hx

/-- The unchecked addition has no witness for opposite points. -/
theorem C24_add_incomplete_opposite (a b c : Pt) (A : Gk) (hA : Holds a A) (hB : Holds b (-A)) :
    ¬ addIncomplete a b c := by
  rw [addIncomplete_iff_eqs]
  rintro ⟨l, _, h, _⟩
  have e : b = (a.1, -a.2) := hB.2.symm.trans (holds_neg hA).2
  subst e
  simp only [sub_self, mul_zero] at h
  have : 2 * a.2 = 0 := by linear_combination -h
  rcases mul_eq_zero.1 this with h | h
  · exact two_ne_zero_r h
  · exact holds_gk_y hA h

/-- The unchecked addition of a point to itself accepts a wrong result, whatever the point: callers
must keep the abscissas apart. -/
theorem C24_violation_add_incomplete_same_point (a : Pt) (A : Gk) :
    ∃ c, addIncomplete a a c ∧ ¬ Holds c (A + A) := by
  simp only [addIncomplete_iff_eqs]
  by_contra hcon
  push Not at hcon
  have h0 := hcon (0 ^ 2 - a.1 - a.1, 0 * (a.1 - (0 ^ 2 - a.1 - a.1)) - a.2) ⟨0, rfl, by simp, rfl⟩
  have h1 := hcon (1 ^ 2 - a.1 - a.1, 1 * (a.1 - (1 ^ 2 - a.1 - a.1)) - a.2) ⟨1, rfl, by simp, rfl⟩
  have := congrArg Prod.fst (h0.2.symm.trans h1.2)
  exact zero_ne_one (α := Fr) (by linear_combination this)

/-- Negation accepts exactly the opposite point. -/
theorem C24_neg (a c : Pt) (A : Gk) (hA : Holds a A) : GrumpkinChip.neg a c ↔ Holds c (-A) :=
  neg_iff hA

/-- Selection with a boolean cell accepts exactly the selected point. -/
theorem C24_select (s : Fr) (hs : assignBit s) (a b c : Pt) :
    GrumpkinChip.select s a b c ↔ (s = 1 ∧ c = a) ∨ (s = 0 ∧ c = b) := by
  rcases assignBit_iff.1 hs with rfl | rfl
  · have := select_iff (bit := false) (p1 := a) (p2 := b) (c := c)
    simpa [bitCell] using this
  · have := select_iff (bit := true) (p1 := a) (p2 := b) (c := c)
    simpa [bitCell] using this

/-- Equality of assigned points is equality of the points. -/
theorem C24_assert_equal (a b : Pt) (A B : Gk) (hA : Holds a A) (hB : Holds b B) :
    assertEqual a b ↔ A = B := by
  unfold assertEqual
  constructor
  · rintro ⟨h1, h2⟩
    have : a = b := Prod.ext h1 h2
    subst this; exact holds_inj hA hB
  · rintro rfl
    have : a = b := hA.2.symm.trans hB.2
    subst this; exact ⟨rfl, rfl⟩

/-- The generator is held by its coordinates, and differs in abscissa from its double: the
hypotheses of the C24 theorems are met by concrete points. -/
example : Holds (coords gk) gk ∧ Holds (coords (gk + gk)) (gk + gk) ∧
    (coords gk).1 ≠ (coords (gk + gk)).1 := by
  refine ⟨holds_coords gk_ne_zero, holds_coords (gk_double_ne_zero gk_ne_zero), ?_⟩
  rw [Ne, holds_x_iff (holds_coords gk_ne_zero) (holds_coords (gk_double_ne_zero gk_ne_zero)),
    not_or]
  constructor
  · intro e; exact gk_ne_zero (by simpa using e.symm)
  · intro e
    have h3 : 3 • gk = 0 := by
      have : 3 • gk = gk + (gk + gk) := by rw [show (3 : ℕ) = 1 + 2 from rfl, add_nsmul, two_nsmul,
        one_nsmul]
      rw [this]; nth_rewrite 1 [e]; simp
    have := addOrderOf_dvd_iff_nsmul_eq_zero.2 h3
    rw [addOrderOf_gk] at this
    exact absurd (Nat.le_of_dvd (by norm_num) this) (by decide +kernel)

/-! ### C25 -/

/-- Soundness for every auxiliary point: on-curve base and auxiliary point, negated auxiliary point,
boolean cells; then the result is the base multiplied by the integer with those bits. -/
theorem C25_mul_bits_sound (aux auxNeg p c : Pt) (bits : List Fr)
    (haux : assignPoint aux) (hneg : GrumpkinChip.neg aux auxNeg) (hp : assignPoint p)
    (hbits : ∀ b ∈ bits, assignBit b) (h : mulBits aux auxNeg p bits c) :
    ∃ (bs : List Bool) (P : Gk), bits = bs.map bitCell ∧ Holds p P ∧ Holds c (binary bs • P) := by
  obtain ⟨A, hA⟩ := assignPoint_iff.1 haux
  obtain ⟨P, hP⟩ := assignPoint_iff.1 hp
  obtain ⟨bs, rfl⟩ := bits_eq_map hbits
  exact ⟨bs, P, rfl, hP, ((mulBits_iff hA ((neg_iff hA).1 hneg) hP bs).1 h).2.2.2⟩

/-- Exactly which auxiliary points work: those for which no partial sum meets the running double up
to sign and the last subtraction is between points of different abscissa. -/
theorem C25_mul_bits_exact (aux auxNeg p c : Pt) (A P : Gk) (bs : List Bool)
    (hA : Holds aux A) (hN : Holds auxNeg (-A)) (hP : Holds p P) :
    mulBits aux auxNeg p (bs.map bitCell) c ↔
      (∀ i < bs.length, A + binary (bs.take i) • P ≠ 2 ^ i • P ∧
        A + binary (bs.take i) • P ≠ -(2 ^ i • P)) ∧
      A + binary bs • P ≠ 0 ∧ A + binary bs • P ≠ -A ∧ Holds c (binary bs • P) := by
  rw [mulBits_iff hA hN hP, good_iff]

/-- A multiple that is the point at infinity has no witness: the prover cannot use randomness that
is zero in the scalar field. -/
theorem C25_no_infinity (aux auxNeg p c : Pt) (A P : Gk) (bs : List Bool)
    (hA : Holds aux A) (hN : Holds auxNeg (-A)) (hP : Holds p P)
    (h : mulBits aux auxNeg p (bs.map bitCell) c) : ¬ q ∣ binary bs := by
  rintro ⟨k, hk⟩
  have := ((mulBits_iff hA hN hP bs).1 h).2.2.2.1
  rw [hk, mul_nsmul, q_nsmul, nsmul_zero] at this
  exact this rfl

/-- Completeness: for any list of bases there is an auxiliary point for which all the products have
a witness (one auxiliary point serves all the members of a committee). -/
theorem C25_mul_bits_complete (bs : List Bool) (Ps : List Gk) (hP : ∀ P ∈ Ps, P ≠ 0)
    (hk : ¬ q ∣ binary bs) (hlen : Ps.length * (2 * bs.length + 2) + 1 < q) :
    ∃ aux auxNeg : Pt, assignPoint aux ∧ GrumpkinChip.neg aux auxNeg ∧
      ∀ P ∈ Ps, mulBits aux auxNeg (coords P) (bs.map bitCell) (coords (binary bs • P)) := by
  obtain ⟨A, hA0, hA⟩ := exists_aux bs Ps hlen
  have hH := holds_coords hA0
  have hN := holds_neg hH
  refine ⟨coords A, _, assignPoint_iff.2 ⟨A, hH⟩, (neg_iff hH).2 hN, fun P hPm => ?_⟩
  obtain ⟨h1, h2, h3⟩ := hA P hPm
  refine (mulBits_iff hH hN (holds_coords (hP P hPm)) bs).2 ⟨h1, h2, h3, holds_coords fun e => ?_⟩
  apply hk
  have ho : addOrderOf P = q := addOrderOf_eq_prime (q_nsmul P) (hP P hPm)
  rw [← ho]; exact addOrderOf_dvd_of_nsmul_eq_zero e

/-- The hypotheses of `C25_mul_bits_complete` are met by the 254-bit digits of one and the
generator. -/
example : ∃ bs : List Bool, bs.length = 254 ∧ ¬ q ∣ binary bs ∧
    [gk].length * (2 * bs.length + 2) + 1 < q := by
  obtain ⟨bs, hl, hb⟩ := exists_binary 254 1 (by norm_num)
  refine ⟨bs, hl, ?_, ?_⟩
  · rw [hb, Nat.dvd_one]; decide +kernel
  · rw [hl]; decide +kernel

/-- The variant that takes a scalar cell is not a function of the scalar: the 254 bits of a field
element are not unique, and the Grumpkin order differs from the modulus of the native field.  Here
the product of the generator by the scalar one is satisfied by two different points.  The circuit of
the DKG does not use this variant. -/
theorem C25_violation_mul_scalar_ambiguous :
    ∃ (aux auxNeg c c' : Pt), assignPoint aux ∧ GrumpkinChip.neg aux auxNeg ∧
      mulScalar aux auxNeg (coords gk) 1 c ∧ Holds c gk ∧
      (∃ aux' auxNeg' : Pt, assignPoint aux' ∧ GrumpkinChip.neg aux' auxNeg' ∧
        mulScalar aux' auxNeg' (coords gk) 1 c') ∧ c ≠ c' := by
  have hr : r + 1 < 2 ^ 254 := by decide +kernel
  have hq1 : ¬ q ∣ 1 := by rw [Nat.dvd_one]; decide +kernel
  have hqr : ¬ q ∣ r + 1 := by
    intro h; have := Nat.le_of_dvd (by norm_num) h; revert this; decide +kernel
  have hlen : ∀ bs : List Bool, bs.length = 254 → [gk].length * (2 * bs.length + 2) + 1 < q := by
    intro bs h; rw [h]; decide +kernel
  obtain ⟨bs, hl, hb⟩ := exists_binary 254 1 (by norm_num)
  obtain ⟨bs', hl', hb'⟩ := exists_binary 254 (r + 1) hr
  obtain ⟨aux, an, h1, h2, h3⟩ := C25_mul_bits_complete bs [gk] (by simp [gk_ne_zero])
    (by rwa [hb]) (hlen bs hl)
  obtain ⟨aux', an', h1', h2', h3'⟩ := C25_mul_bits_complete bs' [gk] (by simp [gk_ne_zero])
    (by rwa [hb']) (hlen bs' hl')
  have hc : ((r : ℕ) : Fr) = 0 := ZMod.natCast_self r
  refine ⟨aux, an, coords gk, coords ((r + 1) • gk), h1, h2,
    ⟨bs.map bitCell, toBits_iff.2 ⟨bs, rfl, hl, by rw [hb, Nat.cast_one]⟩, ?_⟩,
    holds_coords gk_ne_zero,
    ⟨aux', an', h1', h2', bs'.map bitCell, toBits_iff.2 ⟨bs', rfl, hl', ?_⟩, ?_⟩, ?_⟩
  · have := h3 gk (by simp)
    rwa [hb, one_nsmul] at this
  · rw [hb', Nat.cast_add, hc, zero_add, Nat.cast_one]
  · have := h3' gk (by simp)
    rwa [hb'] at this
  · intro e
    have hne : (r + 1) • gk ≠ 0 := by
      intro e; apply hqr; rw [← addOrderOf_gk]; exact addOrderOf_dvd_of_nsmul_eq_zero e
    have hl := holds_coords gk_ne_zero
    rw [e] at hl
    have he : gk = (r + 1) • gk := holds_inj hl (holds_coords hne)
    rw [add_nsmul, one_nsmul] at he
    have hrg : r • gk = 0 := by simpa using he.symm
    have := addOrderOf_dvd_of_nsmul_eq_zero hrg
    rw [addOrderOf_gk] at this
    revert this; decide +kernel

/-! ### Concrete cases -/

private theorem nsmul_ne {a b : ℕ} (ha : a < q) (hb : b < q) (h : a ≠ b) : a • gk ≠ b • gk := by
  intro e
  rw [← Nat.cast_smul_eq_nsmul Fq, ← Nat.cast_smul_eq_nsmul Fq b, ← sub_eq_zero, ← sub_smul] at e
  rcases smul_eq_zero.1 e with e | e
  · have := (ZMod.natCast_eq_natCast_iff' a b q).1 (sub_eq_zero.1 e)
    rw [Nat.mod_eq_of_lt ha, Nat.mod_eq_of_lt hb] at this
    exact h this
  · exact gk_ne_zero e

/-- `C24_add`, `C24_add_satisfiable`, `C24_add_incomplete`: one plus two is three. -/
example : GrumpkinChip.add (coords gk) (coords (2 • gk)) (coords (3 • gk)) ∧
    addIncomplete (coords gk) (coords (2 • gk)) (coords (3 • gk)) := by
  have h1 : Holds (coords gk) gk := holds_coords gk_ne_zero
  have n0 : ∀ k : ℕ, 0 < k → k < q → k • gk ≠ 0 := fun k h0 hk => by
    have := nsmul_ne (b := 0) hk (by decide +kernel) (by omega)
    rwa [zero_nsmul] at this
  have h2 : Holds (coords (2 • gk)) (2 • gk) := holds_coords (n0 2 (by norm_num) (by decide +kernel))
  have h3 : Holds (coords (3 • gk)) (gk + 2 • gk) := by
    rw [show gk + 2 • gk = 3 • gk from (succ_nsmul' gk 2).symm]
    exact holds_coords (n0 3 (by norm_num) (by decide +kernel))
  have hx : (coords gk).1 ≠ (coords (2 • gk)).1 := by
    rw [Ne, holds_x_iff h1 h2, not_or]
    refine ⟨fun e => nsmul_ne (a := 1) (b := 2) (by decide +kernel) (by decide +kernel) (by norm_num)
      (by rw [one_nsmul]; exact e), fun e => n0 3 (by norm_num) (by decide +kernel) ?_⟩
    rw [succ_nsmul' gk 2]
    nth_rewrite 1 [e]
    exact neg_add_cancel _
  exact ⟨(C24_add _ _ _ _ _ h1 h2).2 ⟨hx, h3⟩, (C24_add_incomplete _ _ _ _ _ h1 h2 hx).2 h3⟩

/-- `C24_double`, `C24_neg`, `C24_select`, `C24_add_incomplete_opposite`: the doubled generator, its opposite, a
choice between the two, and no incomplete sum of the two. -/
example : GrumpkinChip.double (coords gk) (coords (gk + gk)) ∧ GrumpkinChip.neg (coords gk) (coords (-gk)) ∧
    GrumpkinChip.select 1 (coords gk) (coords (-gk)) (coords gk) ∧
    ∀ c, ¬ addIncomplete (coords gk) (coords (-gk)) c := by
  have h1 : Holds (coords gk) gk := holds_coords gk_ne_zero
  have hn : Holds (coords (-gk)) (-gk) := holds_coords (neg_ne_zero.2 gk_ne_zero)
  refine ⟨(C24_double _ _ _ h1).1.2 (holds_coords (gk_double_ne_zero gk_ne_zero)), (C24_neg _ _ _ h1).2 hn,
    (C24_select 1 ?_ _ _ _).2 (Or.inl ⟨rfl, rfl⟩), fun c => C24_add_incomplete_opposite _ _ _ _ h1 hn⟩
  exact assignBit_iff.2 (Or.inr rfl)

/-- `C25_mul_bits_sound`, `C25_mul_bits_exact`, `C25_no_infinity`: the bits of 6 and the generator. -/
example : ∃ aux auxNeg : Pt, assignPoint aux ∧ GrumpkinChip.neg aux auxNeg ∧
    mulBits aux auxNeg (coords gk) ([false, true, true].map bitCell) (coords (6 • gk)) ∧
    Holds (coords (6 • gk)) (6 • gk) ∧ ¬ q ∣ 6 := by
  have hb : binary [false, true, true] = 6 := by decide
  obtain ⟨aux, auxNeg, h1, h2, h3⟩ := C25_mul_bits_complete [false, true, true] [gk]
    (by intro P hP; rw [List.mem_singleton.1 hP]; exact gk_ne_zero) (by rw [hb]; decide +kernel) (by decide +kernel)
  have h := h3 gk (List.mem_singleton_self _)
  rw [hb] at h
  obtain ⟨A, hA⟩ := (C24_assign_point aux).1 h1
  have hi := C25_no_infinity aux auxNeg (coords gk) _ A gk [false, true, true] hA ((C24_neg aux auxNeg A hA).1 h2)
    (holds_coords gk_ne_zero) h
  rw [hb] at hi
  refine ⟨aux, auxNeg, h1, h2, h, ?_, hi⟩
  have := ((C25_mul_bits_exact aux auxNeg (coords gk) _ A gk [false, true, true] hA
    ((C24_neg aux auxNeg A hA).1 h2) (holds_coords gk_ne_zero)).1 h).2.2.2
  rwa [hb] at this

end Verif.Props
