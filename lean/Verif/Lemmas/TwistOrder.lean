import Verif.Model.Twist
import Mathlib.GroupTheory.Sylow

/-!
The order-`r` subgroup of the twist: the generator has order `r` and every point killed by `r`
is one of its multiples.
-/

namespace Verif
open WeierstrassCurve WeierstrassCurve.Affine

/-! ### Number pairs representing `Fq2` -/

/-- Cast a pair of numbers to `Fq2`. -/
def c2 (a : ℕ × ℕ) : Fq2 := ⟨(a.1 : Fq), (a.2 : Fq)⟩

def add2N (a b : ℕ × ℕ) : ℕ × ℕ := ((a.1 + b.1) % q, (a.2 + b.2) % q)
def neg2N (a : ℕ × ℕ) : ℕ × ℕ := ((q - a.1 % q) % q, (q - a.2 % q) % q)
def mul2N (a b : ℕ × ℕ) : ℕ × ℕ :=
  ((a.1 * b.1 + (q - a.2 * b.2 % q)) % q, (a.1 * b.2 + a.2 * b.1) % q)
/-- Candidate inverse; its correctness is checked where it is used. -/
def inv2N (a : ℕ × ℕ) : ℕ × ℕ :=
  let n := powMod ((a.1 * a.1 + a.2 * a.2) % q) (q - 2) q
  (a.1 * n % q, (q - a.2 * n % q) % q)

theorem cast_q_sub_mod (n : ℕ) : ((q - n % q : ℕ) : Fq) = -(n : Fq) := by
  rw [cast_sub_le (Nat.mod_lt _ prime_q.pos).le, ZMod.natCast_mod]

theorem c2_add (a b : ℕ × ℕ) : c2 (add2N a b) = c2 a + c2 b := by
  apply QuadraticAlgebra.ext <;> simp [c2, add2N]

theorem c2_neg (a : ℕ × ℕ) : c2 (neg2N a) = -c2 a := by
  apply QuadraticAlgebra.ext <;> simp [c2, neg2N, cast_q_sub_mod]

theorem c2_mul (a b : ℕ × ℕ) : c2 (mul2N a b) = c2 a * c2 b := by
  apply QuadraticAlgebra.ext <;> simp [c2, mul2N, cast_q_sub_mod]

theorem c2_eq_iff (a b : ℕ × ℕ) : c2 a = c2 b ↔ a.1 % q = b.1 % q ∧ a.2 % q = b.2 % q := by
  simp only [c2, QuadraticAlgebra.mk.injEq, ZMod.natCast_eq_natCast_iff']

/-- Decidable equality of the represented elements. -/
def eq2N (a b : ℕ × ℕ) : Bool := decide (a.1 % q = b.1 % q) && decide (a.2 % q = b.2 % q)

theorem eq2N_iff (a b : ℕ × ℕ) : eq2N a b = true ↔ c2 a = c2 b := by
  simp [eq2N, c2_eq_iff]

abbrev P2N := (ℕ × ℕ) × (ℕ × ℕ)

def line2N (l : ℕ × ℕ) (P Q : P2N) : P2N :=
  let x := add2N (mul2N l l) (neg2N (add2N P.1 Q.1))
  (x, add2N (mul2N l (add2N P.1 (neg2N x))) (neg2N P.2))

def dbl2N (P : P2N) : Option P2N :=
  let den := add2N P.2 P.2
  let num := mul2N (3, 0) (mul2N P.1 P.1)
  let l := mul2N num (inv2N den)
  if eq2N den (0, 0) then none
  else if eq2N (mul2N l den) num then some (line2N l P P) else none

def chord2N (P Q : P2N) : Option P2N :=
  let den := add2N P.1 (neg2N Q.1)
  let num := add2N P.2 (neg2N Q.2)
  let l := mul2N num (inv2N den)
  if eq2N den (0, 0) then none
  else if eq2N (mul2N l den) num then some (line2N l P Q) else none

def ladder2N (G : P2N) : List Bool → P2N → Option P2N
  | [], acc => some acc
  | bit :: bs, acc =>
    match dbl2N acc with
    | none => none
    | some d =>
      if bit then
        match chord2N d G with
        | none => none
        | some e => ladder2N G bs e
      else ladder2N G bs d

def Rep2 (P : G2) (c : P2N) : Prop := ∃ h, P = Point.some (c2 c.1) (c2 c.2) h

theorem c2_zero : c2 (0, 0) = 0 := by
  apply QuadraticAlgebra.ext <;> simp [c2]

theorem c2_three : c2 (3, 0) = 3 := by
  rw [show (3 : Fq2) = 1 + 1 + 1 by norm_num]
  apply QuadraticAlgebra.ext
  · simp only [c2, QuadraticAlgebra.re_add, QuadraticAlgebra.re_one]; norm_num
  · simp only [c2, QuadraticAlgebra.im_add, QuadraticAlgebra.im_one]; norm_num

theorem line2N_fst (l : ℕ × ℕ) (P Q : P2N) :
    c2 (line2N l P Q).1 = c2 l ^ 2 - c2 P.1 - c2 Q.1 := by
  simp only [line2N, c2_add, c2_mul, c2_neg]; ring

theorem line2N_snd (l : ℕ × ℕ) (P Q : P2N) :
    c2 (line2N l P Q).2 = c2 l * (c2 P.1 - c2 (line2N l P Q).1) - c2 P.2 := by
  simp only [line2N, c2_add, c2_mul, c2_neg]; ring

theorem dbl2N_rep {P : G2} {c d : P2N} (hP : Rep2 P c) (h : dbl2N c = some d) :
    Rep2 (P + P) d := by
  obtain ⟨hns, rfl⟩ := hP
  simp only [dbl2N] at h
  generalize mul2N (mul2N (3, 0) (mul2N c.1 c.1)) (inv2N (add2N c.2 c.2)) = l at h
  split at h
  · simp at h
  · rename_i hden
    split at h
    · rename_i hl
      have hd := Option.some.inj h
      rw [eq2N_iff, c2_zero, c2_add] at hden
      simp only [eq2N_iff, c2_mul, c2_add, c2_three] at hl
      subst hd
      exact shortW_double (l := c2 l) hns (by rw [two_mul]; exact hden)
        (by rw [two_mul, hl]; ring) (line2N_fst l c c) (line2N_snd l c c)
    · simp at h

theorem chord2N_rep {P Q : G2} {c e d : P2N} (hP : Rep2 P c) (hQ : Rep2 Q e)
    (h : chord2N c e = some d) : Rep2 (P + Q) d := by
  obtain ⟨hns, rfl⟩ := hP
  obtain ⟨hns2, rfl⟩ := hQ
  simp only [chord2N] at h
  generalize mul2N (add2N c.2 (neg2N e.2)) (inv2N (add2N c.1 (neg2N e.1))) = l at h
  split at h
  · simp at h
  · rename_i hden
    split at h
    · rename_i hl
      have hd := Option.some.inj h
      rw [eq2N_iff, c2_zero, c2_add, c2_neg] at hden
      simp only [eq2N_iff, c2_mul, c2_add, c2_neg] at hl
      subst hd
      exact shortW_add_chord (l := c2 l) hns hns2
        (fun hc => hden (by rw [hc]; ring))
        (by rw [sub_eq_add_neg, hl]; ring) (line2N_fst l c e) (line2N_snd l c e)
    · simp at h

theorem ladder2N_rep {P : G2} {g : P2N} (hP : Rep2 P g) :
    ∀ (bs : List Bool) (k : ℕ) (c d : P2N), Rep2 (k • P) c → ladder2N g bs c = some d →
      Rep2 (bitsVal bs k • P) d
  | [], k, c, d, hc, h => by
      simp only [ladder2N, Option.some.injEq] at h
      subst h; simpa [bitsVal] using hc
  | bit :: bs, k, c, d, hc, h => by
      rw [ladder2N] at h
      cases hdb : dbl2N c with
      | none => simp [hdb] at h
      | some e =>
        have hr := dbl2N_rep hc hdb
        rw [← two_nsmul, ← mul_nsmul'] at hr
        simp only [hdb] at h
        cases bit with
        | false =>
          simp only [Bool.false_eq_true, if_false] at h
          simpa [bitsVal] using ladder2N_rep hP bs (2 * k) e d hr h
        | true =>
          simp only [if_true] at h
          cases hch : chord2N e g with
          | none => simp [hch] at h
          | some f =>
            simp only [hch] at h
            have hr2 := chord2N_rep hr hP hch
            rw [← succ_nsmul] at hr2
            simpa [bitsVal] using ladder2N_rep hP bs (2 * k + 1) f d hr2 h

/-! ### The twist equation and its points -/

def twistBN : ℕ × ℕ :=
  (19485874751759354771024239261021720505790618469301721065564631296452457478373,
   266929791119991161246907387137283842545076965332900288569378510910307636690)

theorem c2_twistB : c2 twistBN = twistB := by
  apply QuadraticAlgebra.ext <;> simp [c2, twistBN, twistB]

/-- `twistB = 3 / (9 + u)`. -/
theorem twistB_spec : twistB * ⟨9, 1⟩ = 3 := by
  have : eq2N (mul2N twistBN (9, 1)) (3, 0) = true := by decide +kernel
  rw [eq2N_iff, c2_mul, c2_twistB, c2_three] at this
  have h9 : c2 (9, 1) = ⟨9, 1⟩ := by apply QuadraticAlgebra.ext <;> simp [c2]
  rw [← h9, this]

theorem two_ne_zero_q2 : (2 : Fq2) ≠ 0 := by
  intro h
  have := congrArg QuadraticAlgebra.re h
  simp at this
  exact two_ne_zero_q this

theorem three_ne_zero_q2 : (3 : Fq2) ≠ 0 := by
  intro h
  have := congrArg QuadraticAlgebra.re h
  simp at this
  exact three_ne_zero_q this

theorem twistB_ne_zero : twistB ≠ 0 := by
  intro h
  have := twistB_spec
  rw [h, zero_mul] at this
  exact three_ne_zero_q2 this.symm

theorem twist_nonsingular_iff (x y : Fq2) : twist.Nonsingular x y ↔ y ^ 2 = x ^ 3 + twistB :=
  shortW_nonsingular_iff two_ne_zero_q2 three_ne_zero_q2 twistB_ne_zero x y

def onTwistN (P : P2N) : Bool :=
  eq2N (mul2N P.2 P.2) (add2N (mul2N P.1 (mul2N P.1 P.1)) twistBN)

theorem onTwistN_spec {P : P2N} (h : onTwistN P = true) :
    twist.Nonsingular (c2 P.1) (c2 P.2) := by
  rw [onTwistN, eq2N_iff] at h
  simp only [c2_mul, c2_add, c2_twistB] at h
  rw [twist_nonsingular_iff]
  linear_combination h

/-- Coordinates of the G2 generator (contracts/libs/Pairing.sol:25-32). -/
def g2N : P2N :=
  ((10857046999023057135944570762232829481370756359578518086990519993285655852781,
    11559732032986387107991004021392285783925812861821192530917403151452391805634),
   (8495653923123431417604973247489272438418190587263600148770280649306958101930,
    4082367875863433681332203403145435568316851327593401208105741076214120093531))

/-- The generator of G2 (`BnG2::generator()`, src/lib.rs:249; `P2()` in
contracts/libs/Pairing.sol:25-32). -/
def g2 : G2 := Point.some (c2 g2N.1) (c2 g2N.2) (onTwistN_spec (by decide +kernel))

theorem g2_rep : Rep2 g2 g2N := ⟨_, rfl⟩

theorem g2_ne_zero : g2 ≠ 0 := Point.some_ne_zero _

theorem ladder_g2 : ladder2N g2N (msb (r - 1) 253) g2N = some (g2N.1, neg2N g2N.2) := by
  decide +kernel

theorem r_nsmul_g2 : r • g2 = 0 := by
  have hv : bitsVal (msb (r - 1) 253) 1 = r - 1 := by decide +kernel
  have h := ladder2N_rep g2_rep (msb (r - 1) 253) 1 g2N _ (by simpa using g2_rep) ladder_g2
  rw [hv] at h
  obtain ⟨hns, h⟩ := h
  obtain ⟨h', hneg⟩ := shortW_neg_some (onTwistN_spec (P := g2N) (by decide +kernel))
  have e : (r - 1) • g2 = -g2 := by
    rw [h]
    change _ = -(Point.some (c2 g2N.1) (c2 g2N.2) _)
    rw [hneg]
    simp [c2_neg]
  have : r = (r - 1) + 1 := by decide +kernel
  rw [this, succ_nsmul, e, neg_add_cancel]

theorem addOrderOf_g2 : addOrderOf g2 = r := addOrderOf_eq_prime r_nsmul_g2 g2_ne_zero

/-- A point of order 10069 (a factor of the cofactor), used to bound the `r`-torsion. -/
def t2N : P2N :=
  ((9623466969819186210096099112386315455791237079390456581453738055980425269292,
    17692382642665795858331459766236260286187917687754477715501738521284345041308),
   (12865421648231312951340958604967729539437910403193079944083607760704855770454,
    14259550034904450902393517181334394889178378255868966757665071873786609510755))

def t2 : G2 := Point.some (c2 t2N.1) (c2 t2N.2) (onTwistN_spec (by decide +kernel))

theorem t2_order : addOrderOf t2 = 10069 := by
  have hl : ladder2N t2N (msb 10068 13) t2N = some (t2N.1, neg2N t2N.2) := by decide +kernel
  have hv : bitsVal (msb 10068 13) 1 = 10068 := by decide +kernel
  have h := ladder2N_rep (P := t2) ⟨_, rfl⟩ (msb 10068 13) 1 t2N _ (by rw [one_nsmul]; exact ⟨_, rfl⟩) hl
  rw [hv] at h
  obtain ⟨hns, h⟩ := h
  obtain ⟨h', hneg⟩ := shortW_neg_some (onTwistN_spec (P := t2N) (by decide +kernel))
  have e : 10068 • t2 = -t2 := by
    rw [h]
    change _ = -(Point.some (c2 t2N.1) (c2 t2N.2) _)
    rw [hneg]
    simp [c2_neg]
  have h0 : 10069 • t2 = 0 := by
    rw [show (10069 : ℕ) = 10068 + 1 from rfl, succ_nsmul, e, neg_add_cancel]
  have : Fact (Nat.Prime 10069) := ⟨by norm_num⟩
  exact addOrderOf_eq_prime h0 (Point.some_ne_zero _)

/-! ### Bounding the number of points -/

instance : Finite Fq2 := Finite.of_equiv _ (QuadraticAlgebra.equivProd (-1 : Fq) 0).symm

theorem card_Fq2 : Nat.card Fq2 = q ^ 2 := by
  rw [Nat.card_congr (QuadraticAlgebra.equivProd (-1 : Fq) 0), Nat.card_prod, Nat.card_zmod, sq]

section
variable {F : Type*} [Field F] [Finite F]

theorem card_points_le (b : F) :
    Finite (shortW b).Point ∧ Nat.card (shortW b).Point ≤ 2 * Nat.card F + 1 := by
  classical
  obtain ⟨n, ⟨f⟩⟩ := Finite.exists_equiv_fin F
  let cmp : (shortW b).Point → Option (F × Bool) := fun P => match P with
    | .zero => none
    | .some x y _ => some (x, decide (f y < f (-y)))
  have hinj : Function.Injective cmp := by
    intro P Q h
    cases P with
    | zero => cases Q with
      | zero => rfl
      | some => simp [cmp] at h
    | some x y h1 => cases Q with
      | zero => simp [cmp] at h
      | some x' y' h2' =>
        simp only [cmp, Option.some.injEq, Prod.mk.injEq, decide_eq_decide] at h
        obtain ⟨rfl, hs⟩ := h
        have e1 := (shortW_equation_iff x y).1 h1.1
        have e2 := (shortW_equation_iff x y').1 h2'.1
        have : y = y' ∨ y = -y' := sq_eq_sq_iff_eq_or_eq_neg.1 (e1.trans e2.symm)
        rcases this with rfl | rfl
        · rfl
        · have : (-y' : F) = y' := by
            by_contra hne
            rw [neg_neg] at hs
            have hfne : f (-y') ≠ f y' := fun hc => hne (f.injective hc)
            rcases lt_trichotomy (f (-y')) (f y') with hlt | heq | hgt
            · exact absurd (hs.1 hlt) (not_lt.2 hlt.le)
            · exact hfne heq
            · exact absurd (hs.2 hgt) (not_lt.2 hgt.le)
          simp [this]
  have hfin : Finite (shortW b).Point := Finite.of_injective _ hinj
  refine ⟨hfin, (Nat.card_le_card_of_injective _ hinj).trans (le_of_eq ?_)⟩
  have : Fintype F := Fintype.ofFinite F
  rw [Nat.card_eq_fintype_card, Fintype.card_option, Fintype.card_prod, Fintype.card_bool,
    Nat.card_eq_fintype_card]
  ring
end

instance : Finite G2 := (card_points_le twistB).1

theorem card_G2_le : Nat.card G2 ≤ 2 * q ^ 2 + 1 := by
  have := (card_points_le twistB).2
  rwa [card_Fq2] at this

/-- The order of the twist is not divisible by `r²`. -/
theorem r_sq_not_dvd : ¬ r ^ 2 ∣ Nat.card G2 := by
  intro h
  have h1 : 10069 ∣ Nat.card G2 := t2_order ▸ addOrderOf_dvd_natCard t2
  have hc : Nat.Coprime (r ^ 2) 10069 := by
    apply Nat.Coprime.pow_left
    decide +kernel
  have h3 := Nat.le_of_dvd Nat.card_pos (hc.mul_dvd_of_dvd_of_dvd h h1)
  have h4 := h3.trans card_G2_le
  revert h4
  decide +kernel

/-- Every point killed by `r` is a multiple of the generator. -/
theorem r_torsion {P : G2} (hP : r • P = 0) : P ∈ AddSubgroup.zmultiples g2 := by
  by_contra hnot
  set H := AddSubgroup.zmultiples g2 with hH
  have hcard : Nat.card H = r := by rw [hH, Nat.card_zmultiples, addOrderOf_g2]
  -- `P` has order `r` in the quotient by `H`, so `r * r` divides the order of the whole group
  have hq : (QuotientAddGroup.mk P : G2 ⧸ H) ≠ 0 := by
    rwa [Ne, QuotientAddGroup.eq_zero_iff]
  have hq2 : r • (QuotientAddGroup.mk P : G2 ⧸ H) = 0 := by
    rw [← QuotientAddGroup.mk_nsmul, hP, QuotientAddGroup.mk_zero]
  have hord : addOrderOf (QuotientAddGroup.mk P : G2 ⧸ H) = r := addOrderOf_eq_prime hq2 hq
  have hd : r ∣ Nat.card (G2 ⧸ H) := hord ▸ addOrderOf_dvd_natCard _
  have := AddSubgroup.card_eq_card_quotient_mul_card_addSubgroup H
  apply r_sq_not_dvd
  rw [this, hcard, sq]
  exact Nat.mul_dvd_mul_right hd r

theorem mem_zmultiples_g2_iff (P : G2) : P ∈ AddSubgroup.zmultiples g2 ↔ r • P = 0 := by
  refine ⟨?_, r_torsion⟩
  intro h
  obtain ⟨k, rfl⟩ := AddSubgroup.mem_zmultiples_iff.1 h
  rw [smul_comm, r_nsmul_g2, zsmul_zero]

end Verif
