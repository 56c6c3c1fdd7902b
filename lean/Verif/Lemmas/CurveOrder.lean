import Verif.Lemmas.ShortW
import Mathlib.GroupTheory.Perm.Cycle.Type
import Mathlib.FieldTheory.Finite.Basic
import Mathlib.Algebra.Module.ZMod

/-!
Group orders of the two curves.  A double-and-add ladder on natural-number coordinates is evaluated
by the kernel and proved to follow the group law; Lagrange's theorem and the trivial bound
`#E ≤ 2p + 1` then pin down the order.
-/

namespace Verif
open WeierstrassCurve WeierstrassCurve.Affine

/-- Tangent doubling on canonical coordinates; `none` if the slope does not exist. -/
def dblN (p : ℕ) (P : ℕ × ℕ) : Option (ℕ × ℕ) :=
  let den := 2 * P.2 % p
  let num := 3 * P.1 * P.1 % p
  let l := num * powMod den (p - 2) p % p
  if den ≠ 0 ∧ l * den % p = num ∧ P.1 < p ∧ P.2 < p then
    let x := (l * l + (p - P.1) + (p - P.1)) % p
    some (x, (l * (P.1 + (p - x)) + (p - P.2)) % p)
  else none

/-- Chord addition on canonical coordinates; `none` if the slope does not exist. -/
def chordN (p : ℕ) (P Q : ℕ × ℕ) : Option (ℕ × ℕ) :=
  let den := (P.1 + (p - Q.1)) % p
  let num := (P.2 + (p - Q.2)) % p
  let l := num * powMod den (p - 2) p % p
  if den ≠ 0 ∧ l * den % p = num ∧ P.1 < p ∧ P.2 < p ∧ Q.1 < p ∧ Q.2 < p then
    let x := (l * l + (p - P.1) + (p - Q.1)) % p
    some (x, (l * (P.1 + (p - x)) + (p - P.2)) % p)
  else none

/-- Most-significant-bit-first double-and-add. -/
def ladderN (p : ℕ) (G : ℕ × ℕ) : List Bool → ℕ × ℕ → Option (ℕ × ℕ)
  | [], acc => some acc
  | bit :: bs, acc =>
    match dblN p acc with
    | none => none
    | some d =>
      if bit then
        match chordN p d G with
        | none => none
        | some e => ladderN p G bs e
      else ladderN p G bs d

/-- Number with the given leading part and following bits. -/
def bitsVal : List Bool → ℕ → ℕ
  | [], k => k
  | bit :: bs, k => bitsVal bs (2 * k + cond bit 1 0)

/-- Bits of `n`, most significant first, below the leading one, for `fuel` bits. -/
def msb (n : ℕ) : ℕ → List Bool
  | 0 => []
  | i + 1 => decide (n / 2 ^ i % 2 = 1) :: msb n i

section
variable {p : ℕ} [hp : Fact p.Prime] {b : ZMod p}

/-- `P` has the coordinates `c`. -/
def Rep (P : (shortW b).Point) (c : ℕ × ℕ) : Prop :=
  ∃ h, P = Point.some ((c.1 : ZMod p)) ((c.2 : ZMod p)) h

theorem cast_ne_zero_of {n : ℕ} (h : n % p ≠ 0) : ((n : ℕ) : ZMod p) ≠ 0 := by
  rw [Ne, ZMod.natCast_eq_zero_iff]; exact fun hd => h (Nat.mod_eq_zero_of_dvd hd)

theorem cast_sub_le {x : ℕ} (h : x ≤ p) : ((p - x : ℕ) : ZMod p) = -(x : ZMod p) := by
  rw [Nat.cast_sub h]; simp

theorem dblN_rep {P : (shortW b).Point} {c d : ℕ × ℕ} (hP : Rep P c) (h : dblN p c = some d) :
    Rep (P + P) d := by
  obtain ⟨hns, rfl⟩ := hP
  simp only [dblN] at h
  split at h
  · rename_i hc
    obtain ⟨hden, hl, hx, hy⟩ := hc
    generalize 3 * c.1 * c.1 % p * powMod (2 * c.2 % p) (p - 2) p % p = l at h hl
    have hd := Option.some.inj h
    have hx3 : d.1 = (l * l + (p - c.1) + (p - c.1)) % p := by rw [← hd]
    have hy3 : d.2 = (l * (c.1 + (p - d.1)) + (p - c.2)) % p := by rw [hx3, ← hd]
    have hden' : (2 : ZMod p) * (c.2 : ZMod p) ≠ 0 := by
      have := cast_ne_zero_of (p := p) (n := 2 * c.2) hden
      push_cast at this; exact this
    have hl' : (l : ZMod p) * (2 * (c.2 : ZMod p)) = 3 * (c.1 : ZMod p) ^ 2 := by
      have := congrArg (Nat.cast (R := ZMod p)) hl
      rw [ZMod.natCast_mod, Nat.cast_mul, ZMod.natCast_mod, ZMod.natCast_mod] at this
      push_cast at this
      rw [this]; ring
    have hdlt : d.1 < p := by rw [hx3]; exact Nat.mod_lt _ hp.1.pos
    exact shortW_double hns hden' hl'
      (by rw [hx3, ZMod.natCast_mod]; push_cast [cast_sub_le hx.le]; ring)
      (by rw [hy3, ZMod.natCast_mod]; push_cast [cast_sub_le hdlt.le, cast_sub_le hy.le]; ring)
  · simp at h

theorem chordN_rep {P Q : (shortW b).Point} {c e d : ℕ × ℕ} (hP : Rep P c) (hQ : Rep Q e)
    (h : chordN p c e = some d) : Rep (P + Q) d := by
  obtain ⟨hns, rfl⟩ := hP
  obtain ⟨hns2, rfl⟩ := hQ
  simp only [chordN] at h
  split at h
  · rename_i hc
    obtain ⟨hden, hl, hx, hy, hx2, hy2⟩ := hc
    generalize (c.2 + (p - e.2)) % p * powMod ((c.1 + (p - e.1)) % p) (p - 2) p % p = l at h hl
    have hd := Option.some.inj h
    have hx3 : d.1 = (l * l + (p - c.1) + (p - e.1)) % p := by rw [← hd]
    have hy3 : d.2 = (l * (c.1 + (p - d.1)) + (p - c.2)) % p := by rw [hx3, ← hd]
    have hden' : (c.1 : ZMod p) ≠ (e.1 : ZMod p) := by
      have := cast_ne_zero_of (p := p) (n := c.1 + (p - e.1)) hden
      push_cast [cast_sub_le hx2.le] at this
      intro h; apply this; rw [h]; ring
    have hl' : (l : ZMod p) * ((c.1 : ZMod p) - (e.1 : ZMod p)) = (c.2 : ZMod p) - (e.2 : ZMod p) := by
      have := congrArg (Nat.cast (R := ZMod p)) hl
      rw [ZMod.natCast_mod, Nat.cast_mul, ZMod.natCast_mod, ZMod.natCast_mod] at this
      push_cast [cast_sub_le hx2.le, cast_sub_le hy2.le] at this
      linear_combination this
    have hdlt : d.1 < p := by rw [hx3]; exact Nat.mod_lt _ hp.1.pos
    exact shortW_add_chord hns hns2 hden' hl'
      (by rw [hx3, ZMod.natCast_mod]; push_cast [cast_sub_le hx.le, cast_sub_le hx2.le]; ring)
      (by rw [hy3, ZMod.natCast_mod]; push_cast [cast_sub_le hdlt.le, cast_sub_le hy.le]; ring)
  · simp at h

theorem ladderN_rep {P : (shortW b).Point} {g : ℕ × ℕ} (hP : Rep P g) :
    ∀ (bs : List Bool) (k : ℕ) (c d : ℕ × ℕ), Rep (k • P) c → ladderN p g bs c = some d →
      Rep (bitsVal bs k • P) d
  | [], k, c, d, hc, h => by
      simp only [ladderN, Option.some.injEq] at h
      subst h; simpa [bitsVal] using hc
  | bit :: bs, k, c, d, hc, h => by
      rw [ladderN] at h
      cases hdb : dblN p c with
      | none => simp [hdb] at h
      | some e =>
        have hr := dblN_rep hc hdb
        rw [← two_nsmul, ← mul_nsmul'] at hr
        simp only [hdb] at h
        cases bit with
        | false =>
          simp only [Bool.false_eq_true, if_false] at h
          simpa [bitsVal] using ladderN_rep hP bs (2 * k) e d hr h
        | true =>
          simp only [if_true] at h
          cases hch : chordN p e g with
          | none => simp [hch] at h
          | some f =>
            simp only [hch] at h
            have hr2 := chordN_rep hr hP hch
            rw [← succ_nsmul] at hr2
            simpa [bitsVal] using ladderN_rep hP bs (2 * k + 1) f d hr2 h

end

end Verif
