import Mathlib.Data.Nat.Digits.Defs

/-! Specification of decimal numerals, for property C70. -/

namespace Verif.Spec

/-- The character of a decimal digit. -/
def decimalChar (d : ℕ) : Char := "0123456789".toList.getD d '?'

/-- `s` is a decimal numeral for `m`: at least one digit (most significant first, leading zeros
allowed), after an optional plus sign. -/
def Numeral (s : List Char) (m : ℕ) : Prop :=
  ∃ ds : List ℕ, ds ≠ [] ∧ (∀ d ∈ ds, d < 10) ∧ m = Nat.ofDigits 10 ds.reverse ∧
    (s = ds.map decimalChar ∨ s = '+' :: ds.map decimalChar)

/-- The characters of a hexadecimal digit. -/
def hexChars (d : ℕ) : List Char := ["0123456789abcdef".toList.getD d '?', "0123456789ABCDEF".toList.getD d '?']

/-- `s` is a decimal numeral for `m`, without sign. -/
def DecimalNumeral (s : List Char) (m : ℕ) : Prop :=
  ∃ ds : List ℕ, ds ≠ [] ∧ (∀ d ∈ ds, d < 10) ∧ m = Nat.ofDigits 10 ds.reverse ∧ s = ds.map decimalChar

/-- `s` is `0x` and hexadecimal digits (of either case) for `m`. -/
def HexNumeral (s : List Char) (m : ℕ) : Prop :=
  ∃ (ds : List ℕ) (cs : List Char), ds ≠ [] ∧ (∀ d ∈ ds, d < 16) ∧ m = Nat.ofDigits 16 ds.reverse ∧ s = '0' :: 'x' :: cs ∧
    List.Forall₂ (fun c d => c ∈ hexChars d) cs ds

end Verif.Spec
