import Mathlib.Data.Nat.Notation

/-! What a hexadecimal literal denotes. -/

namespace Verif.Spec

/-- `d` is the value of the hexadecimal digit `c`. -/
def IsDigit (c : Char) (d : ℕ) : Prop :=
  (('0' ≤ c ∧ c ≤ '9') ∧ d = c.toNat - '0'.toNat) ∨
  (('a' ≤ c ∧ c ≤ 'f') ∧ d = c.toNat - 'a'.toNat + 10) ∨
  (('A' ≤ c ∧ c ≤ 'F') ∧ d = c.toNat - 'A'.toNat + 10)

/-- The string `s` of hexadecimal digits, most significant first, denotes `n`. -/
inductive Hex : List Char → ℕ → Prop
  | nil : Hex [] 0
  | snoc {s n c d} : Hex s n → IsDigit c d → Hex (s ++ [c]) (16 * n + d)

/-- A literal: optional `0x` prefix, then an even number of at most 64 digits. -/
def Literal (s : List Char) (n : ℕ) : Prop :=
  ∃ ds : List Char, (s = '0' :: 'x' :: ds ∨ s = ds) ∧ Hex ds n ∧ 2 ∣ ds.length ∧ ds.length ≤ 64

end Verif.Spec
