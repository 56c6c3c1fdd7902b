import Verif.Model.Twist
import Verif.Lemmas.GroupOrder

/-!
What a pair of cells holding coordinates stands for.
-/

namespace Verif.Spec

/-- The pair `p` holds the affine coordinates of the finite point `P`. -/
def Holds {F : Type*} [CommRing F] {b : F} (p : F × F) (P : (shortW b).Point) : Prop :=
  P ≠ 0 ∧ coords P = p

/-- The integer with the given little-endian binary digits. -/
def binary : List Bool → ℕ
  | [] => 0
  | b :: bs => (if b then 1 else 0) + 2 * binary bs

/-- A field element standing for a bit. -/
def bitCell (b : Bool) : Fr := if b then 1 else 0

/-- The `i`-th digit of `K` in base `2^w`. -/
def digit (w K i : ℕ) : ℕ := K / 2 ^ (w * i) % 2 ^ w

/-- The auxiliary points that do not disturb a windowed multiplication of `P` by `K` with windows of
`w` bits (out of 254): three bad points are avoided and the product is not infinity. -/
def AuxFits {G : Type} [AddCommGroup G] (w K : ℕ) (P aux : G) : Prop :=
  let n := (254 + w - 1) / w
  let L := ∑ i ∈ Finset.range (n - 2), (digit w K i + 2) * 2 ^ (w * i)
  let M := (digit w K (n - 2) + 2) * 2 ^ (w * (n - 2))
  let N := (digit w K (n - 1) + 2) * 2 ^ (w * (n - 1))
  let C := ∑ i ∈ Finset.range n, 2 * 2 ^ (w * i)
  aux ≠ L • P - M • P ∧ aux ≠ -(L • P) - M • P ∧
  aux + aux ≠ N • P - C • P - L • P - M • P ∧ K • P ≠ 0

/-- The auxiliary points for which no entry of the window table is infinity. -/
def TableFits {G : Type} [AddCommGroup G] (w : ℕ) (P aux : G) : Prop :=
  let n := (254 + w - 1) / w
  (∀ k < 2 ^ w, aux ≠ -(((k + 2) * 2 ^ (w * (n - 2))) • P)) ∧
  ∀ k < 2 ^ (254 - w * (n - 1)),
    aux ≠ ((k + 2) * 2 ^ (w * (n - 1))) • P - (∑ j ∈ Finset.range n, 2 * 2 ^ (w * j)) • P

end Verif.Spec
