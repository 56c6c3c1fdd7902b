import Verif.Model.Lib

/-!
Small specifications used to state the properties of the DKG library independently of the loops
of the implementation.
-/

namespace Verif.Spec

/-- The polynomial with the given coefficients (constant term first), evaluated at `x`. -/
def poly (coeffs : List Fr) (x : Fr) : Fr := ∑ j : Fin coeffs.length, coeffs[j] * x ^ (j : ℕ)

/-- A list of member indices is *valid* for `n` members: strictly increasing and within `1..n`. -/
def ValidIndices (n : ℕ) (idx : List ℕ) : Prop :=
  idx.Pairwise (· < ·) ∧ ∀ i ∈ idx, 1 ≤ i ∧ i ≤ n

/-- Position `i` of an index list is in order: smaller than its successor, if there is one. -/
def InOrderAt (idx : List ℕ) (i : ℕ) : Prop := ∀ a b, idx[i]? = some a → idx[i + 1]? = some b → a < b

/-- Position `i` of an index list is within `1..n`. -/
def InRangeAt (n : ℕ) (idx : List ℕ) (i : ℕ) : Prop := ∀ a, idx[i]? = some a → 1 ≤ a ∧ a ≤ n

/-- The verifier equations of a partial evaluation for a commitment `(r1, r2)`: a Chaum-Pedersen
proof that `vk` and `v` have the same discrete logarithm to the bases `g1` and `h`. -/
def Accepts (h vk v r1 r2 : G1) (c z : Fr) : Prop := z • g1 - c • vk = r1 ∧ z • h - c • v = r2

/-- `sk` is the secret behind both the verification key and the value. -/
def SameLog (h vk v : G1) : Prop := ∃ sk : Fr, vk = sk • g1 ∧ v = sk • h

/-- A dealing with coefficient vector `coeffs` has secret `s` and gives the members of `S` exactly
the observed shares. -/
def ConsistentWith (n t : ℕ) (S : Finset ℕ) (obs : ℕ → Fr) (s : Fr) (coeffs : List Fr) : Prop :=
  coeffs.length = t ∧ coeffs.head? = some s ∧
    ∃ sh, shares n coeffs = .ok sh ∧ ∀ i ∈ S, sh[i - 1]? = some (obs i)

end Verif.Spec
