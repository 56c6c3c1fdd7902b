import Verif.Spec.Halo2

/-!
The polynomials behind a proof, and what it means that they satisfy the constraint system: used to state
that the verifier of `Spec/Halo2` accepts only (with the exceptions to be stated) proofs of satisfied
constraint systems.
-/

namespace Verif.Spec.Halo2
open Polynomial

/-- KZG commitment with the secret `s`. -/
noncomputable def commit (s : Fr) (f : Fr[X]) : G1 := f.eval s • g1

/-- The polynomials of a verifying key. -/
structure KeyPolys where
  fixed : Fin 23 → Fr[X]
  perm : Fin 9 → Fr[X]

/-- The key commits to these polynomials under the secret `s`. -/
structure KeyFor (V : Key) (s : Fr) (K : KeyPolys) : Prop where
  g1 : V.g1 = g1
  g2 : V.g2 = g2
  negSG2 : V.negSG2 = smul2 (-s) Verif.g2
  fixed : ∀ i, V.fixed i = commit s (K.fixed i)
  perm : ∀ i, V.perm i = commit s (K.perm i)

/-- The polynomials behind the commitments of a proof, except the two of the opening. -/
structure Polys where
  advice : Fin 5 → Fr[X]
  lookupInput : Fin 5 → Fr[X]
  lookupTable : Fin 5 → Fr[X]
  permProduct : Fin 3 → Fr[X]
  lookupProduct : Fin 5 → Fr[X]
  random : Fr[X]
  quotient : Fin 5 → Fr[X]

/-- The true values of the polynomials. -/
noncomputable def evalsAt (V : Key) (K : KeyPolys) (P : Polys) (x : Fr) : Evals where
  a i := (P.advice i).eval x
  a4Next := (P.advice 4).eval (x * V.omega)
  aNext := ![(P.advice 0).eval (x * V.omega), (P.advice 1).eval (x * V.omega), (P.advice 2).eval (x * V.omega)]
  aPrev := ![(P.advice 0).eval (x * V.omega⁻¹), (P.advice 1).eval (x * V.omega⁻¹),
    (P.advice 2).eval (x * V.omega⁻¹)]
  f i := (K.fixed i).eval x
  random := P.random.eval x
  s i := (K.perm i).eval x
  z i := (P.permProduct i).eval x
  zNext i := (P.permProduct i).eval (x * V.omega)
  zLast := ![(P.permProduct 0).eval (x * V.omega⁻¹ ^ 6), (P.permProduct 1).eval (x * V.omega⁻¹ ^ 6)]
  lz i := (P.lookupProduct i).eval x
  lzNext i := (P.lookupProduct i).eval (x * V.omega)
  li i := (P.lookupInput i).eval x
  liPrev i := (P.lookupInput i).eval (x * V.omega⁻¹)
  lt i := (P.lookupTable i).eval x

/-- The proof with the commitments of these polynomials and these claimed values. -/
noncomputable def proofOf (s : Fr) (P : Polys) (e : Evals) (w w' : Fr[X]) : Proof where
  advice i := commit s (P.advice i)
  lookupInput i := commit s (P.lookupInput i)
  lookupTable i := commit s (P.lookupTable i)
  permProduct i := commit s (P.permProduct i)
  lookupProduct i := commit s (P.lookupProduct i)
  random := commit s P.random
  quotient i := commit s (P.quotient i)
  evals := e
  w := commit s w
  w' := commit s w'

/-! ### The polynomial that a proof claims to be zero -/

/-- Polynomials opened at the same points, with their claimed values. -/
structure PolySet where
  size : ℕ
  points : Fin size → Fr
  queries : List (Fr[X] × (Fin size → Fr))

/-- The polynomials opened: as `openSets`. -/
noncomputable def polySets (V : Key) (K : KeyPolys) (C : Challenges) (inst : List Fr) (P : Polys) (e : Evals) :
    List PolySet :=
  let x := C.x
  let next := x * V.omega
  let prev := x * V.omega⁻¹
  let last := x * V.omega⁻¹ ^ 6
  let fixed (i : Fin 23) : Fr[X] × (Fin 1 → Fr) := (K.fixed i, ![e.f i])
  [⟨3, ![prev, x, next],
     [(P.advice 0, ![e.aPrev 0, e.a 0, e.aNext 0]),
      (P.advice 1, ![e.aPrev 1, e.a 1, e.aNext 1]),
      (P.advice 2, ![e.aPrev 2, e.a 2, e.aNext 2])]⟩,
   ⟨1, ![x],
     [(P.advice 3, ![e.a 3]),
      (P.lookupTable 0, ![e.lt 0]), (P.lookupTable 1, ![e.lt 1]), (P.lookupTable 2, ![e.lt 2]),
      (P.lookupTable 3, ![e.lt 3]), (P.lookupTable 4, ![e.lt 4]),
      fixed 0, fixed 1, fixed 2, fixed 3, fixed 4, fixed 7, fixed 5, fixed 6, fixed 8, fixed 9,
      fixed 10, fixed 11, fixed 15, fixed 16, fixed 17, fixed 12, fixed 13, fixed 14, fixed 18,
      fixed 19, fixed 20, fixed 21, fixed 22,
      (K.perm 0, ![e.s 0]), (K.perm 1, ![e.s 1]), (K.perm 2, ![e.s 2]), (K.perm 3, ![e.s 3]),
      (K.perm 4, ![e.s 4]), (K.perm 5, ![e.s 5]), (K.perm 6, ![e.s 6]), (K.perm 7, ![e.s 7]),
      (K.perm 8, ![e.s 8]),
      (∑ i : Fin 5, (x ^ V.n) ^ (i : ℕ) • P.quotient i, ![quotientEval V C inst e]),
      (P.random, ![e.random])]⟩,
   ⟨2, ![x, next],
     [(P.advice 4, ![e.a 4, e.a4Next]), (P.permProduct 2, ![e.z 2, e.zNext 2]),
      (P.lookupProduct 0, ![e.lz 0, e.lzNext 0]), (P.lookupProduct 1, ![e.lz 1, e.lzNext 1]),
      (P.lookupProduct 2, ![e.lz 2, e.lzNext 2]), (P.lookupProduct 3, ![e.lz 3, e.lzNext 3]),
      (P.lookupProduct 4, ![e.lz 4, e.lzNext 4])]⟩,
   ⟨3, ![last, x, next],
     [(P.permProduct 0, ![e.zLast 0, e.z 0, e.zNext 0]),
      (P.permProduct 1, ![e.zLast 1, e.z 1, e.zNext 1])]⟩,
   ⟨2, ![prev, x],
     [(P.lookupInput 0, ![e.liPrev 0, e.li 0]), (P.lookupInput 1, ![e.liPrev 1, e.li 1]),
      (P.lookupInput 2, ![e.liPrev 2, e.li 2]), (P.lookupInput 3, ![e.liPrev 3, e.li 3]),
      (P.lookupInput 4, ![e.liPrev 4, e.li 4])]⟩]

/-- Product of `t - p` over the points of a set. -/
def PolySet.vanish (S : PolySet) (t : Fr) : Fr := ∏ i, (t - S.points i)

/-- The queries of a set, combined with powers of `zeta`. -/
noncomputable def PolySet.claim (S : PolySet) (zeta mu : Fr) : Fr[X] :=
  ((List.range S.queries.length).map fun j =>
    let q := S.queries.getD j (0, 0)
    zeta ^ j • (q.1 - C ((Lagrange.interpolate Finset.univ S.points q.2).eval mu))).sum

/-- All sets, combined with powers of `nu`. -/
noncomputable def totalPoly (sets : List PolySet) (zeta nu mu : Fr) : Fr[X] :=
  ((List.range sets.length).map fun i =>
    let S := sets.getD i ⟨0, 0, []⟩
    (nu ^ i * (S.vanish mu)⁻¹) • S.claim zeta mu).sum

/-- The polynomial that must vanish at the secret for the opening equation to hold.  It is computed
without the secret. -/
noncomputable def openPoly (V : Key) (K : KeyPolys) (Ch : Challenges) (inst : List Fr) (P : Polys) (e : Evals)
    (w w' : Fr[X]) : Fr[X] :=
  let sets := polySets V K Ch inst P e
  ((sets.getD 0 ⟨0, 0, []⟩).vanish Ch.mu) • (totalPoly sets Ch.zeta Ch.nu Ch.mu - w) + (C Ch.mu - X) * w'

/-- All polynomials of the prover before the opening have degree at most `D`. -/
structure Polys.Bound (P : Polys) (D : ℕ) : Prop where
  advice : ∀ i, (P.advice i).natDegree ≤ D
  lookupInput : ∀ i, (P.lookupInput i).natDegree ≤ D
  lookupTable : ∀ i, (P.lookupTable i).natDegree ≤ D
  permProduct : ∀ i, (P.permProduct i).natDegree ≤ D
  lookupProduct : ∀ i, (P.lookupProduct i).natDegree ≤ D
  random : P.random.natDegree ≤ D
  quotient : ∀ i, (P.quotient i).natDegree ≤ D

/-- All polynomials of the key have degree at most `D`. -/
structure KeyPolys.Bound (K : KeyPolys) (D : ℕ) : Prop where
  fixed : ∀ i, (K.fixed i).natDegree ≤ D
  perm : ∀ i, (K.perm i).natDegree ≤ D

/-! ### Satisfied constraint systems -/

/-- Number of rows on which the arguments act: the last six are blinded. -/
def Key.usable (V : Key) : ℕ := V.n - 6

/-- What the gates see of row `i`: cells of the advice columns in that row, the next and the previous one,
and the fixed cells. -/
noncomputable def gateRow (V : Key) (K : KeyPolys) (advice : Fin 5 → Fr[X]) (i : ℕ) : Evals :=
  evalsAt V K ⟨advice, 0, 0, 0, 0, 0, 0⟩ (V.omega ^ i)

/-- The cell in column `j` of the permutation argument (advice columns 0-4, public inputs, fixed columns
15-17) and row `i`. -/
noncomputable def cellAt (V : Key) (K : KeyPolys) (advice : Fin 5 → Fr[X]) (inst : List Fr) (j : Fin 9) (i : ℕ) :
    Fr :=
  permColumn ⟨gateRow V K advice i, inst.getD i 0, 0, 0, 0⟩ j

/-- The pair looked up by lookup `l`. -/
def lookupPair (e : Evals) : Fin 5 → Fr × Fr :=
  ![(e.f 18 * 5, e.f 18 * e.a 0), (e.f 18 * 5, e.f 18 * e.a 1), (e.f 18 * 5, e.f 18 * e.a 2),
    (e.f 18 * 5, e.f 18 * e.a 3), (e.f 11, e.f 19 * e.a 0)]

/-- The advice columns satisfy the constraint system with these public inputs. -/
structure Satisfied (V : Key) (K : KeyPolys) (advice : Fin 5 → Fr[X]) (inst : List Fr) : Prop where
  /-- gates, in every row -/
  main : ∀ i < V.n, mainGate (gateRow V K advice i) = 0
  full : ∀ i < V.n, ∀ j, fullRound (gateRow V K advice i) j = 0
  partials : ∀ i < V.n, ∀ c ∈ partialRounds (gateRow V K advice i), c = 0
  absorb : ∀ i < V.n, ∀ c ∈ padAndAdd (gateRow V K advice i), c = 0
  /-- copy constraints: where the permutation polynomial of column `j` has in row `i` the label of the cell
  in column `j'` and row `i'`, the two cells are equal -/
  copy : ∀ i < V.usable, ∀ i' < V.usable, ∀ j j' : Fin 9,
    (K.perm j).eval (V.omega ^ i) = delta ^ (j' : ℕ) * V.omega ^ i' →
    cellAt V K advice inst j i = cellAt V K advice inst j' i'
  /-- lookups: the pair looked up is in some row of the table -/
  lookup : ∀ l, ∀ i < V.usable, ∃ i' < V.usable, lookupPair (gateRow V K advice i) l =
    ((gateRow V K advice i').f 9, (gateRow V K advice i').f 10)

/-- The permutation polynomials are the labels of the cells, permuted. -/
def KeyPolys.Permutes (K : KeyPolys) (V : Key) : Prop :=
  ∃ σ : Equiv.Perm (Fin V.usable × Fin 9), ∀ c : Fin V.usable × Fin 9,
    (K.perm c.2).eval (V.omega ^ (c.1 : ℕ)) = delta ^ ((σ c).2 : ℕ) * V.omega ^ ((σ c).1 : ℕ)

/-! ### Exceptional challenges -/

/-- Challenges for which the verifier may be wrong.  The exceptions of each challenge depend only on what
was sent before it: the columns; permuted lookups; products and random polynomial; quotient; values;
first point of the opening. -/
structure Exceptions where
  theta (advice : Fin 5 → Fr[X]) : Finset Fr
  beta (advice : Fin 5 → Fr[X]) (theta : Fr) (lookupInput lookupTable : Fin 5 → Fr[X]) : Finset Fr
  gamma (advice : Fin 5 → Fr[X]) (theta : Fr) (lookupInput lookupTable : Fin 5 → Fr[X]) (beta : Fr) : Finset Fr
  y (advice : Fin 5 → Fr[X]) (theta : Fr) (lookupInput lookupTable : Fin 5 → Fr[X]) (beta gamma : Fr)
    (permProduct : Fin 3 → Fr[X]) (lookupProduct : Fin 5 → Fr[X]) (random : Fr[X]) : Finset Fr
  x (theta beta gamma y : Fr) (P : Polys) : Finset Fr
  zeta (theta beta gamma y x : Fr) (P : Polys) (e : Evals) : Finset Fr
  nu (theta beta gamma y x zeta : Fr) (P : Polys) (e : Evals) : Finset Fr
  mu (theta beta gamma y x zeta nu : Fr) (P : Polys) (e : Evals) (w : Fr[X]) : Finset Fr

/-- There are few exceptions, for polynomials of degree at most `D`. -/
structure Exceptions.Small (B : Exceptions) (V : Key) (D : ℕ) : Prop where
  theta : ∀ a, (B.theta a).card ≤ V.usable
  beta : ∀ a t li lt, (B.beta a t li lt).card ≤ 9 * V.usable
  gamma : ∀ a t li lt b, (B.gamma a t li lt b).card ≤ 18 * V.usable
  y : ∀ a t li lt b g z lz ra, (B.y a t li lt b g z lz ra).card ≤ 42
  x : ∀ t b g y P, (B.x t b g y P).card ≤ 6 * D + V.n + 6
  zeta : ∀ t b g y x P e, (B.zeta t b g y x P e).card ≤ 39
  nu : ∀ t b g y x z P e, (B.nu t b g y x z P e).card ≤ 4
  mu : ∀ t b g y x z n P e w, (B.mu t b g y x z n P e w).card ≤ D + 8

/-- One of the challenges is an exception. -/
def Exceptions.Hit (B : Exceptions) (C : Challenges) (P : Polys) (e : Evals) (w : Fr[X]) : Prop :=
  C.theta ∈ B.theta P.advice ∨
  C.beta ∈ B.beta P.advice C.theta P.lookupInput P.lookupTable ∨
  C.gamma ∈ B.gamma P.advice C.theta P.lookupInput P.lookupTable C.beta ∨
  C.y ∈ B.y P.advice C.theta P.lookupInput P.lookupTable C.beta C.gamma P.permProduct P.lookupProduct P.random ∨
  C.x ∈ B.x C.theta C.beta C.gamma C.y P ∨
  C.zeta ∈ B.zeta C.theta C.beta C.gamma C.y C.x P e ∨
  C.nu ∈ B.nu C.theta C.beta C.gamma C.y C.x C.zeta P e ∨
  C.mu ∈ B.mu C.theta C.beta C.gamma C.y C.x C.zeta C.nu P e w

/-! ### Interactive provers -/

/-- What a prover answers to the challenges received so far. -/
structure Prover where
  advice : Fin 5 → Fr[X]
  lookupInput (theta : Fr) : Fin 5 → Fr[X]
  lookupTable (theta : Fr) : Fin 5 → Fr[X]
  permProduct (theta beta gamma : Fr) : Fin 3 → Fr[X]
  lookupProduct (theta beta gamma : Fr) : Fin 5 → Fr[X]
  random (theta beta gamma : Fr) : Fr[X]
  quotient (theta beta gamma y : Fr) : Fin 5 → Fr[X]
  evals (theta beta gamma y x : Fr) : Evals
  w (theta beta gamma y x zeta nu : Fr) : Fr[X]
  w' (C : Challenges) : Fr[X]

/-- The polynomials of a prover. -/
def Prover.polys (A : Prover) (C : Challenges) : Polys where
  advice := A.advice
  lookupInput := A.lookupInput C.theta
  lookupTable := A.lookupTable C.theta
  permProduct := A.permProduct C.theta C.beta C.gamma
  lookupProduct := A.lookupProduct C.theta C.beta C.gamma
  random := A.random C.theta C.beta C.gamma
  quotient := A.quotient C.theta C.beta C.gamma C.y

/-- The values a prover claims. -/
def Prover.claims (A : Prover) (C : Challenges) : Evals := A.evals C.theta C.beta C.gamma C.y C.x

/-- The first point of a prover's opening. -/
def Prover.opening (A : Prover) (C : Challenges) : Fr[X] := A.w C.theta C.beta C.gamma C.y C.x C.zeta C.nu

/-- A prover's proof for some challenges. -/
noncomputable def Prover.proof (A : Prover) (s : Fr) (C : Challenges) : Proof :=
  proofOf s (A.polys C) (A.claims C) (A.opening C) (A.w' C)

/-- The polynomial that the opening of this proof claims to be zero at the secret. -/
noncomputable def Prover.claim (A : Prover) (V : Key) (K : KeyPolys) (inst : List Fr) (C : Challenges) : Fr[X] :=
  openPoly V K C inst (A.polys C) (A.claims C) (A.opening C) (A.w' C)

/-- Blinding: what the prover chooses for the rows that the arguments do not use, and a random polynomial. -/
structure Blinding where
  lookupInput (l : Fin 5) (row : ℕ) : Fr
  lookupTable (l : Fin 5) (row : ℕ) : Fr
  permProduct (k : Fin 3) (row : ℕ) : Fr
  lookupProduct (l : Fin 5) (row : ℕ) : Fr
  random : Fr[X]

/-- The prover uses this blinding. -/
structure Prover.Blinded (A : Prover) (V : Key) (b : Blinding) : Prop where
  lookupInput : ∀ theta l i, V.usable ≤ i → i < V.n →
    (A.lookupInput theta l).eval (V.omega ^ i) = b.lookupInput l i
  lookupTable : ∀ theta l i, V.usable ≤ i → i < V.n →
    (A.lookupTable theta l).eval (V.omega ^ i) = b.lookupTable l i
  permProduct : ∀ theta beta gamma k i, V.usable < i → i < V.n →
    (A.permProduct theta beta gamma k).eval (V.omega ^ i) = b.permProduct k i
  lookupProduct : ∀ theta beta gamma l i, V.usable < i → i < V.n →
    (A.lookupProduct theta beta gamma l).eval (V.omega ^ i) = b.lookupProduct l i
  random : ∀ theta beta gamma, A.random theta beta gamma = b.random

/-- The challenges, as eight field elements. -/
def Challenges.ofTuple (t : Fin 8 → Fr) : Challenges := ⟨t 0, t 1, t 2, t 3, t 4, t 5, t 6, t 7⟩

end Verif.Spec.Halo2
