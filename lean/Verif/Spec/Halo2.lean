import Mathlib.LinearAlgebra.Lagrange
import Mathlib.RingTheory.RootsOfUnity.PrimitiveRoots
import Verif.Model.Poseidon
import Verif.Model.Evm
import Verif.Model.Dkg

/-!
What the on-chain verifier of the DKG proof is supposed to check: Halo2 (PLONK with lookups) with the
SHPLONK opening of KZG commitments, for the constraint system of the DKG circuit.  Nothing here
mentions call data, memory or machine words; the serialisation of proofs is at the end.
-/

namespace Verif.Spec.Halo2

/-- The values of the committed polynomials claimed by the proof.  `x` is the evaluation point and
`w` the generator of the domain: next is `w x`, previous is `x / w`, last is `x / w^6`. -/
structure Evals where
  /-- advice columns at `x` -/
  a : Fin 5 → Fr
  /-- advice column 4 at the next row -/
  a4Next : Fr
  /-- advice columns 0, 1, 2 at the next row -/
  aNext : Fin 3 → Fr
  /-- advice columns 0, 1, 2 at the previous row -/
  aPrev : Fin 3 → Fr
  /-- fixed columns at `x` -/
  f : Fin 23 → Fr
  /-- the random polynomial at `x` -/
  random : Fr
  /-- permutation polynomials at `x` -/
  s : Fin 9 → Fr
  /-- products of the permutation argument at `x`, at the next row and (all but the last) at the last
  row -/
  z : Fin 3 → Fr
  zNext : Fin 3 → Fr
  zLast : Fin 2 → Fr
  /-- lookup products at `x` and at the next row -/
  lz : Fin 5 → Fr
  lzNext : Fin 5 → Fr
  /-- permuted lookup inputs at `x` and at the previous row, permuted lookup tables at `x` -/
  li : Fin 5 → Fr
  liPrev : Fin 5 → Fr
  lt : Fin 5 → Fr

/-- A proof: the commitments in the order of the protocol, the claimed values, and the two points of
the opening. -/
structure Proof where
  advice : Fin 5 → G1
  lookupInput : Fin 5 → G1
  lookupTable : Fin 5 → G1
  permProduct : Fin 3 → G1
  lookupProduct : Fin 5 → G1
  random : G1
  quotient : Fin 5 → G1
  evals : Evals
  w : G1
  w' : G1

/-- A verifying key. -/
structure Key where
  digest : Word
  /-- number of public inputs -/
  instances : ℕ
  /-- the domain has `2 ^ k` rows, `omega` is a root of unity of that order -/
  k : ℕ
  omega : Fr
  g1 : G1
  g2 : G2
  negSG2 : G2
  fixed : Fin 23 → G1
  perm : Fin 9 → G1

/-- The verifier's challenges. -/
structure Challenges where
  theta : Fr
  beta : Fr
  gamma : Fr
  y : Fr
  x : Fr
  zeta : Fr
  nu : Fr
  mu : Fr

/-! ### The domain -/

/-- Number of rows. -/
def Key.n (V : Key) : ℕ := 2 ^ V.k

/-- Value at `x` of the polynomial of degree below `n` that is 1 at the root of unity `a` and 0 at the
other `n`-th roots of unity. -/
def lagrangeAt (n : ℕ) (x a : Fr) : Fr := a * (x ^ n - 1) / (n * (x - a))

/-- The row of the last usable product, followed by five blinded rows. -/
def lLast (V : Key) (x : Fr) : Fr := lagrangeAt V.n x (V.omega⁻¹ ^ 6)
/-- Sum over the blinded rows. -/
def lBlind (V : Key) (x : Fr) : Fr := ∑ i ∈ Finset.range 5, lagrangeAt V.n x (V.omega⁻¹ ^ (i + 1))
/-- The first row. -/
def l0 (V : Key) (x : Fr) : Fr := lagrangeAt V.n x 1
/-- The instance column at `x`. -/
def instanceAt (V : Key) (inst : List Fr) (x : Fr) : Fr :=
  ∑ i ∈ Finset.range inst.length, lagrangeAt V.n x (V.omega ^ i) * inst.getD i 0

/-! ### The constraints -/

/-- Everything the constraints refer to. -/
structure Row where
  e : Evals
  inst : Fr
  l0 : Fr
  lLast : Fr
  lBlind : Fr

/-- The main gate: fixed columns 0-4 are the coefficients of the five cells, 5 and 6 those of the two
products, 7 that of the fifth cell of the next row, 8 the constant. -/
def mainGate (e : Evals) : Fr :=
  e.a 0 * e.f 0 + e.a 1 * e.f 1 + e.a 2 * e.f 2 + e.a 3 * e.f 3 + e.a 4 * e.f 4 +
    e.a 0 * e.a 1 * e.f 5 + e.a 2 * e.a 3 * e.f 6 + e.f 7 * e.a4Next + e.f 8

/-- First round constants of a Poseidon row. -/
def rcA (e : Evals) : Fin 3 → Fr := ![e.f 12, e.f 13, e.f 14]
/-- Second round constants of a Poseidon row. -/
def rcB (e : Evals) : Fin 3 → Fr := ![e.f 15, e.f 16, e.f 17]

/-- Row `i` of a matrix applied to a vector. -/
def dot (m : Fin 3 → Fr) (v : Fin 3 → Fr) : Fr := v 0 * m 0 + v 1 * m 1 + v 2 * m 2

/-- Full round of Poseidon, enabled by fixed column 20. -/
def fullRound (e : Evals) (i : Fin 3) : Fr :=
  e.f 20 * (dot (Poseidon.MDS i)
    ![(e.a 0 + rcA e 0) ^ 5, (e.a 1 + rcA e 1) ^ 5, (e.a 2 + rcA e 2) ^ 5] - e.aNext i)

/-- State in the middle of a row with two partial rounds; the fourth cell is the first S-box. -/
def mid (e : Evals) (i : Fin 3) : Fr :=
  dot (Poseidon.MDS i) ![e.a 3, e.a 1 + rcA e 1, e.a 2 + rcA e 2]

/-- Two partial rounds of Poseidon, enabled by fixed column 21. -/
def partialRounds (e : Evals) : List Fr :=
  [e.f 21 * ((e.a 0 + rcA e 0) ^ 5 - e.a 3),
   e.f 21 * ((mid e 0 + rcB e 0) ^ 5 - dot (Poseidon.MDS_INV 0) e.aNext),
   e.f 21 * (mid e 1 + rcB e 1 - dot (Poseidon.MDS_INV 1) e.aNext),
   e.f 21 * (mid e 2 + rcB e 2 - dot (Poseidon.MDS_INV 2) e.aNext)]

/-- Absorbing an input of the sponge, enabled by fixed column 22: the third word does not change. -/
def padAndAdd (e : Evals) : List Fr :=
  [e.f 22 * (e.aPrev 0 + e.a 0 - e.aNext 0),
   e.f 22 * (e.aPrev 1 + e.a 1 - e.aNext 1),
   e.f 22 * (e.aPrev 2 - e.aNext 2)]

/-- The nine columns of the permutation argument. -/
def permColumn (R : Row) : Fin 9 → Fr :=
  ![R.e.a 0, R.e.a 1, R.e.a 2, R.e.a 3, R.e.a 4, R.inst, R.e.f 15, R.e.f 16, R.e.f 17]

/-- `delta`, whose powers separate the columns of the permutation argument. -/
def delta : Fr := 4131629893567559867359510883348571134090853742863529169391034518566172092834

/-- Rows in which arguments are active. -/
def active (R : Row) : Fr := 1 - (R.lLast + R.lBlind)

/-- Step of product `k` of the permutation argument over some columns. -/
def permStep (C : Challenges) (R : Row) (k : Fin 3) (cols : List (Fin 9)) : Fr :=
  active R *
    (R.e.zNext k * (cols.map fun j => permColumn R j + C.beta * R.e.s j + C.gamma).prod -
     R.e.z k * (cols.map fun j => permColumn R j + C.beta * (delta ^ (j : ℕ) * C.x) + C.gamma).prod)

/-- The permutation argument. -/
def permutation (C : Challenges) (R : Row) : List Fr :=
  [R.l0 * (1 - R.e.z 0),
   R.lLast * (R.e.z 2 ^ 2 - R.e.z 2),
   R.l0 * (R.e.z 1 - R.e.zLast 0),
   R.l0 * (R.e.z 2 - R.e.zLast 1),
   permStep C R 0 [0, 1, 2, 3],
   permStep C R 1 [4, 5, 6, 7],
   permStep C R 2 [8]]

/-- Input of lookup `i`: the first four look up (5, cell), enabled by fixed column 18, the last one
looks up (tag, first cell), tag and enabling in fixed columns 11 and 19. -/
def lookupInput (C : Challenges) (e : Evals) : Fin 5 → Fr :=
  ![e.f 18 * 5 * C.theta + e.f 18 * e.a 0,
    e.f 18 * 5 * C.theta + e.f 18 * e.a 1,
    e.f 18 * 5 * C.theta + e.f 18 * e.a 2,
    e.f 18 * 5 * C.theta + e.f 18 * e.a 3,
    e.f 11 * C.theta + e.f 19 * e.a 0]

/-- The lookup table: (tag, value) in fixed columns 9 and 10. -/
def lookupTable (C : Challenges) (e : Evals) : Fr := e.f 9 * C.theta + e.f 10

/-- The lookup argument. -/
def lookup (C : Challenges) (R : Row) (i : Fin 5) : List Fr :=
  [R.l0 * (1 - R.e.lz i),
   R.lLast * (R.e.lz i ^ 2 - R.e.lz i),
   active R * (R.e.lzNext i * ((R.e.li i + C.beta) * (R.e.lt i + C.gamma)) -
     R.e.lz i * ((lookupInput C R.e i + C.beta) * (lookupTable C R.e + C.gamma))),
   R.l0 * (R.e.li i - R.e.lt i),
   active R * ((R.e.li i - R.e.lt i) * (R.e.li i - R.e.liPrev i))]

/-- All constraints, in the order of the protocol. -/
def constraints (C : Challenges) (R : Row) : List Fr :=
  [mainGate R.e, fullRound R.e 0, fullRound R.e 1, fullRound R.e 2] ++
  partialRounds R.e ++ padAndAdd R.e ++ permutation C R ++
  lookup C R 0 ++ lookup C R 1 ++ lookup C R 2 ++ lookup C R 3 ++ lookup C R 4

/-- Constraints combined with powers of `y`: the last one has coefficient 1. -/
def combine (y : Fr) (l : List Fr) : Fr := l.foldl (fun acc t => acc * y + t) 0

/-- The value the quotient polynomial must have at `x`. -/
def quotientEval (V : Key) (C : Challenges) (inst : List Fr) (e : Evals) : Fr :=
  combine C.y (constraints C ⟨e, instanceAt V inst C.x, l0 V C.x, lLast V C.x, lBlind V C.x⟩) /
    (C.x ^ V.n - 1)

/-- Commitment of the quotient polynomial, from the commitments of its five pieces. -/
noncomputable def quotientComm (V : Key) (C : Challenges) (P : Proof) : G1 :=
  ∑ i : Fin 5, (C.x ^ V.n) ^ (i : ℕ) • P.quotient i

/-! ### The opening -/

/-- Commitments opened at the same points, with their claimed values. -/
structure OpenSet where
  size : ℕ
  points : Fin size → Fr
  queries : List (G1 × (Fin size → Fr))

/-- The polynomials opened, grouped by the points. -/
noncomputable def openSets (V : Key) (C : Challenges) (inst : List Fr) (P : Proof) : List OpenSet :=
  let x := C.x
  let next := x * V.omega
  let prev := x * V.omega⁻¹
  let last := x * V.omega⁻¹ ^ 6
  let e := P.evals
  let fixed (i : Fin 23) : G1 × (Fin 1 → Fr) := (V.fixed i, ![e.f i])
  [⟨3, ![prev, x, next],
     [(P.advice 0, ![e.aPrev 0, e.a 0, e.aNext 0]),
      (P.advice 1, ![e.aPrev 1, e.a 1, e.aNext 1]),
      (P.advice 2, ![e.aPrev 2, e.a 2, e.aNext 2])]⟩,
   ⟨1, ![x],
     [(P.advice 3, ![e.a 3]),
      (P.lookupTable 0, ![e.lt 0]), (P.lookupTable 1, ![e.lt 1]), (P.lookupTable 2, ![e.lt 2]),
      (P.lookupTable 3, ![e.lt 3]), (P.lookupTable 4, ![e.lt 4]),
      fixed 0, fixed 1, fixed 2, fixed 3, fixed 4, fixed 7, fixed 5, fixed 6, fixed 8, fixed 9,
      fixed 10, fixed 11, fixed 15, fixed 16, fixed 17, fixed 12, fixed 13, fixed 14, fixed 18,
      fixed 19, fixed 20, fixed 21, fixed 22,
      (V.perm 0, ![e.s 0]), (V.perm 1, ![e.s 1]), (V.perm 2, ![e.s 2]), (V.perm 3, ![e.s 3]),
      (V.perm 4, ![e.s 4]), (V.perm 5, ![e.s 5]), (V.perm 6, ![e.s 6]), (V.perm 7, ![e.s 7]),
      (V.perm 8, ![e.s 8]),
      (quotientComm V C P, ![quotientEval V C inst e]),
      (P.random, ![e.random])]⟩,
   ⟨2, ![x, next],
     [(P.advice 4, ![e.a 4, e.a4Next]), (P.permProduct 2, ![e.z 2, e.zNext 2]),
      (P.lookupProduct 0, ![e.lz 0, e.lzNext 0]), (P.lookupProduct 1, ![e.lz 1, e.lzNext 1]),
      (P.lookupProduct 2, ![e.lz 2, e.lzNext 2]), (P.lookupProduct 3, ![e.lz 3, e.lzNext 3]),
      (P.lookupProduct 4, ![e.lz 4, e.lzNext 4])]⟩,
   ⟨3, ![last, x, next],
     [(P.permProduct 0, ![e.zLast 0, e.z 0, e.zNext 0]),
      (P.permProduct 1, ![e.zLast 1, e.z 1, e.zNext 1])]⟩,
   ⟨2, ![prev, x],
     [(P.lookupInput 0, ![e.liPrev 0, e.li 0]), (P.lookupInput 1, ![e.liPrev 1, e.li 1]),
      (P.lookupInput 2, ![e.liPrev 2, e.li 2]), (P.lookupInput 3, ![e.liPrev 3, e.li 3]),
      (P.lookupInput 4, ![e.liPrev 4, e.li 4])]⟩]

/-- Product of `t - p` over the points of a set. -/
def OpenSet.vanish (S : OpenSet) (t : Fr) : Fr := ∏ i, (t - S.points i)

/-- The polynomial with the claimed values at the points of a set. -/
noncomputable def OpenSet.interpolant (S : OpenSet) (v : Fin S.size → Fr) : Polynomial Fr :=
  Lagrange.interpolate Finset.univ S.points v

/-- The queries of a set, combined with powers of `zeta`. -/
noncomputable def OpenSet.claim (S : OpenSet) (g : G1) (zeta mu : Fr) : G1 :=
  ((List.range S.queries.length).map fun j =>
    let q := S.queries.getD j (0, 0)
    zeta ^ j • (q.1 - (S.interpolant q.2).eval mu • g)).sum

/-- The combination of all sets with powers of `nu`, each divided by its vanishing polynomial. -/
noncomputable def totalClaim (sets : List OpenSet) (g : G1) (zeta nu mu : Fr) : G1 :=
  ((List.range sets.length).map fun i =>
    let S := sets.getD i ⟨0, 0, []⟩
    (nu ^ i * (S.vanish mu)⁻¹) • S.claim g zeta mu).sum

/-- The equation of the opening: `w` commits to the combined quotient, and the resulting linear
combination is opened at `mu` to zero by `w'`.  It is scaled by the vanishing polynomial of the first
set. -/
noncomputable def openEquation (E : BnPairing) (V : Key) (C : Challenges) (sets : List OpenSet)
    (P : Proof) : Prop :=
  let scale := (sets.getD 0 ⟨0, 0, []⟩).vanish C.mu
  E.e (scale • (totalClaim sets V.g1 C.zeta C.nu C.mu - P.w) + C.mu • P.w') V.g2 +
    E.e P.w' V.negSG2 = 0

/-- What the verifier has to check. -/
noncomputable def Accepts (E : BnPairing) (V : Key) (C : Challenges) (inst : List Fr) (P : Proof) :
    Prop :=
  openEquation E V C (openSets V C inst P) P

/-- Challenges for which the checks make sense: `x` is not a row, and `mu` is not one of the points
opened. -/
structure Challenges.Good (C : Challenges) (V : Key) : Prop where
  x_ne : C.x ≠ 0
  x_row : C.x ^ V.n ≠ 1
  mu : C.mu ≠ C.x ∧ C.mu ≠ C.x * V.omega ∧ C.mu ≠ C.x * V.omega⁻¹ ∧ C.mu ≠ C.x * V.omega⁻¹ ^ 6

/-! ### Serialisation -/

/-- The two words of a point. -/
def pointWords (P : G1) : List Word := [(encodeG1 P).x, (encodeG1 P).y]

/-- The four words of a point of the twist, imaginary parts first. -/
def g2Words (Q : G2) : List Word :=
  [(encodeG2 Q).x1, (encodeG2 Q).x0, (encodeG2 Q).y1, (encodeG2 Q).y0]

/-- The words of a verifying key; the four zeros say that there is no accumulator. -/
def Key.words (V : Key) : List Word :=
  [V.digest, BitVec.ofNat 256 V.instances, BitVec.ofNat 256 V.k, wordOf ((V.n : Fr)⁻¹), wordOf V.omega,
   wordOf V.omega⁻¹, wordOf (V.omega⁻¹ ^ 6), 0, 0, 0, 0] ++ pointWords V.g1 ++ g2Words V.g2 ++
  g2Words V.negSG2 ++ (List.finRange 23).flatMap (fun i => pointWords (V.fixed i)) ++
  (List.finRange 9).flatMap fun i => pointWords (V.perm i)

/-- Keys that make sense: the generator of the domain has the right order, there are at least eight
rows (the opening uses four different points), and the points of the twist have order `r`. -/
structure Key.Valid (V : Key) : Prop where
  root : IsPrimitiveRoot V.omega V.n
  k_ge : 3 ≤ V.k
  k_le : V.k ≤ 28
  instances : V.instances < 2 ^ 64
  g2 : r • V.g2 = 0
  negSG2 : r • V.negSG2 = 0

/-- The commitments sent before the evaluations. -/
def Proof.points (P : Proof) : List G1 :=
  [P.advice 0, P.advice 1, P.advice 2, P.advice 3, P.advice 4,
   P.lookupInput 0, P.lookupTable 0, P.lookupInput 1, P.lookupTable 1, P.lookupInput 2,
   P.lookupTable 2, P.lookupInput 3, P.lookupTable 3, P.lookupInput 4, P.lookupTable 4,
   P.permProduct 0, P.permProduct 1, P.permProduct 2,
   P.lookupProduct 0, P.lookupProduct 1, P.lookupProduct 2, P.lookupProduct 3, P.lookupProduct 4,
   P.random,
   P.quotient 0, P.quotient 1, P.quotient 2, P.quotient 3, P.quotient 4]

/-- The evaluations, in the order in which they are sent. -/
def Evals.list (e : Evals) : List Fr :=
  [e.a 0, e.a 1, e.a 2, e.a 3, e.a 4, e.a4Next, e.aNext 0, e.aNext 1, e.aNext 2, e.aPrev 2, e.aPrev 0,
   e.aPrev 1,
   e.f 0, e.f 1, e.f 2, e.f 3, e.f 4, e.f 7, e.f 5, e.f 6, e.f 8, e.f 9, e.f 10, e.f 11, e.f 15,
   e.f 16, e.f 17, e.f 12, e.f 13, e.f 14, e.f 18, e.f 19, e.f 20, e.f 21, e.f 22,
   e.random,
   e.s 0, e.s 1, e.s 2, e.s 3, e.s 4, e.s 5, e.s 6, e.s 7, e.s 8,
   e.z 0, e.zNext 0, e.zLast 0, e.z 1, e.zNext 1, e.zLast 1, e.z 2, e.zNext 2,
   e.lz 0, e.lzNext 0, e.li 0, e.liPrev 0, e.lt 0,
   e.lz 1, e.lzNext 1, e.li 1, e.liPrev 1, e.lt 1,
   e.lz 2, e.lzNext 2, e.li 2, e.liPrev 2, e.lt 2,
   e.lz 3, e.lzNext 3, e.li 3, e.liPrev 3, e.lt 3,
   e.lz 4, e.lzNext 4, e.li 4, e.liPrev 4, e.lt 4]

/-- The words of a proof. -/
def Proof.words (P : Proof) : List Word :=
  P.points.flatMap pointWords ++ P.evals.list.map wordOf ++ pointWords P.w ++ pointWords P.w'

/-- The bytes of a proof. -/
def Proof.bytes (P : Proof) : List Byte := P.words.flatMap Word.bytes

/-- No commitment is the point at infinity. -/
def Proof.Finite (P : Proof) : Prop := (∀ p ∈ P.points, p ≠ 0) ∧ P.w ≠ 0 ∧ P.w' ≠ 0

/-! ### The transcript -/

/-- Field element of a hash. -/
def challenge (h : Word) : Fr := ((h.toNat : ℕ) : Fr)

/-- Bytes of words. -/
def bytesOf (l : List Word) : List Byte := l.flatMap Word.bytes

/-- The successive hashes: each absorbs the previous one and the next part of the proof; the third and
the seventh only the previous one and the byte 1. -/
def hashes (keccak : Keccak) (digest : Word) (inst : List Word) (pw : List Word) : List Word :=
  let h1 := keccak (bytesOf (digest :: inst ++ pw.take 10))
  let h2 := keccak (bytesOf (h1 :: (pw.drop 10).take 20))
  let h3 := keccak (Word.bytes h2 ++ [1])
  let h4 := keccak (bytesOf (h3 :: (pw.drop 30).take 18))
  let h5 := keccak (bytesOf (h4 :: (pw.drop 48).take 10))
  let h6 := keccak (bytesOf (h5 :: (pw.drop 58).take 78))
  let h7 := keccak (Word.bytes h6 ++ [1])
  let h8 := keccak (bytesOf (h7 :: (pw.drop 136).take 2))
  [h1, h2, h3, h4, h5, h6, h7, h8]

/-- How many words of the proof the successive hashes depend on. -/
def seen : List ℕ := [10, 30, 30, 48, 58, 136, 136, 138]

/-- The inputs of the successive hashes. -/
def hashInputs (keccak : Keccak) (digest : Word) (inst : List Word) (pw : List Word) : List (List Byte) :=
  let h := hashes keccak digest inst pw
  [bytesOf (digest :: inst ++ pw.take 10),
   bytesOf (h.getD 0 0 :: (pw.drop 10).take 20),
   Word.bytes (h.getD 1 0) ++ [1],
   bytesOf (h.getD 2 0 :: (pw.drop 30).take 18),
   bytesOf (h.getD 3 0 :: (pw.drop 48).take 10),
   bytesOf (h.getD 4 0 :: (pw.drop 58).take 78),
   Word.bytes (h.getD 5 0) ++ [1],
   bytesOf (h.getD 6 0 :: (pw.drop 136).take 2)]

/-- The challenges of the transcript of the instances and the words of the proof. -/
def challengesOf (keccak : Keccak) (V : Key) (inst : List Fr) (pw : List Word) : Challenges :=
  let h := hashes keccak V.digest (wordsOf inst) pw
  ⟨challenge (h.getD 0 0), challenge (h.getD 1 0), challenge (h.getD 2 0), challenge (h.getD 3 0),
   challenge (h.getD 4 0), challenge (h.getD 5 0), challenge (h.getD 6 0), challenge (h.getD 7 0)⟩

end Verif.Spec.Halo2
