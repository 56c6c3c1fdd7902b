import Verif.Model.Dkg
import Verif.Model.Bytes
import Verif.Lemmas.GroupOrder

/-!
Model of src/hash_to_curve.rs (Shallue-van de Woestijne map, Blake2b expander) at the Grumpkin curve,
as used by `hash_to_curve_grumpkin`, src/utils.rs:175-183.

Parameters: `sqrt`, the external `Field::sqrt` of the Grumpkin base field, of which only
`IsSqrt` is used, and `blake`, the external Blake2b-512 (with an all-zero personalisation).
-/

namespace Verif.Svdw
open Verif WeierstrassCurve.Affine

/-- `C::a()` of Grumpkin (external; src/hash_to_curve.rs:101). -/
def A : Fr := 0

/-- `C::b()` of Grumpkin (external; src/hash_to_curve.rs:102). -/
def B : Fr := -17

/-- `Field::sqrt` (external): a square root when there is one. -/
structure IsSqrt (sqrt : Fr → Option Fr) : Prop where
  sq : ∀ x y, sqrt x = some y → y ^ 2 = x
  some : ∀ x, IsSquare x → (sqrt x).isSome = true

/-- `is_odd` of a field element (external): parity of the canonical representative. -/
def isOdd (x : Fr) : Bool := x.val % 2 == 1

/-- `g(x) = x^3 + A x + B` in the order the code computes it, src/hash_to_curve.rs:124-131, 136-143
and 160-167. -/
def gx (x : Fr) : Fr := (x ^ 2 + A) * x + B

/-- `new_jacobian(x, y, 1).unwrap()`, src/hash_to_curve.rs:175: `None` off the curve. -/
def newPoint (x y : Fr) : Res Gk :=
  if h : y ^ 2 = x ^ 3 + -17 then .ok (.some x y ((gk_nonsingular_iff x y).2 h)) else .error .panic

/-- Steps 11-36 without the abscissas of `svdw_map_to_curve`, src/hash_to_curve.rs:132-175: selection of the abscissa, square
root with `unwrap`, choice of sign, construction of the point. -/
def finish (sqrt : Fr → Option Fr) (u x1 x2 x3 : Fr) : Res Gk :=
  let e1 := (sqrt (gx x1)).isSome
  let e2 := (sqrt (gx x2)).isSome && !e1
  let x := if e1 then x1 else x3
  let x := if e2 then x2 else x
  match sqrt (gx x) with
  | none => .error .panic
  | some y =>
    let e3 := isOdd u == isOdd y
    let y := if e3 then y else -y
    newPoint x y

/-- `svdw_map_to_curve`, src/hash_to_curve.rs:89-176 (`inv0` is the field inverse with `0⁻¹ = 0`). -/
def map (sqrt : Fr → Option Fr) (u c1 c2 c3 c4 z : Fr) : Res Gk :=
  let tv1 := u ^ 2
  let tv1 := tv1 * c1
  let tv2 := 1 + tv1
  let tv1 := 1 - tv1
  let tv3 := tv1 * tv2
  let tv3 := tv3⁻¹
  let tv4 := u * tv1
  let tv4 := tv4 * tv3
  let tv4 := tv4 * c3
  let x1 := c2 - tv4
  let x2 := c2 + tv4
  let x3 := tv2 ^ 2
  let x3 := x3 * tv3
  let x3 := x3 ^ 2
  let x3 := x3 * c4
  let x3 := x3 + z
  finish sqrt u x1 x2 x3

/-- `svdw_precomputed_constants`, src/hash_to_curve.rs:203-224; both `unwrap`s can panic. -/
def constants (sqrt : Fr → Option Fr) (z : Fr) : Res (Fr × Fr × Fr × Fr) :=
  let three : Fr := 1 + 1 + 1
  let four := three + 1
  let tmp := three * z ^ 2 + four * A
  let c1 := (z ^ 2 + A) * z + B
  let c2 := -z * 2⁻¹
  match sqrt (-c1 * tmp) with
  | none => .error .panic
  | some c3 =>
    let c3 := if isOdd c3 then -c3 else c3
    if tmp = 0 then .error .panic
    else
      let c4 := -four * c1 * tmp⁻¹
      .ok (c1, c2, c3, c4)

/-- Bytes of an ASCII literal. -/
def ascii (s : String) : List Byte := s.toList.map fun c => Fin.ofNat 256 c.toNat

/-- The common tail of the three hash inputs, src/hash_to_curve.rs:41-47, 54-60 and 70-76. -/
def tail (method curveId domain : List Byte) : List Byte :=
  domain ++ ascii "-" ++ curveId ++ ascii "_XMD:BLAKE2b_" ++ method ++ ascii "_RO_" ++
    [Fin.ofNat 256 (18 + method.length + curveId.length + domain.length)]

/-- Input of the first hash, src/hash_to_curve.rs:36-48. -/
def input0 (method curveId domain message : List Byte) : List Byte :=
  List.replicate 128 0 ++ message ++ [0, 128, 0] ++ tail method curveId domain

/-- Input of the second hash, src/hash_to_curve.rs:50-61. -/
def input1 (method curveId domain b0 : List Byte) : List Byte :=
  b0 ++ [1] ++ tail method curveId domain

/-- Input of the third hash, src/hash_to_curve.rs:63-78: the exclusive or of the two hashes. -/
def input2 (method curveId domain b0 b1 : List Byte) : List Byte :=
  List.zipWith (fun a b => a ^^^ b) b0 b1 ++ [2] ++ tail method curveId domain

/-- `hash_to_field`, src/hash_to_curve.rs:12-86; the two `assert!`s panic.  `from_uniform_bytes`
(external) reduces the 64-byte little-endian number modulo `r`. -/
def hashToField (blake : List Byte → List Byte) (method curveId domain message : List Byte) :
    Res (Fr × Fr) :=
  if ¬ domain.length < 256 then .error .panic
  else if ¬ 18 + method.length + curveId.length + domain.length < 256 then .error .panic
  else
    let b0 := blake (input0 method curveId domain message)
    let b1 := blake (input1 method curveId domain b0)
    let b2 := blake (input2 method curveId domain b0 b1)
    .ok ((ofLE b1.reverse : ℕ), (ofLE b2.reverse : ℕ))

/-- `svdw_hash_to_curve`, src/hash_to_curve.rs:180-201. -/
def hashToCurve (sqrt : Fr → Option Fr) (blake : List Byte → List Byte)
    (curveId domain : List Byte) (z : Fr) (message : List Byte) : Res Gk := do
  let (c1, c2, c3, c4) ← constants sqrt z
  let (u0, u1) ← hashToField blake (ascii "SVDW") curveId domain message
  let q0 ← map sqrt u0 c1 c2 c3 c4 z
  let q1 ← map sqrt u1 c1 c2 c3 c4 z
  return q0 + q1

/-- `hash_to_curve_grumpkin`, src/utils.rs:175-183. -/
def hashToCurveGrumpkin (sqrt : Fr → Option Fr) (blake : List Byte → List Byte)
    (domain message : List Byte) : Res Gk :=
  hashToCurve sqrt blake (ascii "grumpkin_g1") domain 1 message

end Verif.Svdw
