import Verif.Model.ModExp

/-!
Model of src/hash_to_curve_evm.rs (field elements) and of contracts/libs/Hash.sol (EVM words).
-/

namespace Verif
open WeierstrassCurve.Affine

/-! ### Rust -/

namespace RustHash

/-- `Q2`, src/hash_to_curve_evm.rs:9-15. -/
def Q2 : Fq := fromRaw q [0x9e10460b6c3e7ea3, 0xcbc0b548b438e546, 0xdc2822db40c0ac2e,
  0x183227397098d014]

/-- `MINUS_ONE`, src/hash_to_curve_evm.rs:17-23. -/
def MINUS_ONE : Fq := fromRaw q [0x3c208c16d87cfd46, 0x97816a916871ca8d, 0xb85045b68181585d,
  0x30644e72e131a029]

/-- `R`, src/hash_to_curve_evm.rs:25-31. -/
def R : Fq := fromRaw q [0xd35d438dc58f0d9d, 0x0a78eb28f5c70b3d, 0x666ea36f7879462c,
  0x0e0a77c19a07df2f]

/-- `C1`, src/hash_to_curve_evm.rs:33-39. -/
def C1 : Fq := fromRaw q [0x5763473177fffffe, 0xd4f263f1acdb5c4f, 0x59e26bcea0d48bac,
  0x0000000000000000]

/-- `C2`, src/hash_to_curve_evm.rs:41-47. -/
def C2 : Fq := fromRaw q [0xaec68e62effffffd, 0xa9e4c7e359b6b89e, 0xb3c4d79d41a91759,
  0x0000000000000000]

/-- `C3`, src/hash_to_curve_evm.rs:49-55. -/
def C3 : Fq := fromRaw q [0xd2c05d6490535385, 0xba56470b9af68708, 0xd03583cf0100e593,
  0x2042def740cbc01b]

/-- A length as 8 big-endian bytes (`usize::to_be_bytes`) padded to 32 bytes,
src/hash_to_curve_evm.rs:67-80. -/
def lenBytes (n : ℕ) : List Byte := List.replicate (32 - 8) 0 ++ beBytes 8 n

/-- The byte string given to the first Keccak call, src/hash_to_curve_evm.rs:82-88. -/
def frame (domain message : List Byte) : List Byte :=
  [0, 1] ++ lenBytes domain.length ++ domain ++ lenBytes message.length ++ message

/-- `hash_to_field_evm`, src/hash_to_curve_evm.rs:66-113. -/
def hashToField (keccak : Keccak) (domain message : List Byte) : Fq × Fq :=
  let hash0 := Word.bytes (keccak (frame domain message))
  let hash1 := Word.bytes (keccak ([2, 3] ++ hash0))
  let hash2 := Word.bytes (keccak ([4, 5] ++ hash1))
  let hash3 := Word.bytes (keccak ([6, 7] ++ hash2))
  let t0 := fromRaw q (fromBeBytes hash0)
  let t1 := fromRaw q (fromBeBytes hash1)
  let t2 := fromRaw q (fromBeBytes hash2)
  let t3 := fromRaw q (fromBeBytes hash3)
  (t0 * R + t1, t2 * R + t3)

/-- `sign`, src/hash_to_curve_evm.rs:115-121 (`<=` on field elements compares representatives). -/
def sign (t : Fq) : Fq := if t.val ≤ Q2.val then 1 else MINUS_ONE

/-- Exponent of `Fq::sqrt`. -/
@[irreducible] def sqrtExp : ℕ := (q + 1) / 4

/-- `Fq::sqrt` of halo2curves (external; src/hash_to_curve_evm.rs:143-151): the power
`(q+1)/4`, checked by squaring. -/
@[irreducible] def sqrt (u : Fq) : Option Fq :=
  if (u ^ sqrtExp) ^ 2 = u then some (u ^ sqrtExp) else none

/-- `invert().unwrap_or(ZERO)`, src/hash_to_curve_evm.rs:133. -/
def inv0 (x : Fq) : Fq := if x = 0 then 0 else x⁻¹

/-- Selection of the first candidate with a square root, and its signed ordinate,
src/hash_to_curve_evm.rs:142-159; both `unwrap`s can panic. -/
def select (tSign x1 x2 x3 : Fq) (y1 y2 y3 : Option Fq) : Res G1 :=
  let x := if y1.isSome then x1 else if y2.isSome then x2 else x3
  match y1.or (y2.or y3) with
  | none => .error .panic
  | some y =>
    let y := y * tSign
    if h : y ^ 2 = x ^ 3 + 3 then .ok (.some x y ((bn_nonsingular_iff x y).2 h)) else .error .panic

/-- `map_to_curve_evm`, src/hash_to_curve_evm.rs:123-160. -/
def mapToCurve (t : Fq) : Res G1 :=
  let tSign := sign t
  let tSquare := t ^ 2
  let t4 := tSquare ^ 2
  let r := tSquare + 4
  let rSquare := r ^ 2
  let s := r * rSquare
  let alpha := inv0 (tSquare * r)
  let x1 := C1 - C2 * t4 * alpha
  let x2 := -(x1 + 1)
  let x3 := 1 - s * alpha * C3
  select tSign x1 x2 x3 (sqrt (x1 ^ 3 + 3)) (sqrt (x2 ^ 3 + 3)) (sqrt (x3 ^ 3 + 3))

/-- `hash_to_curve_evm`, src/hash_to_curve_evm.rs:162-175. -/
def hashToCurve (keccak : Keccak) (domain message : List Byte) : Res G1 := do
  let f := hashToField keccak domain message
  let q0 ← mapToCurve f.1
  let q1 ← mapToCurve f.2
  return q0 + q1

end RustHash

/-! ### Solidity -/

namespace SolHash

/-- `Q`, contracts/libs/Hash.sol:8. -/
def Q : Word := 21888242871839275222246405745257275088696311157297823662689037894645226208583
/-- `Q2`, contracts/libs/Hash.sol:12. -/
def Q2 : Word := 10944121435919637611123202872628637544348155578648911831344518947322613104291
/-- `R`, contracts/libs/Hash.sol:14. -/
def R : Word := 6350874878119819312338956282401532409788428879151445726012394534686998597021
/-- `C1`, contracts/libs/Hash.sol:16. -/
def C1 : Word := 2203960485148121921418603742825762020974279258880205651966
/-- `C2`, contracts/libs/Hash.sol:18. -/
def C2 : Word := 4407920970296243842837207485651524041948558517760411303933
/-- `C3`, contracts/libs/Hash.sol:20. -/
def C3 : Word := 14592161914559516814830937163504850059130874104865215775126025263096817472389

/-- `sqrt`, contracts/libs/Hash.sol:24-27. -/
def sqrt (a : Word) : Word × Bool :=
  let r := ModExp.sqrt a
  (r, decide (mulmod r r Q = a))

/-- `sign`, contracts/libs/Hash.sol:29-35. -/
def sign (t : Word) : Bool := decide (t.toNat ≤ Q2.toNat)

/-- `abi.encodePacked(uint256)`. -/
def packed (n : ℕ) : List Byte := beBytes 32 n

/-- `abi.encodePacked(bytes1(0x00), bytes1(0x01), domain_len, domain, msg_len, message)`,
contracts/libs/Hash.sol:44. -/
def frame (domain message : List Byte) : List Byte :=
  [0] ++ [1] ++ packed domain.length ++ domain ++ packed message.length ++ message

/-- `hashToField`, contracts/libs/Hash.sol:40-61. -/
def hashToField (keccak : Keccak) (domain message : List Byte) : Word × Word :=
  let hash0 := keccak (frame domain message)
  let hash1 := keccak ([2] ++ [3] ++ Word.bytes hash0)
  let hash2 := keccak ([4] ++ [5] ++ Word.bytes hash1)
  let hash3 := keccak ([6] ++ [7] ++ Word.bytes hash2)
  let f1 := addmod (mulmod hash0 R Q) hash1 Q
  let f2 := addmod (mulmod hash2 R Q) hash3 Q
  (f1, f2)

/-- `x^3 + 3`, contracts/libs/Hash.sol:91-93, 106-108 and 124-126. -/
def rhs (x : Word) : Word := addmod (mulmod (mulmod x x Q) x Q) 3 Q

/-- Applying the sign, contracts/libs/Hash.sol:96-98, 111-113 and 129-131 (checked subtraction). -/
def withSign (tSign : Bool) (y : Word) : Evm Word := if !tSign then checkedSub Q y else some y

/-- `alpha`, contracts/libs/Hash.sol:75-82. -/
def alphaOf (t : Word) : Word :=
  let tSquare := mulmod t t Q
  let r := addmod tSquare 4 Q
  ModExp.inverse (mulmod tSquare r Q)

/-- `x1`, contracts/libs/Hash.sol:84-87. -/
def x1Of (t : Word) : Evm Word := do
  let tSquare := mulmod t t Q
  let t4 := mulmod tSquare tSquare Q
  let m ← checkedSub Q (mulmod C2 (mulmod t4 (alphaOf t) Q) Q)
  return addmod C1 m Q

/-- `x2`, contracts/libs/Hash.sol:103-104. -/
def x2Of (x1 : Word) : Evm Word := checkedSub Q (addmod x1 1 Q)

/-- `x3`, contracts/libs/Hash.sol:119-122. -/
def x3Of (t : Word) : Evm Word := do
  let tSquare := mulmod t t Q
  let r := addmod tSquare 4 Q
  let rSquare := mulmod r r Q
  let s := mulmod r rSquare Q
  let m ← checkedSub Q (mulmod (mulmod s (alphaOf t) Q) C3 Q)
  return addmod m 1 Q

/-- One candidate: the point if `x^3 + 3` has a root, contracts/libs/Hash.sol:90-101, 105-117 and
123-132. -/
def tryPoint (tSign : Bool) (x : Word) : Evm (Option SolG1) :=
  if (sqrt (rhs x)).2 then do
    let y ← withSign tSign (sqrt (rhs x)).1
    return some ⟨x, y⟩
  else return none

/-- `mapToG1`, contracts/libs/Hash.sol:64-134. -/
def mapToG1 (t : Word) : Evm SolG1 := do
  require (decide (t.toNat < Q.toNat))
  let x1 ← x1Of t
  match ← tryPoint (sign t) x1 with
  | some p => return p
  | none =>
    let x2 ← x2Of x1
    match ← tryPoint (sign t) x2 with
    | some p => return p
    | none =>
      let x3 ← x3Of t
      tryPoint (sign t) x3 >>= id

/-- `hashToG1`, contracts/libs/Hash.sol:137-142. -/
def hashToG1 (keccak : Keccak) (domain message : List Byte) : Evm SolG1 := do
  let f := hashToField keccak domain message
  let g ← mapToG1 f.1
  let h ← mapToG1 f.2
  Pairing.addition g h

end SolHash

end Verif
