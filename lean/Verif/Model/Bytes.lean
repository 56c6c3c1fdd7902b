import Mathlib.Data.ZMod.Basic
import Verif.Model.Params

/-!
Bytes, 256-bit words and the byte encodings used by the Rust library and by Solidity.
-/

namespace Verif

/-- A byte (`u8` / Solidity `bytes1`). -/
abbrev Byte : Type := Fin 256

/-- A 256-bit EVM word (`uint256`, `bytes32`); also the output of Keccak256 read as a big-endian
number (`uint(hash)` in contracts/PseudoRand.sol:42). -/
abbrev Word : Type := BitVec 256

/-- Little-endian bytes of a number in `len` bytes.  Models `to_bytes()`/`to_repr()` of the
halo2curves fields with `len = 32` (external; used in src/dkg.rs:131-142 and bin/serialise.rs). -/
def leBytes : ℕ → ℕ → List Byte
  | 0, _ => []
  | len + 1, n => Fin.ofNat 256 n :: leBytes len (n / 256)

/-- Big-endian bytes (`usize::to_be_bytes` padded to 32 bytes in src/hash_to_curve_evm.rs:69-82;
`abi.encodePacked` of a `uint256`/`bytes32` in contracts/PseudoRand.sol:38). -/
def beBytes (len n : ℕ) : List Byte := (leBytes len n).reverse

/-- Number denoted by little-endian bytes. -/
def ofLE : List Byte → ℕ
  | [] => 0
  | b :: bs => b.val + 256 * ofLE bs

/-- Number denoted by big-endian bytes. -/
def ofBE (bs : List Byte) : ℕ := ofLE bs.reverse

/-- 32-byte big-endian form of a word: `finalize().to_vec()` in src/dkg.rs:145-149 relative to
`uint(keccak256(..))`; `abi.encodePacked(bytes32)`. -/
def Word.bytes (w : Word) : List Byte := beBytes 32 w.toNat

/-- Little-endian 32-byte representation of a field element (`x.to_bytes()`, src/dkg.rs:131). -/
def feBytes {p : ℕ} (x : ZMod p) : List Byte := leBytes 32 x.val

/-- `from_be_bytes` of src/hash_to_curve_evm.rs:57-64: four 64-bit limbs, least significant first,
read big-endian from the 32 bytes. -/
def fromBeBytes (bs : List Byte) : List ℕ :=
  [ofBE ((bs.drop 24).take 8), ofBE ((bs.drop 16).take 8), ofBE ((bs.drop 8).take 8),
    ofBE (bs.take 8)]

/-- `from_raw([u64; 4])` of the halo2curves fields (external; src/dkg.rs:150,
src/hash_to_curve_evm.rs:107): the field element of the number with these 64-bit limbs, reduced. -/
def fromRaw (p : ℕ) (limbs : List ℕ) : ZMod p :=
  limbs.foldr (fun l acc => (l : ZMod p) + (2 ^ 64 : ℕ) * acc) 0

end Verif
