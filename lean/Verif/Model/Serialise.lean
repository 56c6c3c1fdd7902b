import Verif.Model.Lib

/-!
Model of bin/serialise.rs.  Strings are lists of characters.  `hex::encode`/`hex::decode`
(external crate `hex`) are modelled here; serde/JSON is in `Verif.Model.Json` and `Verif.Model.ClientFiles`.
-/

namespace Verif

/-- Lower-case hexadecimal digit (`hex::encode`, external). -/
def hexDigit (n : ℕ) : Char := "0123456789abcdef".toList.getD n '0'

/-- Value of a hexadecimal digit, either case (`hex::decode`, external). -/
def hexVal (c : Char) : Option ℕ :=
  if 48 ≤ c.toNat ∧ c.toNat ≤ 57 then some (c.toNat - 48)
  else if 97 ≤ c.toNat ∧ c.toNat ≤ 102 then some (c.toNat - 87)
  else if 65 ≤ c.toNat ∧ c.toNat ≤ 70 then some (c.toNat - 55)
  else none

/-- `hex::encode` (external), bin/serialise.rs:18. -/
def hexEncode : List Byte → List Char
  | [] => []
  | b :: bs => hexDigit (b.val / 16) :: hexDigit (b.val % 16) :: hexEncode bs

/-- `hex::decode` (external), bin/serialise.rs:25: fails on odd length and on other characters. -/
def hexDecode : List Char → Option (List Byte)
  | [] => some []
  | [_] => none
  | a :: b :: rest => do
    let x ← hexVal a
    let y ← hexVal b
    let bs ← hexDecode rest
    return Fin.ofNat 256 (16 * x + y) :: bs

/-- `le_bytes_to_hex`, bin/serialise.rs:15-20. -/
def leBytesToHex (bytes : List Byte) : List Char :=
  let reverse := bytes.reverse
  let hexString := (hexEncode reverse).map Char.toLower
  ['0', 'x'] ++ hexString

/-- `&s[2..]` if the string starts with `0x`, bin/serialise.rs:23. -/
def trim0x : List Char → List Char
  | '0' :: 'x' :: rest => rest
  | s => s

/-- `hex_to_le_bytes`, bin/serialise.rs:22-34: decode, left-pad with zeros to 32 bytes, reverse. -/
def hexToLeBytes (s : List Char) : Res (List Byte) :=
  match hexDecode (trim0x s) with
  | none => .error .panic
  | some bytes =>
    if bytes.length ≤ 32 then .ok ((List.replicate (32 - bytes.length) 0 ++ bytes).reverse)
    else .error .panic

/-- `from_bytes` of the halo2curves prime fields (external): canonical little-endian only. -/
def fieldFromBytes (p : ℕ) (bs : List Byte) : Option (ZMod p) :=
  if ofLE bs < p then some ((ofLE bs : ℕ) : ZMod p) else none

/-- Reading one field element, e.g. bin/serialise.rs:78-79. -/
def readField (p : ℕ) (s : List Char) : Res (ZMod p) := do
  let bs ← hexToLeBytes s
  match fieldFromBytes p bs with
  | none => throw .panic
  | some x => return x

/-- Writing one field element, e.g. bin/serialise.rs:50. -/
def writeField {p : ℕ} (x : ZMod p) : List Char := leBytesToHex (feBytes x)

/-- `Point`, bin/serialise.rs:36-40. -/
structure PointSerde where
  x : List Char
  y : List Char

/-- `From<GkG1> for Point`, bin/serialise.rs:48-54. -/
def PointSerde.ofGk (P : Gk) : PointSerde := ⟨writeField (coords P).1, writeField (coords P).2⟩

/-- `From<BnG1> for Point`, bin/serialise.rs:62-68. -/
def PointSerde.ofG1 (P : G1) : PointSerde := ⟨writeField (coords P).1, writeField (coords P).2⟩

/-- `Into<GkG1> for Point`, bin/serialise.rs:76-84. -/
def PointSerde.toGk (s : PointSerde) : Res Gk := do
  let x ← readField r s.x
  let y ← readField r s.y
  match gkFromXY x y with
  | none => throw .panic
  | some P => return P

/-- `Into<BnG1> for Point`, bin/serialise.rs:92-100. -/
def PointSerde.toG1 (s : PointSerde) : Res G1 := do
  let x ← readField q s.x
  let y ← readField q s.y
  match bnFromXY x y with
  | none => throw .panic
  | some P => return P

/-- `Point2`, bin/serialise.rs:102-106. -/
structure Point2Serde where
  x0 : List Char
  x1 : List Char
  y0 : List Char
  y1 : List Char

/-- `From<BnG2> for Point2`, bin/serialise.rs:114-124. -/
def Point2Serde.ofG2 (P : G2) : Point2Serde :=
  ⟨writeField (coords P).1.re, writeField (coords P).1.im, writeField (coords P).2.re,
    writeField (coords P).2.im⟩

/-- `Into<BnG2> for Point2`, bin/serialise.rs:132-150 (no subgroup check). -/
def Point2Serde.toG2 (s : Point2Serde) : Res G2 := do
  let a ← readField q s.x0
  let b ← readField q s.x1
  let c ← readField q s.y0
  let d ← readField q s.y1
  match g2FromXY ⟨a, b⟩ ⟨c, d⟩ with
  | none => throw .panic
  | some P => return P

/-- `MemberKey`, bin/serialise.rs:152-156. -/
structure MemberKeySerde where
  sk : List Char
  pk : PointSerde

/-- `From<MemberKeyCurve>`, bin/serialise.rs:164-170. -/
def MemberKeySerde.of (k : MemberKey) : MemberKeySerde := ⟨writeField k.sk, .ofGk k.pk⟩

/-- `Into<MemberKeyCurve>`, bin/serialise.rs:178-189. -/
noncomputable def MemberKeySerde.read (s : MemberKeySerde) : Res MemberKey := do
  let sk ← readField q s.sk
  let pk ← s.pk.toGk
  let p := sk • gk
  if pk ≠ p then throw .panic
  return ⟨sk, pk⟩

/-- `DkgMemberPublicParams`, bin/serialise.rs:191-199. -/
structure PublicParamsSerde where
  publicShares : List PointSerde
  ciphers : List (List Char)
  gr : PointSerde
  ga : PointSerde
  g2a : Point2Serde

/-- `From<DkgMemberPublicParamsCurve>`, bin/serialise.rs:207-224. -/
def PublicParamsSerde.of (pp : DkgMemberPublicParams) : PublicParamsSerde :=
  ⟨pp.publicShares.map .ofG1, pp.ciphers.map writeField, .ofGk pp.gr, .ofG1 pp.ga, .ofG2 pp.g2a⟩

/-- `Into<DkgMemberPublicParamsCurve>`, bin/serialise.rs:232-252. -/
def PublicParamsSerde.read (s : PublicParamsSerde) : Res DkgMemberPublicParams := do
  let publicShares ← s.publicShares.mapM PointSerde.toG1
  let ciphers ← s.ciphers.mapM (readField r)
  let gr ← s.gr.toGk
  let ga ← s.ga.toG1
  let g2a ← s.g2a.toG2
  return ⟨publicShares, ciphers, gr, ga, g2a⟩

/-- `DkgMemberParams`, bin/serialise.rs:254-262. -/
structure MemberParamsSerde where
  cfg : DkgConfig
  coeffs : List (List Char)
  shares : List (List Char)
  rnd : List Char
  publicKeys : List PointSerde
  publicParams : PublicParamsSerde

/-- `From<DkgMemberParamsCurve>`, bin/serialise.rs:270-294. -/
def MemberParamsSerde.of (mp : DkgMemberParams) : MemberParamsSerde :=
  ⟨mp.cfg, mp.coeffs.map writeField, mp.shares.map writeField, writeField mp.rnd,
    mp.publicKeys.map .ofGk, .of mp.publicParams⟩

/-- `Into<DkgMemberParamsCurve>`, bin/serialise.rs:302-336. -/
def MemberParamsSerde.read (s : MemberParamsSerde) : Res DkgMemberParams := do
  let coeffs ← s.coeffs.mapM (readField r)
  let shares ← s.shares.mapM (readField r)
  let rnd ← readField r s.rnd
  let publicKeys ← s.publicKeys.mapM PointSerde.toGk
  let publicParams ← s.publicParams.read
  return ⟨s.cfg, coeffs, shares, rnd, publicKeys, publicParams⟩

/-- `DkgGlobalPubParams`, bin/serialise.rs:338-343. -/
structure GlobalParamsSerde where
  ga : PointSerde
  g2a : Point2Serde
  verifyKeys : List PointSerde

/-- `From<DkgGlobalPubParamsCurve>`, bin/serialise.rs:351-361. -/
def GlobalParamsSerde.of (gp : DkgGlobalPubParams) : GlobalParamsSerde :=
  ⟨.ofG1 gp.ga, .ofG2 gp.g2a, gp.verifyKeys.map .ofG1⟩

/-- `Into<DkgGlobalPubParamsCurve>`, bin/serialise.rs:369-379. -/
def GlobalParamsSerde.read (s : GlobalParamsSerde) : Res DkgGlobalPubParams := do
  let vks ← s.verifyKeys.mapM PointSerde.toG1
  let ga ← s.ga.toG1
  let g2a ← s.g2a.toG2
  return ⟨ga, g2a, vks⟩

/-- `DkgShareKey`, bin/serialise.rs:381-386. -/
structure ShareKeySerde where
  index : ℕ
  sk : List Char
  vk : PointSerde

/-- `From<DkgShareKeyCurve>`, bin/serialise.rs:394-404. -/
def ShareKeySerde.of (k : DkgShareKey) : ShareKeySerde := ⟨k.index, writeField k.sk, .ofG1 k.vk⟩

/-- `Into<DkgShareKeyCurve>`, bin/serialise.rs:412-423. -/
noncomputable def ShareKeySerde.read (s : ShareKeySerde) : Res DkgShareKey := do
  let sk ← readField r s.sk
  let vk ← s.vk.toG1
  let p := sk • g1
  if vk ≠ p then throw .panic
  return ⟨s.index, sk, vk⟩

/-- `PartialEval` with its proof, bin/serialise.rs:425-429 and 464-469. -/
structure PartialEvalSerde where
  index : ℕ
  value : PointSerde
  z : List Char
  c : List Char

/-- `From<PartialEvalCurve>`, bin/serialise.rs:437-444 and 477-487. -/
def PartialEvalSerde.of (p : PartialEval) : PartialEvalSerde :=
  ⟨p.index, .ofG1 p.value, writeField p.proof.z, writeField p.proof.c⟩

/-- `Into<PartialEvalCurve>`, bin/serialise.rs:452-461 and 495-505. -/
def PartialEvalSerde.read (s : PartialEvalSerde) : Res PartialEval := do
  let value ← s.value.toG1
  let z ← readField r s.z
  let c ← readField r s.c
  return ⟨s.index, value, ⟨z, c⟩⟩

/-- `PseudoRandom`, bin/serialise.rs:507-511. -/
structure PseudoRandomSerde where
  proof : PointSerde
  value : List Byte

/-- `From<PseudoRandomCurve>`, bin/serialise.rs:519-527. -/
def PseudoRandomSerde.of (p : PseudoRandom) : PseudoRandomSerde := ⟨.ofG1 p.proof, p.value⟩

/-- `Into<PseudoRandomCurve>`, bin/serialise.rs:535-544. -/
def PseudoRandomSerde.read (s : PseudoRandomSerde) : Res PseudoRandom := do
  let proof ← s.proof.toG1
  return ⟨proof, s.value⟩

end Verif
