import Verif.Model.Dkg

/-!
Model of src/lib.rs and of the instance encodings of src/utils.rs.

The Poseidon hash of the two coordinates of a Grumpkin point is a parameter `Mask`.
-/

namespace Verif
open WeierstrassCurve.Affine

/-- `BIT_LEN_LIMB`, src/lib.rs:41. -/
def bitLenLimb : ℕ := 68
/-- `NUMBER_OF_LIMBS`, src/lib.rs:42. -/
def numberOfLimbs : ℕ := 4
/-- `WRAP_LEN`, src/lib.rs:43. -/
def wrapLen : ℕ := 2
/-- `COORD_LEN`, src/lib.rs:44. -/
def coordLen : ℕ := numberOfLimbs / wrapLen
/-- `POINT_LEN`, src/lib.rs:45. -/
def pointLen : ℕ := coordLen * 2
/-- `POINT2_LEN`, src/lib.rs:47. -/
def point2Len : ℕ := pointLen * 2

/-- The share-encryption mask: Poseidon of the coordinates (`Hash::<_, P128Pow5T3Bn, ..>`,
src/lib.rs:82-83 and 271-275). -/
abbrev Mask : Type := Fr → Fr → Fr

/-- Mask of a Grumpkin point, src/lib.rs:82-83. -/
def maskOf (mask : Mask) (P : Gk) : Fr := mask (coords P).1 (coords P).2

/-- `CurveAffine::from_xy` of halo2curves (external; src/utils.rs:103, src/lib.rs:193): the point
with these coordinates if they satisfy the equation, infinity for `(0,0)`, otherwise nothing. -/
def fromXY {F : Type*} [Field F] [DecidableEq F] {b : F}
    (hns : ∀ x y : F, y ^ 2 = x ^ 3 + b → (shortW b).Nonsingular x y) (x y : F) :
    Option (shortW b).Point :=
  if h : y ^ 2 = x ^ 3 + b then some (.some x y (hns x y h))
  else if x = 0 ∧ y = 0 then some .zero else none

/-- `BnG1::from_xy`. -/
def bnFromXY (x y : Fq) : Option G1 := fromXY (fun x y h => (bn_nonsingular_iff x y).2 h) x y
/-- `GkG1::from_xy`. -/
def gkFromXY (x y : Fr) : Option Gk := fromXY (fun x y h => (gk_nonsingular_iff x y).2 h) x y
/-- `BnG2::from_xy` (no subgroup check). -/
def g2FromXY (x y : Fq2) : Option G2 := fromXY (fun x y h => (twist_nonsingular_iff x y).2 h) x y

/-- The four 68-bit limbs of a base-field element as scalar-field elements
(`Point::new(rns, point)`, `x().limbs()` of halo2wrong; external, src/utils.rs:66-69). -/
def limbsOf (x : Fq) : List Fr :=
  (List.range numberOfLimbs).map
    (fun i => ((x.val / 2 ^ (bitLenLimb * i) % 2 ^ bitLenLimb : ℕ) : Fr))

/-- Wrapping of pairs of limbs into one field element, src/utils.rs:69-78 and 126-135
(`WRAP_LEN = 2`: `s = limbs[2i+1] * 2^68 + limbs[2i]`). -/
def wrapLimbs : List Fr → List Fr
  | l0 :: l1 :: rest => (l1 * (2 ^ bitLenLimb : ℕ) + l0) :: wrapLimbs rest
  | _ => []

/-- `point_to_public`, src/utils.rs:53-81.  Whether `Point::new` of the external halo2wrong
panics on the point at infinity or treats it as `(0, 0)` depends on the version of the dependency,
so it is the parameter `infPanics`. -/
def pointToPublic (infPanics : Bool) : G1 → Res (List Fr)
  | .zero => if infPanics then .error .panic
      else .ok (wrapLimbs (limbsOf 0) ++ wrapLimbs (limbsOf 0))
  | .some x y _ => .ok (wrapLimbs (limbsOf x) ++ wrapLimbs (limbsOf y))

/-- `point2_to_public`, src/utils.rs:108-138; limbs of `c0` then of `c1`
(src/ecc_chip/integer2.rs:38-42, src/ecc_chip/point2.rs:24-34). -/
def point2ToPublic (infPanics : Bool) : G2 → Res (List Fr)
  | .zero => if infPanics then .error .panic
      else .ok (wrapLimbs (limbsOf 0 ++ limbsOf 0) ++ wrapLimbs (limbsOf 0 ++ limbsOf 0))
  | .some x y _ => .ok (wrapLimbs (limbsOf x.re ++ limbsOf x.im) ++
      wrapLimbs (limbsOf y.re ++ limbsOf y.im))

/-- Recombination of one coordinate, src/utils.rs:89-94: from the last element downwards,
`x = x * 2^136 + v`, in the base field (every scalar-field representation is below `q`). -/
def joinCoord (parts : List Fr) : Fq :=
  parts.foldr (fun v acc => acc * ((2 : Fq) ^ (bitLenLimb * wrapLen)) + ((v.val : ℕ) : Fq)) 0

/-- `public_to_point`, src/utils.rs:83-105. -/
def publicToPoint (pub : List Fr) : Res G1 :=
  if pub.length ≠ pointLen then .error .panic
  else match bnFromXY (joinCoord (pub.take coordLen)) (joinCoord (pub.drop coordLen)) with
    | none => .error .panic
    | some P => .ok P

/-- `public_to_point2`, src/utils.rs:140-169. -/
def publicToPoint2 (pub : List Fr) : Res G2 :=
  if pub.length ≠ pointLen * 2 then .error .panic
  else
    let c (i : ℕ) : Fq := joinCoord ((pub.drop (i * coordLen)).take coordLen)
    match g2FromXY ⟨c 0, c 1⟩ ⟨c 2, c 3⟩ with
    | none => .error .panic
    | some P => .ok P

/-- `MemberKey`, src/lib.rs:53-57. -/
structure MemberKey where
  sk : Fq
  pk : Gk

/-- `MemberKey::random`, src/lib.rs:64-70, with the drawn secret as argument. -/
noncomputable def MemberKey.random (sk : Fq) : MemberKey := ⟨sk, sk • gk⟩

/-- `MemberKey::decrypt_share`, src/lib.rs:80-87. -/
noncomputable def MemberKey.decryptShare (mask : Mask) (k : MemberKey) (gr : Gk) (cipher : Fr) :
    Fr :=
  let pkr := k.sk • gr
  cipher - maskOf mask pkr

/-- `MemberKey::index`, src/lib.rs:90-95: position of the first equal key, plus one. -/
def MemberKey.index (k : MemberKey) (publicKeys : List Gk) : Option ℕ :=
  (publicKeys.findIdx? (fun pk => decide (pk = k.pk))).map (· + 1)

/-- `DkgMemberPublicParams`, src/lib.rs:122-130. -/
structure DkgMemberPublicParams where
  publicShares : List G1
  ciphers : List Fr
  gr : Gk
  ga : G1
  g2a : G2

/-- `MemberKey::dkg_share_key`, src/lib.rs:98-119. -/
noncomputable def MemberKey.dkgShareKey (mask : Mask) (k : MemberKey) (cfg : DkgConfig)
    (index : ℕ) (pps : List DkgMemberPublicParams) : Res DkgShareKey :=
  if index < 1 ∨ index > cfg.numberOfMembers then .error (.err (.InvalidIndex index))
  else do
    let sk ← pps.foldlM (fun (acc : Fr) pp =>
      match pp.ciphers[index - 1]? with
      | none => (.error .panic : Res Fr)
      | some c => .ok (acc + k.decryptShare mask pp.gr c)) 0
    return ⟨index, sk, sk • g1⟩

/-- List access that panics out of bounds (`v[i]`). -/
def getOrPanic {α : Type} (l : List α) (i : ℕ) : Res α :=
  match l[i]? with
  | none => .error .panic
  | some a => .ok a

/-- `DkgMemberPublicParams::instance`, src/lib.rs:133-163 (single instance column). -/
def DkgMemberPublicParams.toInstance (infPanics : Bool) (pp : DkgMemberPublicParams)
    (pks : List Gk) : Res (List Fr) := do
  let ga ← pointToPublic infPanics pp.ga
  let gs ← (List.range pks.length).mapM
    (fun i => do let P ← getOrPanic pp.publicShares i; pointToPublic infPanics P)
  let g2a ← point2ToPublic infPanics pp.g2a
  return ga ++ gs.flatten ++ g2a ++ [(coords pp.gr).1, (coords pp.gr).2] ++ pp.ciphers ++
    pks.flatMap (fun pk => [(coords pk).1, (coords pk).2])

/-- `DkgMemberPublicParams::check_public`, src/lib.rs:166-168. -/
def DkgMemberPublicParams.checkPublic (E : BnPairing) (pp : DkgMemberPublicParams) : Res Unit :=
  isDlEqual E pp.ga pp.g2a

/-- `GkG1::from_xy(instance[begin], instance[begin + 1]).unwrap()`, src/lib.rs:193 and 209. -/
def readGk (ins : List Fr) (b : ℕ) : Res Gk := do
  let x ← getOrPanic ins b
  let y ← getOrPanic ins (b + 1)
  match gkFromXY x y with
  | none => .error .panic
  | some P => .ok P

/-- `DkgMemberPublicParams::from_instance`, src/lib.rs:171-222. -/
def fromInstance (cfg : DkgConfig) (ins : List Fr) : Res (DkgMemberPublicParams × List Gk) := do
  if cfg.instanceSize ≠ ins.length then throw .panic
  let n := cfg.numberOfMembers
  let ga ← publicToPoint (ins.take pointLen)
  let publicShares ← (List.range n).mapM
    (fun i => publicToPoint ((ins.drop (pointLen + i * pointLen)).take pointLen))
  let b1 := pointLen + n * pointLen
  let g2a ← publicToPoint2 ((ins.drop b1).take point2Len)
  let b2 := b1 + point2Len
  let gr ← readGk ins b2
  let b3 := b2 + 2
  let ciphers ← (List.range n).mapM (fun i => getOrPanic ins (b3 + i))
  let b4 := b3 + n
  let pks ← (List.range n).mapM (fun i => readGk ins (b4 + 2 * i))
  return (⟨publicShares, ciphers, gr, ga, g2a⟩, pks)

/-- `DkgMemberParams`, src/lib.rs:225-233. -/
structure DkgMemberParams where
  cfg : DkgConfig
  coeffs : List Fr
  shares : List Fr
  rnd : Fr
  publicKeys : List Gk
  publicParams : DkgMemberPublicParams

/-- Conversion of a BN scalar to a Grumpkin scalar, src/lib.rs:263-264 (never fails as `r < q`). -/
def toGkScalar (x : Fr) : Fq := ((x.val : ℕ) : Fq)

/-- `DkgMemberParams::new`, src/lib.rs:236-292.  The random generator is the stream `draw` of
scalars: coefficients are drawn first, then the encryption randomness. -/
noncomputable def DkgMemberParams.new (mask : Mask) (cfg : DkgConfig) (publicKeys : List Gk)
    (draw : ℕ → Fr) : Res DkgMemberParams := do
  if publicKeys.length ≠ cfg.numberOfMembers then throw .panic
  let coeffs := (List.range cfg.threshold).map draw
  let a0 ← getOrPanic coeffs 0
  let ga := a0 • g1
  let g2a := smul2 a0 g2
  let shs ← Verif.shares cfg.numberOfMembers coeffs
  let publicShares := shs.map (fun s => s • g1)
  let rnd := draw cfg.threshold
  let rs := toGkScalar rnd
  let gr := rs • gk
  let ciphers ← (List.range cfg.numberOfMembers).mapM (fun i => do
    let pk ← getOrPanic publicKeys i
    let s ← getOrPanic shs i
    return maskOf mask (rs • pk) + s)
  return ⟨cfg, coeffs, shs, rnd, publicKeys, ⟨publicShares, ciphers, gr, ga, g2a⟩⟩

/-- `DkgGlobalPubParams`, src/lib.rs:321-326. -/
structure DkgGlobalPubParams where
  ga : G1
  g2a : G2
  verifyKeys : List G1

/-- `DkgGlobalPubParams::check_public`, src/lib.rs:330-332. -/
def DkgGlobalPubParams.checkPublic (E : BnPairing) (gp : DkgGlobalPubParams) : Res Unit :=
  isDlEqual E gp.ga gp.g2a

/-- `dkg_global_public_params`, src/lib.rs:335-364. -/
def dkgGlobalPublicParams (pps : List DkgMemberPublicParams) : Res DkgGlobalPubParams :=
  match pps with
  | [] => .error .panic
  | pp0 :: rest => do
    let ga := rest.foldl (fun acc pp => acc + pp.ga) pp0.ga
    let g2a := rest.foldl (fun acc pp => acc + pp.g2a) pp0.g2a
    let vks ← (List.range pp0.publicShares.length).mapM (fun i => do
      let v0 ← getOrPanic pp0.publicShares i
      rest.foldlM (fun acc pp => do
        let v ← getOrPanic pp.publicShares i
        return acc + v) v0)
    return ⟨ga, g2a, vks⟩

end Verif
