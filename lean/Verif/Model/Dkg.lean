import Verif.Lemmas.TwistOrder
import Verif.Model.Bytes

/-!
Model of src/dkg.rs (and src/error.rs).

Randomness drawn from an `RngCore` is an explicit argument.  Keccak256, hash-to-curve and the
pairing are parameters (`Keccak`, `h2c`, `BnPairing`); src/hash_to_curve_evm.rs is modelled in
`Verif.Model.HashToCurve` and can be plugged in for `h2c`.
-/

namespace Verif
open WeierstrassCurve.Affine

/-- `Error` of src/error.rs:4-19 (the `Circuit` variant wraps halo2 errors and is never produced by
the functions modelled here). -/
inductive DkgError where
  | InvalidParams (threshold numberOfMembers : ℕ)
  | InvalidIndex (index : ℕ)
  | InvalidOrder (index : ℕ)
  | VerifyFailed
deriving DecidableEq, Repr

/-- How a Rust call can fail: by returning `Err`, or by a panic (`assert!`, `unwrap`, `expect`,
out-of-bounds indexing). -/
inductive Fail where
  | err (e : DkgError)
  | panic
deriving DecidableEq, Repr

/-- Result of a Rust call. -/
abbrev Res (α : Type) : Type := Except Fail α

/-- Keccak256 as a function from bytes to a 256-bit word (big-endian reading of the 32 output
bytes); external crate `sha3`, src/dkg.rs:12, and EVM opcode. -/
abbrev Keccak : Type := List Byte → Word

/-- `EVAL_PREFIX`, src/dkg.rs:14, equal to `DOMAIN` in contracts/PseudoRand.sol:12. -/
def evalPrefix : String := "DVRF pseudorandom generation 2023"

/-- `evaluate_poly`, src/dkg.rs:17-30: running power of `x`, starting at `x` itself. -/
def evaluatePoly (coeffs : List Fr) (i : ℕ) : Res Fr :=
  match coeffs with
  | [] => .error .panic
  | a0 :: rest =>
    let x : Fr := (i : Fr)
    .ok (rest.foldl (fun s a => (s.1 + a * s.2, s.2 * x)) (a0, x)).1

/-- `DkgConfig`, src/dkg.rs:32-36.  `usize` is modelled by `ℕ`. -/
structure DkgConfig where
  threshold : ℕ
  numberOfMembers : ℕ
deriving DecidableEq, Repr

/-- `DkgConfig::new`, src/dkg.rs:39-51. -/
def DkgConfig.new (threshold numberOfMembers : ℕ) : Res DkgConfig :=
  if threshold > 0 ∧ threshold ≤ numberOfMembers then
    .ok ⟨threshold, numberOfMembers⟩
  else .error (.err (.InvalidParams threshold numberOfMembers))

/-- `DkgConfig::instance_size`, src/dkg.rs:61-69, with the default feature `g2chip`. -/
def DkgConfig.instanceSize (c : DkgConfig) : ℕ := 7 * c.numberOfMembers + 6 + 8

/-- `shares`, src/dkg.rs:73-84: the first share is the sum of the coefficients, the others are
polynomial evaluations at `2..=n`. -/
def shares (numberOfMembers : ℕ) (coeffs : List Fr) : Res (List Fr) := do
  let s1 := coeffs.sum
  let rest ← (List.range' 2 (numberOfMembers - 1)).mapM (evaluatePoly coeffs)
  return s1 :: rest

/-- `DkgShareKey`, src/dkg.rs:86-90. -/
structure DkgShareKey where
  index : ℕ
  sk : Fr
  vk : G1

/-- `DkgShareKey::verify`, src/dkg.rs:108-118. -/
def DkgShareKey.verify (k : DkgShareKey) (cfg : DkgConfig) (vks : List G1) : Res Unit :=
  if k.index < 1 ∨ k.index > cfg.numberOfMembers then .error (.err (.InvalidIndex k.index))
  else match vks[k.index - 1]? with
    | none => .error .panic
    | some vk => if k.vk ≠ vk then .error (.err .VerifyFailed) else .ok ()

/-- `PartialEvalProof`, src/dkg.rs:163-167. -/
structure PartialEvalProof where
  z : Fr
  c : Fr
deriving DecidableEq

/-- `PartialEval`, src/dkg.rs:169-174. -/
structure PartialEval where
  index : ℕ
  value : G1
  proof : PartialEvalProof

/-- The byte string hashed into the challenge, src/dkg.rs:131-143 and 192-205: little-endian
coordinates in reverse order, then the whole vector reversed. -/
def transcript (g h r1 r2 vk v : G1) : List Byte :=
  (feBytes (coords v).2 ++ feBytes (coords v).1 ++ feBytes (coords vk).2 ++ feBytes (coords vk).1 ++
    feBytes (coords r2).2 ++ feBytes (coords r2).1 ++ feBytes (coords r1).2 ++
    feBytes (coords r1).1 ++ feBytes (coords h).2 ++ feBytes (coords h).1 ++
    feBytes (coords g).2 ++ feBytes (coords g).1).reverse

/-- The Fiat-Shamir challenge, src/dkg.rs:145-150 and 207-213. -/
def challenge (keccak : Keccak) (g h r1 r2 vk v : G1) : Fr :=
  fromRaw Verif.r (fromBeBytes (Word.bytes (keccak (transcript g h r1 r2 vk v))))

/-- `DkgShareKey::evaluate`, src/dkg.rs:121-160, with the nonce `rnd` drawn at line 127. -/
noncomputable def DkgShareKey.evaluate (keccak : Keccak) (h2c : List Byte → G1)
    (k : DkgShareKey) (input : List Byte) (rnd : Fr) : PartialEval :=
  let h := h2c input
  let v := k.sk • h
  let r1 := rnd • g1
  let r2 := rnd • h
  let c := challenge keccak g1 h r1 r2 k.vk v
  let z := c * k.sk + rnd
  ⟨k.index, v, ⟨z, c⟩⟩

/-- `PartialEval::verify`, src/dkg.rs:177-221. -/
noncomputable def PartialEval.verify (keccak : Keccak) (h2c : List Byte → G1)
    (p : PartialEval) (cfg : DkgConfig) (input : List Byte) (vk : G1) : Res Unit :=
  if p.index > cfg.numberOfMembers ∨ p.index < 1 then .error (.err (.InvalidIndex p.index))
  else
    let h := h2c input
    let z := p.proof.z
    let c := p.proof.c
    let v := p.value
    let r1 := z • g1 - c • vk
    let r2 := z • h - c • v
    let cTilde := challenge keccak g1 h r1 r2 vk v
    if c ≠ cTilde then .error (.err .VerifyFailed) else .ok ()

/-- `PseudoRandom`, src/dkg.rs:224-227. -/
structure PseudoRandom where
  proof : G1
  value : List Byte

/-- Body of the loop of `check_indices`, src/dkg.rs:230-243, from position `pos` on. -/
def checkIndicesFrom (n : ℕ) : ℕ → List ℕ → Res Unit
  | _, [] => .ok ()
  | _, [a] => if a > n ∨ a < 1 then .error (.err (.InvalidIndex a)) else .ok ()
  | pos, a :: b :: rest =>
    if a ≥ b then .error (.err (.InvalidOrder pos))
    else if a > n ∨ a < 1 then .error (.err (.InvalidIndex a))
    else checkIndicesFrom n (pos + 1) (b :: rest)

/-- `check_indices`, src/dkg.rs:230-243. -/
def checkIndices (n : ℕ) (indices : List ℕ) : Res Unit := checkIndicesFrom n 0 indices

/-- One Lagrange coefficient, src/dkg.rs:256-265: numerator and denominator skip the equal index;
inverting a zero denominator panics. -/
def lagrangeCoeff (indices : List Fr) (i : Fr) : Res Fr :=
  let nd := indices.foldl (fun s k => if k ≠ i then (s.1 * k, s.2 * (k - i)) else s)
    ((1 : Fr), (1 : Fr))
  if nd.2 = 0 then .error .panic else .ok (nd.1 * nd.2⁻¹)

/-- Keccak of the big-endian coordinates of a point, src/dkg.rs:279-284 and 321-326. -/
def hashPoint (keccak : Keccak) (P : G1) : List Byte :=
  Word.bytes (keccak ((feBytes (coords P).2 ++ feBytes (coords P).1).reverse))

/-- `combine_partial_evaluations`, src/dkg.rs:246-289. -/
noncomputable def combinePartialEvaluations (keccak : Keccak) (cfg : DkgConfig)
    (sigmas : List PartialEval) : Res PseudoRandom := do
  if sigmas.length ≠ cfg.threshold then throw .panic
  let indices := sigmas.map (·.index)
  checkIndices cfg.numberOfMembers indices
  let idx : List Fr := indices.map (fun (i : ℕ) => (i : Fr))
  let lambdas ← idx.mapM (lagrangeCoeff idx)
  let pis := List.zipWith (fun (s : PartialEval) (l : Fr) => l • s.value) sigmas lambdas
  match pis with
  | [] => throw .panic
  | p0 :: rest =>
    let proof := rest.foldl (· + ·) p0
    return ⟨proof, hashPoint keccak proof⟩

/-- The BN254 pairing as used by the code (external: `multi_miller_loop`, `final_exponentiation`,
EVM precompile 8): bilinear on G1 and the order-`r` subgroup of the twist, non-degenerate on the
generators; nothing is assumed about other twist points. The target group is written additively. -/
structure BnPairing where
  GT : Type
  [grp : AddCommGroup GT]
  [dec : DecidableEq GT]
  e : G1 → G2 → GT
  add_left : ∀ (P P' : G1) (Q : G2), r • Q = 0 → e (P + P') Q = e P Q + e P' Q
  add_right : ∀ (P : G1) (Q Q' : G2), r • Q = 0 → r • Q' = 0 → e P (Q + Q') = e P Q + e P Q'
  nondeg : e g1 g2 ≠ 0

attribute [instance] BnPairing.grp BnPairing.dec

/-- Product-of-two-pairings check `e(a1,a2)·e(b1,b2) = 1`, src/dkg.rs:314-319 and 351-355. -/
def BnPairing.check2 (E : BnPairing) (a1 : G1) (a2 : G2) (b1 : G1) (b2 : G2) : Bool :=
  decide (E.e a1 a2 + E.e b1 b2 = 0)

/-- `PseudoRandom::verify`, src/dkg.rs:304-332. -/
def PseudoRandom.verify (E : BnPairing) (keccak : Keccak) (h2c : List Byte → G1)
    (p : PseudoRandom) (input : List Byte) (gpk : G2) : Res Unit :=
  let h := h2c input
  if ¬ E.check2 (-h) gpk p.proof g2 then .error (.err .VerifyFailed)
  else if p.value ≠ hashPoint keccak p.proof then .error (.err .VerifyFailed)
  else .ok ()

/-- `keygen`, src/dkg.rs:335-341, with the drawn secret as argument. -/
noncomputable def keygen (sk : Fr) : Fr × G1 := (sk, sk • g1)

/-- `is_dl_equal`, src/dkg.rs:344-358. -/
def isDlEqual (E : BnPairing) (ga : G1) (g2a : G2) : Res Unit :=
  if ¬ E.check2 (-g1) g2a ga g2 then .error (.err .VerifyFailed) else .ok ()

/-- Multiplication of a twist point by a scalar (`BnG2 * BnScalar`, src/lib.rs:253; external). -/
def smul2 (k : Fr) (Q : G2) : G2 := k.val • Q

end Verif
