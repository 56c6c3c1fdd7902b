import Verif.Model.Entrypoint

/-!
Model of the command `client setup` with the verifier contracts, bin/client.rs:197-202 and 238-311.

The generator of halo2_solidity_verifier is external.
-/

namespace Verif.Cache

/-- The external functions of `setup` after key generation: the verifying key in a proving key, and `SolidityGenerator` for
parameters, verifying key and number of public inputs (texts as bytes); `none` is an error. -/
structure Generator (H : Halo2) where
  /-- `pk.get_vk()`. -/
  getVk : H.Pk → H.Vk
  /-- `render_separately`: the verifier, and the contract with the verifying key. -/
  renderSeparately : Params → H.Vk → ℕ → Option (List Byte × List Byte)
  /-- `render`: one contract with both. -/
  render : Params → H.Vk → ℕ → Option (List Byte)

/-- `KZG_PARAMS_DIR`, bin/client.rs:42. -/
def kzgDir : Path := strBytes "./kzg_params"

/-- Path in `save_solidity`, bin/client.rs:43 and 198. -/
def contractPath (name : List Byte) : Path := strBytes "./contracts" ++ strBytes "/" ++ name

/-- `Halo2Verifier.sol`, bin/client.rs:268. -/
def verifierPath : Path := contractPath (strBytes "Halo2Verifier.sol")

/-- `{name}-{}-{}-{}-g2.sol`, bin/client.rs:270-280 and 294-304, with the feature `g2chip`. -/
def contractName (name : String) (threshold members degree : ℕ) : List Byte :=
  strBytes name ++ strBytes "-" ++ decimal threshold ++ strBytes "-" ++ decimal members ++ strBytes "-" ++ decimal degree ++
    strBytes "-g2.sol"

/-- The contract with the verifying key, bin/client.rs:270-280. -/
def keyContractPath (threshold members degree : ℕ) : Path :=
  contractPath (contractName "Halo2VerifyingKey" threshold members degree)

/-- The contract with both, bin/client.rs:294-304. -/
def jointContractPath (threshold members degree : ℕ) : Path :=
  contractPath (contractName "Halo2Verifier" threshold members degree)

/-- The part of `setup` after the proving key, bin/client.rs:254-308.  `w3`, `w4`: what happens to the contracts written. -/
def saveContracts (H : Halo2) (G : Generator H) (fs : FS) (cfg : DkgConfig) (params : Params) (pk : H.Pk)
    (threshold members degree : ℕ) (skip split : Bool) (w3 w4 : Write) : FS × Bool :=
  if skip then (fs, true)
  else if split then
    match G.renderSeparately params (G.getVk pk) cfg.instanceSize with
    | none => (fs, false)
    | some (verifier, key) =>
      match writeFile fs verifierPath verifier w3 with
      | (fs3, .error _) => (fs3, false)
      | (fs3, .ok ()) =>
        match writeFile fs3 (keyContractPath threshold members degree) key w4 with
        | (fs4, .error _) => (fs4, false)
        | (fs4, .ok ()) => (fs4, true)
  else
    match G.render params (G.getVk pk) cfg.instanceSize with
    | none => (fs, false)
    | some text =>
      match writeFile fs (jointContractPath threshold members degree) text w3 with
      | (fs3, .error _) => (fs3, false)
      | (fs3, .ok ()) => (fs3, true)

/-- `setup`, bin/client.rs:238-311: the files afterwards, and whether it succeeds. -/
def setup (H : Halo2) (G : Generator H) (fs : FS) (threshold members degree : ℕ) (skip split : Bool)
    (w0 w1 w2 w3 w4 : Write) : FS × Bool :=
  match loadOrCreateParams H fs kzgDir degree w0 with
  | (fs1, .error _) => (fs1, false)
  | (fs1, .ok params) =>
    match DkgConfig.new threshold members with
    | .error _ => (fs1, false)
    | .ok cfg =>
      match loadOrCreatePk H fs1 cfg kzgDir params degree w1 w2 with
      | (fs2, .error _) => (fs2, false)
      | (fs2, .ok pk) => saveContracts H G fs2 cfg params pk threshold members degree skip split w3 w4

end Verif.Cache
