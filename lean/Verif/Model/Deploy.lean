import Verif.Model.Config
import Verif.Model.DemoMembers
import Verif.Model.Halo2Key
import Verif.Model.Halo2Verifier

/-!
Model of scripts/deploy.ts and of the start of scripts/demo/admin.ts.

The environment variables are strings (`Config.Vars`).  External: reading an address (`ethers`; the parameter
`Chain.address`), the addresses of new contracts (`Chain.created`, never zero), and the artifacts of
hardhat, which exist for the source files in contracts/.  The deploying wallet plays no role after the
deployment.  Only the code that the deployed contract calls for the proof check is represented.
-/

namespace Verif.Deploy

/-- The value of a digit string in base `b`, most significant digit first (external). -/
def numeral (b : ℕ) (digit : Char → Option ℕ) : List Char → Option ℕ
  | [] => none
  | cs => (cs.mapM digit).map (fun ds => ds.foldl (fun n d => b * n + d) 0)

/-- `BigNumber.from(string)` of ethers 5 (external, package.json:26): `-?0x[0-9a-f]+` (digits of either case) or
`-?[0-9]+`.  (A prefix `0X` passes its test too, but is not read as a number; not modelled.) -/
def bigNumber : List Char → Option ℤ
  | '-' :: '0' :: 'x' :: cs => (numeral 16 hexVal cs).map (fun n : ℕ => -(n : ℤ))
  | '0' :: 'x' :: cs => (numeral 16 hexVal cs).map (fun n : ℕ => (n : ℤ))
  | '-' :: cs => (numeral 10 Config.digitVal cs).map (fun n : ℕ => -(n : ℤ))
  | cs => (numeral 10 Config.digitVal cs).map (fun n : ℕ => (n : ℤ))

/-- A string as an argument of type `uint<bits>` (ethers' ABI coder, external): out of range throws. -/
def uintArg (bits : ℕ) (s : List Char) : Option ℕ :=
  match bigNumber s with
  | some (.ofNat n) => if n < 2 ^ bits then some n else none
  | _ => none

/-- What the deployment depends on: code already on the chain, the names that ethers resolves to
addresses, and the addresses of the contracts that the wallet creates next. -/
structure Chain where
  /-- Code at an address: the words of a verifying key contract. -/
  key : Address → Option (List Word)
  /-- Whether contracts/Halo2Verifier.sol is at the address. -/
  verifier : Address → Bool
  address : List Char → Option Address
  created : ℕ → Address
  created_ne : ∀ i, created i ≠ 0

/-- The artifact `contracts/Halo2VerifyingKey-${threshold}-${numberOfMembers}-${degree}-g2.sol:Halo2VerifyingKey`,
scripts/deploy.ts:25, among the files of contracts/; a variable that is not set prints as `undefined`. -/
def keyArtifact (threshold numberOfMembers degree : Option (List Char)) : Option (List Word) :=
  let s := fun o : Option (List Char) => o.getD "undefined".toList
  let name := "contracts/Halo2VerifyingKey-".toList ++ s threshold ++ ['-'] ++ s numberOfMembers ++ ['-'] ++
    s degree ++ "-g2.sol:Halo2VerifyingKey".toList
  if name = "contracts/Halo2VerifyingKey-3-5-18-g2.sol:Halo2VerifyingKey".toList then some Halo2.vkWords
  else none

/-- A deployment: the contract, the addresses stored in it, and the chain afterwards. -/
structure Result where
  p : ZkdvrfPre.State
  halo2Verifier : Address
  halo2VerifyingKey : Address
  chain : Chain

/-- The deployment of the helper contracts, or their addresses: scripts/deploy.ts:14-52. -/
def helpers (v : Config.Vars) (c : Chain) : Option (Address × Address × Address × Address × Chain) :=
  if v "DEPLOY_NO_HELPERS" = some "true".toList then do
    let a ← v "HALO2V" >>= c.address
    let k ← v "HALO2VK" >>= c.address
    let g ← v "GPP" >>= c.address
    let s ← v "PSRAND" >>= c.address
    return (a, k, g, s, c)
  else do
    let words ← keyArtifact (v "THRESHOLD") (v "NUMBER_OF_MEMBERS") (v "DEGREE")
    return (c.created 1, c.created 0, c.created 2, c.created 3,
      { c with key := Function.update c.key (c.created 0) (some words),
               verifier := Function.update c.verifier (c.created 1) true,
               created := fun i => c.created (i + 4), created_ne := fun i => c.created_ne (i + 4) })

/-- `main`, scripts/deploy.ts:4-58; `none` if it throws. `deployer` is the wallet. -/
def main (v : Config.Vars) (c : Chain) (deployer : Address) : Option Result := do
  let (a, k, g, s, c') ← helpers v c
  let t ← v "THRESHOLD" >>= uintArg 32
  let n ← v "NUMBER_OF_MEMBERS" >>= uintArg 32
  let o ← c.address ((v "ADMIN_ADDRESS").getD [])
  let d ← uintArg 256 ((v "MIN_DEPOSIT").getD ['0'])
  let p ← ZkdvrfPre.constructor ⟨deployer, 0⟩ t n o (decide (a ≠ 0)) (decide (g ≠ 0)) (decide (s ≠ 0)) d
  return ⟨p, a, k, c'⟩

/-- The proof check of a deployed contract, contracts/zkdvrf_pre.sol:143: the call of `verifyProof` at the stored
address with the stored address of the key.  A call to an address without code reverts; a key address
without code reads as zeros.  `sel` is the selector of the function (external). -/
noncomputable def proofCheck (E : BnPairing) (keccak : Keccak) (sel : List Byte) (d : Result)
    (proof : List Byte) (instances : List Word) : Evm Bool :=
  if d.chain.verifier d.halo2Verifier then
    Halo2.verifyProof E keccak ((d.chain.key d.halo2VerifyingKey).getD []) sel
      (BitVec.zeroExtend 256 d.halo2VerifyingKey) proof instances
  else none

/-- The world of a deployed contract. -/
noncomputable def envOf (E : BnPairing) (keccak : Keccak) (sel : List Byte) (d : Result) : Env :=
  ⟨E, keccak, proofCheck E keccak sel d⟩

/-- The loop at the start of scripts/demo/admin.ts:39-45: adds every configured member; `none` if a
transaction is rejected.  With `RESTART=true` it does nothing. -/
noncomputable def addMembers (env : Env) (o : Address) (restart : Bool) (members : List Address)
    (p : ZkdvrfPre.State) : Option ZkdvrfPre.State :=
  if restart then some p
  else members.foldlM (fun p a => ZkdvrfPre.exec env p ⟨o, 0⟩ (.addPermissionedNodes a)) p

end Verif.Deploy
