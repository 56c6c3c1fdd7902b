import Verif.Model.Evm

/-! Model of contracts/GlobalPublicParams.sol. -/

namespace Verif.Gpp

/-- `BASE = 1 << 136`, contracts/GlobalPublicParams.sol:16. -/
def BASE : Word := BitVec.ofNat 256 (2 ^ 136)

/-- `POINT_LEN`, contracts/GlobalPublicParams.sol:15. -/
def POINT_LEN : ℕ := 4

/-- `readBnG1`, contracts/GlobalPublicParams.sol:20-37; both loops run once as `COORD_LEN = 2`. -/
def readBnG1 (g : List Word) : Evm SolG1 :=
  match g with
  | [g0, g1, g2, g3] => do
    let x ← checkedAdd (← checkedMul g1 BASE) g0
    let y ← checkedAdd (← checkedMul g3 BASE) g2
    return ⟨x, y⟩
  | _ => none

/-- Calldata slice `a[begin:end]` (reverts out of bounds). -/
def slice (a : List Word) (b e : ℕ) : Evm (List Word) :=
  if b ≤ e ∧ e ≤ a.length then some ((a.drop b).take (e - b)) else none

/-- Sum over the instances of the point stored at `begin..end`,
contracts/GlobalPublicParams.sol:64-68 and 84-88. -/
def sumAt (inst : List (List Word)) (b e : ℕ) : Evm SolG1 :=
  inst.foldlM (fun acc v => do
    let p ← readBnG1 (← slice v b e)
    Pairing.addition acc p) ⟨0, 0⟩

/-- The loop computing the verification keys, contracts/GlobalPublicParams.sol:79-92, with `k`
iterations left. -/
def vkLoop (inst : List (List Word)) : ℕ → ℕ → ℕ → Evm (List SolG1)
  | 0, _, _ => some []
  | k + 1, b, e => do
    let vk ← sumAt inst b e
    let e' ← u32 (e + POINT_LEN)
    let rest ← vkLoop inst k e e'
    return vk :: rest

/-- `createGpp`, contracts/GlobalPublicParams.sol:40-100. -/
noncomputable def createGpp (E : BnPairing) (numOfMembers : ℕ) (gpk : SolG2)
    (inst : List (List Word)) : Evm (SolG2 × List SolG1) := do
  require (decide (inst.length ≤ numOfMembers))
  let m ← u32 (4 * numOfMembers)
  let size ← u32 (m + 4)
  require (inst.all (fun v => decide (size ≤ v.length)))
  let ga ← sumAt inst 0 POINT_LEN
  let vks ← vkLoop inst numOfMembers POINT_LEN (POINT_LEN + POINT_LEN)
  let ok ← Pairing.pairingProd2 E ga Pairing.P2 (Pairing.negate Pairing.P1) gpk
  require ok
  return (gpk, vks)

end Verif.Gpp
