import Verif.Model.ClientDkg
import Verif.Model.ZkdvrfPre

/-!
Model of the comparison that follows `computeVk` in the admin service (services/admin.ts:317-336) and in the admin of the demo
(scripts/demo/admin.ts:109-128, the same code): the keys in the files against the keys on the chain.
-/

namespace Verif.GppReport
open ZkdvrfPre (State)

/-- Digits of a hexadecimal literal, appended to `acc`. -/
def hexNumber (acc : ℕ) : List Char → Option ℕ
  | [] => some acc
  | c :: l => do
    let x ← hexVal c
    hexNumber (16 * acc + x) l

/-- `BigInt(s)` of JavaScript (external) on strings with prefix `0x`; other forms are not written by the client and are taken to
throw (simplification). -/
def bigInt : List Char → Option ℕ
  | '0' :: 'x' :: c :: l => hexNumber 0 (c :: l)
  | _ => none

/-- One message of the comparison. -/
inductive Message
  /-- "gpk doesn't match", services/admin.ts:318-321. -/
  | gpk
  /-- "vk list length does not match", services/admin.ts:326-328. -/
  | length
  /-- "vk list does not match on i-th vk", services/admin.ts:331-335. -/
  | vk (i : ℕ)
deriving DecidableEq

/-- `BigInt(s₁) != w₁ || BigInt(s₂) != w₂ || ...`, services/admin.ts:319-320, 332; `none` if `BigInt` throws.  (`w` is a number
of the contract, which compares by its value.) -/
def differs : List (List Char × Word) → Option Bool
  | [] => some false
  | (s, w) :: l => do
    let v ← bigInt s
    if v ≠ w.toNat then return true else differs l

/-- The loop over the verification keys, services/admin.ts:331-335, from index `i`; the code throws where the list of the chain
has ended. -/
def vkMessages (i : ℕ) : List PointSerde → List SolG1 → Option (List Message)
  | [], _ => some []
  | _ :: _, [] => none
  | v :: vs, w :: ws => do
    let d ← differs [(v.x, w.x), (v.y, w.y)]
    let rest ← vkMessages (i + 1) vs ws
    return if d then .vk i :: rest else rest

/-- services/admin.ts:317-336: the messages, or `none` if the code throws. -/
def messages (gpk : Point2Serde) (vks : List PointSerde) (p : State) : Option (List Message) := do
  let g ← differs [(gpk.x0, p.gpkVal.x0), (gpk.x1, p.gpkVal.x1), (gpk.y0, p.gpkVal.y0), (gpk.y1, p.gpkVal.y1)]
  let vs ← vkMessages 0 vks p.vkList
  return (if g then [.gpk] else []) ++ (if p.vkList.length ≠ vks.length then [.length] else []) ++ vs

end Verif.GppReport
