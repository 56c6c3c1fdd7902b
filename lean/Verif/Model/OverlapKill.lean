import Verif.Model.Overlap

/-!
Model of services that are killed and started again while their passes overlap: services/node.ts:45-128,
services/admin.ts:73-206.  A service keeps nothing but its data directory: a new process begins with a pass
(`_start`).  A transaction that the killed process has sent may still be mined, at any later time.

Simplifications: those of `Verif.Model.Overlap`; the commands of a pass run completely or not at all (for
commands stopped in the middle, with half-written files, see `Verif.Model.ServicesFiles`).
-/

namespace Verif.Services
open ZkdvrfPre (State)
open Zkdvrf (Call)

/-- The running services, and the transactions of killed ones that may still be mined, with their senders and
the rounds in which they were made. -/
structure Survivors where
  w : Overlap
  left : List (Address × Call × ℕ)

/-- The services just started, with these files. -/
def Survivors.begin (w : World) : Survivors := ⟨.begin w, []⟩

/-- What remains of a service in this stage: its transaction, unless it is lost. -/
def Stage.remains {J : Type} (st : Stage J) (sender : Address) (lost : Bool) : List (Address × Call × ℕ) :=
  match st with
  | .sent c k => if lost then [] else [(sender, c, k)]
  | _ => []

/-- The node `a` is killed, or has stopped, and is started again: `_start`, services/node.ts:86.  `lost`: its
transaction, if there is one on its way, will never be mined. -/
def Survivors.restart (s : Survivors) (a : Address) (lost : Bool) : Survivors :=
  ⟨{ s.w with nodeAt := Function.update s.w.nodeAt a .free }, (s.w.nodeAt a).remains a lost ++ s.left⟩

/-- The admin with wallet `o` is killed, or has stopped, and is started again: `_start`,
services/admin.ts:120. -/
def Survivors.restartAdmin (s : Survivors) (o : Address) (lost : Bool) : Survivors :=
  ⟨{ s.w with adminAt := .free }, s.w.adminAt.remains o lost ++ s.left⟩

/-- The `i`-th of the transactions left is mined. -/
noncomputable def Survivors.mine (M : Machine) (s : Survivors) (i : ℕ) : Survivors :=
  match s.left[i]? with
  | none => s
  | some (a, c, _) =>
    ⟨{ s.w with p := (ZkdvrfPre.exec M.env s.w.p ⟨a, 0⟩ c).getD s.w.p }, s.left.eraseIdx i⟩

end Verif.Services
