import Verif.Model.ServicesText
import Verif.Spec.ServicesFiles

/-! Vocabulary for statements about command lines. -/

namespace Verif.CommandLine
open Config ClientFiles

/-- Characters that stay as they are inside double quotes. -/
def safeChar (c : Char) : Bool := c ≠ '"' && c ≠ '$' && c ≠ '`' && c ≠ '\\'

/-- A file name that the shell and the parser leave alone. -/
def FileArg (f : List Char) : Prop := f ≠ [] ∧ (∀ c ∈ f, plainChar c = true) ∧ f.head? ≠ some '-'

/-- An input that the shell and the parser leave alone between double quotes. -/
def InputArg (x : List Char) : Prop := (∀ c ∈ x, safeChar c = true) ∧ x.head? ≠ some '-'

/-- The line runs the client with the configuration of the options and this command. -/
def Runs (o : Options) (v : Vars) (line : List Char) (c : Command) : Prop :=
  ∃ env args, shell v line = some (env, args) ∧ parseArgs args = some (.commands [c]) ∧
    clientConfig env = clientConfig (commandVars o v)

end Verif.CommandLine

namespace Verif.ServicesText
open Disk Disk.Prog
open Services (Machine Draw GoodDraw)
open ZkdvrfPre (Completed)
open ServicesFiles (World sent)

/-- The options are the values of the contract, and a degree. -/
def Start.Matches (u : Start) (t n : ℕ) : Prop :=
  u.options.threshold = some (t : ℤ) ∧ u.options.numberMembers = some (n : ℤ) ∧
    ∃ k : ℕ, k < 2 ^ 32 ∧ u.options.degree = some (k : ℤ)

/-- `ServicesFiles.Honest` with command lines as text: `A` and `U` are the starts of the admin and of the
nodes. -/
inductive Honest (M : Machine) (A : Start) (U : Address → Start) (o : Address) (ws : List Address) (t n : ℕ)
    (aux1 : G1) (aux2 : G2) (w : World) : ℕ → World → Prop
  | refl : Honest M A U o ws t n aux1 aux2 w 0 w
  | node {N w'} (a : Address) (d : Draw) (ha : a ∈ ws) (hd : GoodDraw t n aux1 aux2 d)
      (h : Honest M A U o ws t n aux1 aux2 w N w') :
      Honest M A U o ws t n aux1 aux2 w
        (N + sent ((nodePass M (U a).options (U a).vars w'.p a d).run (w'.node a)).2) (nodeStep M (U a) w' a d)
  | nodeStopped {N w'} (a : Address) (d : Draw) (s : Store)
      (hs : Stopped (nodePass M (U a).options (U a).vars w'.p a d) (w'.node a) s)
      (h : Honest M A U o ws t n aux1 aux2 w N w') :
      Honest M A U o ws t n aux1 aux2 w N { w' with node := Function.update w'.node a s }
  | admin {N w'} (d : Draw) (begun : Bool) (h : Honest M A U o ws t n aux1 aux2 w N w') :
      Honest M A U o ws t n aux1 aux2 w
        (N + sent ((adminPass M A.options A.vars w'.p d begun).run w'.admin).2) (adminStep M A w' o d begun)
  | adminStopped {N w'} (d : Draw) (begun : Bool) (s : Store)
      (hs : Stopped (adminPass M A.options A.vars w'.p d begun) w'.admin s)
      (h : Honest M A U o ws t n aux1 aux2 w N w') :
      Honest M A U o ws t n aux1 aux2 w N { w' with admin := s }
  | tick {N w'} (begun elapsed : Bool)
      (he : elapsed = true → Completed w'.p w'.p.currentRoundNum)
      (h : Honest M A U o ws t n aux1 aux2 w N w') :
      Honest M A U o ws t n aux1 aux2 w (N + (Services.adminTick w'.p .none begun elapsed).sent)
        (w'.tickStep M o begun elapsed)

end Verif.ServicesText
