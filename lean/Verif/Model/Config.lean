import Verif.Model.Dkg
import Mathlib.Data.Nat.Digits.Defs

/-!
Model of the configuration of the client (bin/client.rs:325-361) and of the services that run it
(services/exec/run.ts, services/exec/runNode.ts and the command prefix in services/admin.ts and
services/node.ts).

Strings are lists of characters.  An environment is a function from names to values; a variable that is
not set, or not valid Unicode, has no value.  `.env` files only add variables that are not set
(`dotenv`, external), so the environment here is the one after loading them.
-/

namespace Verif.Config

/-- An environment. -/
abbrev Vars : Type := String → Option (List Char)

/-- Value of an ASCII decimal digit. -/
def digitVal (c : Char) : Option ℕ :=
  if 48 ≤ c.toNat ∧ c.toNat ≤ 57 then some (c.toNat - 48) else none

/-- The loop of `u32::from_str` (Rust core, external): multiply and add, both checked. -/
def parseDigits : ℕ → List Char → Option ℕ
  | acc, [] => some acc
  | acc, c :: cs => do
    let x ← digitVal c
    if 10 * acc < 2 ^ 32 ∧ 10 * acc + x < 2 ^ 32 then parseDigits (10 * acc + x) cs else none

/-- `val.parse::<u32>()` (Rust core, external), bin/client.rs:330, 343-345: an optional plus sign, then at least
one digit. -/
def parseU32 : List Char → Option ℕ
  | [] => none
  | '+' :: c :: cs => parseDigits 0 (c :: cs)
  | c :: cs => parseDigits 0 (c :: cs)

/-- `env::var(key).ok().and_then(|val| val.parse::<u32>().ok())`, bin/client.rs:326-333. -/
def varU32 (env : Vars) (key : String) : Option ℕ := (env key).bind parseU32

/-- The values used by the client, bin/client.rs:335-347: the defaults for all three if any is missing or
invalid. -/
def readParams (env : Vars) : ℕ × ℕ × ℕ :=
  match varU32 env "THRESHOLD", varU32 env "NUMBER_OF_MEMBERS", varU32 env "DEGREE" with
  | some t, some n, some d => (t, n, d)
  | _, _, _ => (3, 5, 18)

/-- The start of `main`, bin/client.rs:325-361, with `ParamsConfig::dkg_config`, bin/client.rs:161-165:
the configuration and the degree with which every command runs. -/
def clientConfig (env : Vars) : Res (DkgConfig × ℕ) := do
  let p := readParams env
  let cfg ← DkgConfig.new p.1 p.2.1
  return (cfg, p.2.2)

/-- A JavaScript number that is an integer, or `NaN` (`none`), in a template string (external).
Integers from `10^21` on are printed differently, but also in a way that does not parse as `u32`. -/
def jsString : Option ℤ → List Char
  | none => "NaN".toList
  | some (.ofNat 0) => ['0']
  | some (.ofNat (k + 1)) => ((Nat.digits 10 (k + 1)).reverse).map (fun d => Char.ofNat (48 + d))
  | some (.negSucc k) => '-' :: ((Nat.digits 10 (k + 1)).reverse).map (fun d => Char.ofNat (48 + d))

/-- The options of a service that reach the client, services/admin.ts:35-37, services/node.ts:31-33. -/
structure Options where
  threshold : Option ℤ
  numberMembers : Option ℤ
  degree : Option ℤ

/-- The environment of the commands run by the services, services/admin.ts:105, services/node.ts:81: the
prefix sets three variables. -/
def commandVars (o : Options) (inherited : Vars) : Vars := fun key =>
  if key = "THRESHOLD" then some (jsString o.threshold)
  else if key = "NUMBER_OF_MEMBERS" then some (jsString o.numberMembers)
  else if key = "DEGREE" then some (jsString o.degree)
  else inherited key

/-- The options of the command line and of the prefixed environment, by name (`bcfg`, external). -/
abbrev Flags : Type := String → Option ℤ

/-- `config.uint(key, fallback)` (`bcfg`, external): the fallback is not checked. -/
def uint (flags : Flags) (key : String) (fallback : Option ℤ) : Option ℤ :=
  match flags key with
  | some k => some k
  | none => fallback

/-- `x || d` on a number: the default for `NaN` and zero. -/
def orDefault (x : Option ℤ) (d : ℤ) : Option ℤ :=
  match x with
  | none => some d
  | some 0 => some d
  | some k => some k

/-- The options as read by services/exec/run.ts:20-22 and services/exec/runNode.ts:20-22; `env` has the values of
`parseInt(env.NAME, 10)` (external, `none` for `NaN`). -/
def runOptions (flags : Flags) (env : String → Option ℤ) : Options where
  threshold := uint flags "threshold" (env "THRESHOLD")
  numberMembers := uint flags "number_of_members" (env "NUMBER_OF_MEMBERS")
  degree := uint flags "threshold" (env "DEGREE")

/-- `POLLING_INTERVAL` (milliseconds), services/exec/run.ts:28-31. -/
def pollingInterval (flags : Flags) (env : String → Option ℤ) : Option ℤ :=
  uint flags "polling-interval" (orDefault (env "POLLING_INTERVAL") (1000 * 12))

/-- `RAND_GEN_INTERVAL` (seconds), services/exec/run.ts:34-37. -/
def randGenInterval (flags : Flags) (env : String → Option ℤ) : Option ℤ :=
  uint flags "polling-interval" (orDefault (env "RAND_GEN_INTERVAL") 3600)

end Verif.Config
