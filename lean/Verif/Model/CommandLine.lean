import Verif.Model.Config
import Verif.Model.ServicesFiles

/-!
Model of the way from a service to the client: the command lines built in services/node.ts and
services/admin.ts, the shell that `exec` of node starts (`/bin/sh -c`, external), the arguments of the
client as read by `clap` (external; declared in bin/client.rs:53-153), and the start of `main`.
-/

namespace Verif.CommandLine
open Config ClientFiles Disk Disk.Prog

/-! ### Texts -/

/-- `cmdPrefix`, services/node.ts:81, services/admin.ts:105. -/
def cmdPrefix (o : Options) : List Char :=
  "RUST_LOG=info THRESHOLD=".toList ++ jsString o.threshold ++ " NUMBER_OF_MEMBERS=".toList ++
    jsString o.numberMembers ++ " DEGREE=".toList ++ jsString o.degree ++ " /usr/local/bin/client".toList

/-- services/node.ts:150. -/
def keygenLine (o : Options) (file : List Char) : List Char := cmdPrefix o ++ " keygen -f ".toList ++ file

/-- `cmdProve`, services/node.ts:217. -/
def proveLine (o : Options) (index : ℕ) : List Char := cmdPrefix o ++ " dkg prove ".toList ++ decimalText index

/-- `cmdVerify`, services/node.ts:218. -/
def dkgVerifyLine (o : Options) (index : ℕ) : List Char :=
  cmdPrefix o ++ " dkg verify ".toList ++ decimalText index

/-- `cmd`, services/node.ts:256, services/admin.ts:305. -/
def deriveLine (o : Options) : List Char := cmdPrefix o ++ " dkg derive".toList

/-- `cmdMember`, services/node.ts:258. -/
def deriveMemberLine (o : Options) (index : ℕ) (file : List Char) : List Char :=
  deriveLine o ++ " ".toList ++ decimalText index ++ " -f ".toList ++ file

/-- `cmdEval`, services/node.ts:269. -/
def evalLine (o : Options) (index : ℕ) (input : List Char) : List Char :=
  cmdPrefix o ++ " rand eval ".toList ++ decimalText index ++ " \"".toList ++ input ++ "\"".toList

/-- `cmdVerify`, services/node.ts:270. -/
def verifyEvalLine (o : Options) (index : ℕ) (input : List Char) : List Char :=
  cmdPrefix o ++ " rand verify ".toList ++ decimalText index ++ " \"".toList ++ input ++ "\"".toList

/-- `cmdCombine`, services/admin.ts:440. -/
def combineLine (o : Options) (input : List Char) : List Char :=
  cmdPrefix o ++ " rand combine \"".toList ++ input ++ "\"".toList

/-- `cmdVerify`, services/admin.ts:445. -/
def verifyFinalLine (o : Options) (input : List Char) : List Char :=
  cmdPrefix o ++ " rand verify-final \"".toList ++ input ++ "\"".toList

/-! ### The shell -/

/-- A word while it is read: its characters, marked if they were inside double quotes. -/
abbrev Word : Type := List (Char × Bool)

/-- Characters that have no meaning of their own outside quotes. -/
def plainChar (c : Char) : Bool :=
  c.isAlphanum || c = '_' || c = '-' || c = '.' || c = '/' || c = '=' || c = ':' || c = ',' || c = '+' || c = '@' ||
    c = '%'

/-- The words of a command line (POSIX shell, external).  `quoted`: inside double quotes; `cur`: the word
being read.  Operators, expansions, comments, single quotes, backslashes, tabs and line breaks outside
quotes are not modelled: `none` stands for anything the shell may do then. -/
def lex (quoted : Bool) (cur : Option Word) : List Char → Option (List Word)
  | [] => if quoted then none else some cur.toList
  | c :: cs =>
    if quoted then
      if c = '"' then lex false cur cs
      else if c = '$' ∨ c = '`' ∨ c = '\\' then none
      else lex true (some (cur.getD [] ++ [(c, true)])) cs
    else if c = ' ' then (lex false none cs).map (cur.toList ++ ·)
    else if c = '"' then lex true (some (cur.getD [])) cs
    else if plainChar c then lex false (some (cur.getD [] ++ [(c, false)])) cs
    else none

/-- An assignment before a command: an unquoted name, an unquoted equals sign and the value. -/
def assignment (w : Word) : Option (List Char × List Char) :=
  let name := w.takeWhile (fun c => c ≠ ('=', false))
  match w.drop name.length with
  | [] => none
  | _ :: value =>
    if name ≠ [] ∧ name.all (fun c => !c.2 && (c.1.isAlphanum || c.1 = '_')) ∧
        (name.head?.map (fun c => !c.1.isDigit)).getD false then
      some (name.map (·.1), value.map (·.1))
    else none

/-- The environment and the arguments of the command: assignments first. -/
def environment (inherited : Vars) : List Word → Vars × List (List Char)
  | [] => (inherited, [])
  | w :: ws =>
    match assignment w with
    | some (name, value) =>
      environment (fun key => if key.toList = name then some value else inherited key) ws
    | none => (inherited, (w :: ws).map (fun w => w.map (·.1)))

/-- `/bin/sh -c line`, if it runs the client: its environment and its arguments. -/
def shell (inherited : Vars) (line : List Char) : Option (Vars × List (List Char)) := do
  let ws ← lex false none line
  match environment inherited ws with
  | (env, cmd :: args) => if cmd = "/usr/local/bin/client".toList then some (env, args) else none
  | (_, []) => none

/-! ### Arguments -/

/-- The options of a subcommand: letters with a value, letters that are flags, and long names with the
letter they stand for. -/
structure Opts where
  valued : List Char
  flags : List Char
  long : List (List Char × Char)

/-- What `clap` found: positional arguments and options. -/
structure Found where
  positional : List (List Char)
  options : List (Char × List Char)

/-- A flag or an option may be given once. -/
def Found.add (f : Found) (c : Char) (v : List Char) : Option Found :=
  if f.options.any (fun p => p.1 = c) then none else some { f with options := (c, v) :: f.options }

/-- A cluster of short options after the dash: flags, or one option with its value, in the same word (with
or without equals sign) or (`true`) in the next. -/
def cluster (s : Opts) : Found → List Char → Option (Found × Option Char)
  | f, [] => some (f, none)
  | f, c :: cs =>
    if c ∈ s.flags then do
      let f ← f.add c []
      cluster s f cs
    else if c ∈ s.valued then
      match cs with
      | [] => some (f, some c)
      | '=' :: v => (f.add c v).map (fun f => (f, none))
      | v => (f.add c v).map (fun f => (f, none))
    else none

/-- A long option: its name and the value after an equals sign, if there is one. -/
def splitLong (w : List Char) : List Char × Option (List Char) :=
  match w.dropWhile (fun c => c ≠ '=') with
  | [] => (w, none)
  | _ :: v => (w.takeWhile (fun c => c ≠ '='), some v)

/-- A long option after the two dashes: a flag, or an option with its value after an equals sign or in the
next word. -/
def longOption (s : Opts) (f : Found) (name : List Char) : Option (Found × Option Char) := do
  let c ← (s.long.find? (fun p => p.1 = (splitLong name).1)).map (·.2)
  match (splitLong name).2 with
  | some v => if c ∈ s.valued then (f.add c v).map (fun f => (f, none)) else none
  | none => if c ∈ s.valued then some (f, some c) else (f.add c []).map (fun f => (f, none))

/-- `clap` on the arguments of a subcommand (external): positional arguments in order; words that begin
with a dash are options, also where a value is expected; `--` ends the options.  `pending` is an option
that waits for its value.  `none`: an error or a help text. -/
def scan (s : Opts) (f : Found) (pending : Option Char) : List (List Char) → Option Found
  | [] => if pending = none then some f else none
  | w :: ws =>
    match pending with
    | some c =>
      if w.head? = some '-' ∧ w ≠ ['-'] then none
      else (f.add c w).bind (fun f => scan s f none ws)
    | none =>
      if w = ['-', '-'] then some { f with positional := f.positional ++ ws }
      else if w.take 2 = ['-', '-'] then (longOption s f (w.drop 2)).bind (fun r => scan s r.1 r.2 ws)
      else if w.head? = some '-' ∧ w ≠ ['-'] then (cluster s f w.tail).bind (fun r => scan s r.1 r.2 ws)
      else scan s { f with positional := f.positional ++ [w] } none ws

/-- `usize::from_str` (Rust core, external): an optional plus sign and digits, below `2^64`. -/
def parseUsize (t : List Char) : Option ℕ :=
  let digits := if t.head? = some '+' then t.tail else t
  if digits ≠ [] ∧ digits.all Json.isDigit ∧ ofDigits digits < 2 ^ 64 then some (ofDigits digits) else none

/-- The value of an option, or a default. -/
def Found.value (f : Found) (c : Char) : Option (List Char) := (f.options.find? (fun p => p.1 = c)).map (·.2)

/-- What is to be done: the commands on data files (several steps of `mock`), or `setup` (`Verif.Model.Setup`). -/
inductive Job where
  | setup (skip split : Bool)
  | commands (cs : List Command)

/-- The option `-f` with its default, bin/client.rs:77, 104. -/
def fileOpts : Opts := ⟨['f'], [], []⟩
/-- Subcommands without options. -/
def noOpts : Opts := ⟨[], [], []⟩
/-- `-s`, `--skip`, bin/client.rs:133. -/
def skipOpts : Opts := ⟨[], ['s'], [("skip".toList, 's')]⟩
/-- `--skip`, `--split`, bin/client.rs:68-72: no short names (here the letters `1` and `2`, which no word can
reach because they are not in the list of short flags). -/
def setupOpts : Opts := ⟨[], [], [("skip".toList, '1'), ("split".toList, '2')]⟩
/-- `-m`/`--mem`, `-d`/`--dkg`, `-r`/`--rand`, bin/client.rs:142-152. -/
def mockOpts : Opts := ⟨['r'], ['m', 'd'], [("mem".toList, 'm'), ("dkg".toList, 'd'), ("rand".toList, 'r')]⟩

/-- `Cli::parse`, bin/client.rs:53-153, 363 (derived by `clap`). -/
def parseArgs : List (List Char) → Option Job
  | [] => none
  | cmd :: args =>
    if cmd = "keygen".toList then do
      let f ← scan fileOpts ⟨[], []⟩ none args
      match f.positional with
      | [] => some (.commands [.keygen ((f.value 'f').getD "member".toList)])
      | _ => none
    else if cmd = "setup".toList then do
      let f ← scan setupOpts ⟨[], []⟩ none args
      match f.positional with
      | [] => some (.setup (f.value '1').isSome (f.value '2').isSome)
      | _ => none
    else if cmd = "mock".toList then do
      let f ← scan mockOpts ⟨[], []⟩ none args
      match f.positional with
      | [] => some (.commands ((if (f.value 'm').isSome then [.mockMembers] else []) ++
          (if (f.value 'd').isSome then [.mockDkg] else []) ++
          ((f.value 'r').map (fun v => Command.mockRandom (utf8 v))).toList))
      | _ => none
    else match args with
    | [] => none
    | sub :: args =>
      if cmd = "dkg".toList then
        if sub = "prove".toList then do
          let f ← scan noOpts ⟨[], []⟩ none args
          match f.positional with
          | [i] => (parseUsize i).map (fun i => .commands [.prove i])
          | _ => none
        else if sub = "verify".toList then do
          let f ← scan noOpts ⟨[], []⟩ none args
          match f.positional with
          | [i] => (parseUsize i).map (fun i => .commands [.dkgVerify i])
          | _ => none
        else if sub = "derive".toList then do
          let f ← scan fileOpts ⟨[], []⟩ none args
          match f.positional with
          | [] => some (.commands [.derive none ((f.value 'f').getD "member".toList)])
          | [i] => (parseUsize i).map (fun i => .commands [.derive (some i) ((f.value 'f').getD "member".toList)])
          | _ => none
        else none
      else if cmd = "rand".toList then
        if sub = "eval".toList then do
          let f ← scan noOpts ⟨[], []⟩ none args
          match f.positional with
          | [i, x] => (parseUsize i).map (fun i => .commands [.eval i (utf8 x)])
          | _ => none
        else if sub = "verify".toList then do
          let f ← scan noOpts ⟨[], []⟩ none args
          match f.positional with
          | [i, x] => (parseUsize i).map (fun i => .commands [.verifyEval i (utf8 x)])
          | _ => none
        else if sub = "combine".toList then do
          let f ← scan skipOpts ⟨[], []⟩ none args
          match f.positional with
          | [x] => some (.commands [.combine (utf8 x) (f.value 's').isSome])
          | _ => none
        else if sub = "verify-final".toList then do
          let f ← scan noOpts ⟨[], []⟩ none args
          match f.positional with
          | [x] => some (.commands [.verifyFinal (utf8 x)])
          | _ => none
        else none
      else none

/-! ### The client and the services -/

/-- Commands one after the other. -/
noncomputable def sequence (T : Tools) (cfg : DkgConfig) (ρ : Random) : List Command → Prog Unit
  | [] => pure ()
  | c :: cs => (c.prog T cfg ρ).bind (fun _ => sequence T cfg ρ cs)

/-- `main`, bin/client.rs:309-687, on data files: the configuration, then the arguments, then the command.
`setup` does not touch data files. -/
noncomputable def clientMain (T : Tools) (ρ : Random) (env : Vars) (args : List (List Char)) : Prog Unit :=
  (lib (clientConfig env)).bind (fun cfg =>
    match parseArgs args with
    | none => fail .script
    | some (.setup _ _) => pure ()
    | some (.commands cs) => sequence T cfg.1 ρ cs)

/-- `execPromise(line)`, services/node.ts:308, services/admin.ts:474: `exec` of node with the environment
of the service. -/
noncomputable def execLine (T : Tools) (ρ : Random) (inherited : Vars) (line : List Char) : Prog Unit :=
  match shell inherited line with
  | none => fail .script
  | some (env, args) => clientMain T ρ env args

end Verif.CommandLine
