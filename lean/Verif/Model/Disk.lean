import Verif.Model.Json
import Verif.Model.ClientDkg

/-!
Programs that read and write files: the part of `std::fs` used by bin/client.rs and bin/mock.rs
(`read`, `read_to_string`, `write`) and of node's `fs` used by services/node.ts:294-337 (external).

A disk maps resolved file names to bytes.  Directories exist (bin/client.rs:315-320 creates them) and
there are no links.  A write first empties the file and then fills it, so a process that is stopped in
between, or a write that fails, leaves a prefix of the bytes.
-/

namespace Verif.Disk

/-- A resolved file name: the components of the path, innermost first. -/
abbrev Name : Type := List (List Char)

/-- The files. -/
abbrev Store : Type := Name → Option (List Byte)

/-- The components of a path between slashes. -/
def components : List Char → List (List Char)
  | [] => [[]]
  | c :: cs =>
    if c = '/' then [] :: components cs
    else match components cs with
      | w :: ws => (c :: w) :: ws
      | [] => [[c]]

/-- One component: nothing and `.` stay, `..` goes up, anything else goes down. -/
def enter (at_ : Name) (c : List Char) : Name :=
  if c = [] ∨ c = ['.'] then at_
  else if c = ['.', '.'] then
    match at_ with
    | [] => [c]
    | d :: up => if d = ['.', '.'] then c :: at_ else up
  else c :: at_

/-- The file named by a path, relative to the working directory (external, operating system). -/
def resolve (path : List Char) : Name := (components path).foldl enter []

/-- Why a command fails: a file cannot be read, it is no UTF-8 or JSON of the expected type, the keys in
an instance are not the expected ones, a script cannot use a value, or a failure as in `Verif.Client`. -/
inductive Stop where
  | io
  | json
  | keys
  | script
  | cli (f : Client.CliFail)
deriving DecidableEq

/-- A program: a result, or reading or writing a file and going on. -/
inductive Prog (α : Type) where
  | done (res : Except Stop α)
  | read (n : Name) (next : Option (List Byte) → Prog α)
  | write (n : Name) (bytes : List Byte) (next : Prog α)

namespace Prog

/-- Sequence of programs; a failure ends the program (the `?` operator; a panic). -/
def bind {α β : Type} : Prog α → (α → Prog β) → Prog β
  | done (.ok a), f => f a
  | done (.error e), _ => done (.error e)
  | read n next, f => read n (fun b => (next b).bind f)
  | write n bytes next, f => write n bytes (next.bind f)

/-- Programs in `do` notation. -/
instance : Monad Prog where
  pure a := done (.ok a)
  bind := bind

/-- Failure. -/
def fail {α : Type} (e : Stop) : Prog α := done (.error e)

/-- `fs::read(path)?`, e.g. bin/client.rs:457. -/
def readBytes (path : List Char) : Prog (List Byte) :=
  read (resolve path) (fun
    | none => fail .io
    | some bs => done (.ok bs))

/-- `read_to_string(path)?` and `serde_json::from_str(&bytes)?`, e.g. bin/client.rs:415-416. -/
def readJson {α : Type} [Serde α] (path : List Char) : Prog α :=
  read (resolve path) (fun
    | none => fail .io
    | some bs => match Serde.ofFile bs with
      | none => fail .json
      | some a => done (.ok a))

/-- `fs::write(path, bytes)?`, e.g. bin/client.rs:206. -/
def writeBytes (path : List Char) (bytes : List Byte) : Prog Unit :=
  write (resolve path) bytes (done (.ok ()))

/-- `serde_json::to_string(&v)?` and `fs::write`, e.g. bin/client.rs:173-174. -/
def writeJson {α : Type} [Serde α] (path : List Char) (a : α) : Prog Unit :=
  writeBytes path (Serde.toFile a)

/-- Results of the client's functions. -/
def client {α : Type} : Except Client.CliFail α → Prog α
  | .ok a => done (.ok a)
  | .error f => fail (.cli f)

/-- Results of the library. -/
def lib {α : Type} (a : Res α) : Prog α := client (Client.lift a)

/-- A loop: one program for each element, with the results. -/
def each {α β : Type} (f : α → Prog β) : List α → Prog (List β)
  | [] => done (.ok [])
  | a :: l => (f a).bind (fun b => (each f l).bind (fun bs => done (.ok (b :: bs))))

/-- The disk after a write. -/
def put (d : Store) (n : Name) (bytes : List Byte) : Store := Function.update d n (some bytes)

/-- Running a program to its end: the disk and the result. -/
def run {α : Type} : Prog α → Store → Store × Except Stop α
  | done res, d => (d, res)
  | read n next, d => (next (d n)).run d
  | write n bytes next, d => next.run (put d n bytes)

/-- The disks that a program can leave behind when it is stopped at any point (killed, or a write that
fails): a write that was under way leaves a prefix. -/
inductive Stopped {α : Type} : Prog α → Store → Store → Prop
  | here (P : Prog α) (d : Store) : Stopped P d d
  | read {n : Name} {next : Option (List Byte) → Prog α} {d d' : Store} :
      Stopped (next (d n)) d d' → Stopped (.read n next) d d'
  | torn {n : Name} {bytes part : List Byte} {next : Prog α} {d : Store} :
      part <+: bytes → Stopped (.write n bytes next) d (put d n part)
  | write {n : Name} {bytes : List Byte} {next : Prog α} {d d' : Store} :
      Stopped next (put d n bytes) d' → Stopped (.write n bytes next) d d'

/-- Several processes on one disk: one step of one of them.  A write can be seen half done. -/
inductive Step {ι α : Type} [DecidableEq ι] : (ι → Prog α) × Store → (ι → Prog α) × Store → Prop
  | read {P : ι → Prog α} {d : Store} {i : ι} {n : Name} {next : Option (List Byte) → Prog α} :
      P i = .read n next → Step (P, d) (Function.update P i (next (d n)), d)
  | torn {P : ι → Prog α} {d : Store} {i : ι} {n : Name} {bytes part : List Byte} {next : Prog α} :
      P i = .write n bytes next → part <+: bytes → Step (P, d) (P, put d n part)
  | write {P : ι → Prog α} {d : Store} {i : ι} {n : Name} {bytes : List Byte} {next : Prog α} :
      P i = .write n bytes next → Step (P, d) (Function.update P i next, put d n bytes)

end Prog

end Verif.Disk
