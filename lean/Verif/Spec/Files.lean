import Verif.Model.ClientFiles

/-! The data files by what they are for, and the names that are safe to give on the command line. -/

namespace Verif.Spec
open Verif.ClientFiles

/-- The data files of the client and of the services. -/
inductive DataFile where
  /-- the public keys of the members -/
  | memberKeys
  /-- the key pair saved as `f` -/
  | member (f : List Char)
  /-- the proof of member `i` -/
  | proof (i : ℕ)
  /-- the public parameters of member `i` -/
  | instance_ (i : ℕ)
  /-- the public parameters of all members -/
  | allInstances
  /-- the global public key -/
  | gpk
  /-- the verification keys -/
  | vks
  /-- the secret share of member `i` -/
  | share (i : ℕ)
  /-- the partial evaluation of member `i` -/
  | eval (i : ℕ)
  /-- the partial evaluations to combine -/
  | evals
  /-- the random value -/
  | pseudo
  /-- mock: the secrets of member `i` -/
  | secret (i : ℕ)
  /-- mock: public parameters -/
  | dkgsPublic
  /-- mock: global parameters -/
  | gpp

/-- The path of a data file. -/
def DataFile.path : DataFile → List Char
  | memberKeys => mpksPath
  | member f => memberPath f
  | proof i => proofPath i
  | instance_ i => instancePath i
  | allInstances => allInstancesPath
  | gpk => gpkPath
  | vks => vksPath
  | share i => sharePath i
  | eval i => evalPath i
  | evals => evalsPath
  | pseudo => pseudoPath
  | secret i => secretPath i
  | dkgsPublic => dkgsPublicPath
  | gpp => gppPath

/-- The file of that path. -/
def DataFile.name (x : DataFile) : Disk.Name := Disk.resolve x.path

/-- A file name without a slash; every other kind of data file has a fixed name. -/
def DataFile.Plain : DataFile → Prop
  | member f => '/' ∉ f
  | _ => True

/-- The files that a command may write. -/
def writes (cfg : DkgConfig) : Command → DataFile → Prop
  | .keygen f, x => x = .member f
  | .prove i, x => x = .proof i ∨ x = .instance_ i
  | .dkgVerify _, _ => False
  | .derive none _, x => x = .gpk ∨ x = .vks
  | .derive (some i) _, x => x = .gpk ∨ x = .vks ∨ x = .share i
  | .eval i _, x => x = .eval i
  | .verifyEval _ _, _ => False
  | .combine _ _, x => x = .pseudo
  | .verifyFinal _, _ => False
  | .mockMembers, x => x = .memberKeys ∨ ∃ i, 1 ≤ i ∧ i ≤ cfg.numberOfMembers ∧ x = .member (mockMember i)
  | .mockDkg, x => x = .allInstances ∨ x = .dkgsPublic ∨ x = .gpp ∨ x = .gpk ∨ x = .vks ∨
      ∃ i, 1 ≤ i ∧ i ≤ cfg.numberOfMembers ∧ (x = .secret i ∨ x = .share i)
  | .mockRandom _, x => x = .evals ∨ x = .pseudo

/-- The files that a command may read. -/
def reads (cfg : DkgConfig) : Command → DataFile → Prop
  | .keygen _, _ => False
  | .prove _, x => x = .memberKeys
  | .dkgVerify i, x => x = .proof i ∨ x = .instance_ i ∨ x = .memberKeys
  | .derive none _, x => x = .allInstances
  | .derive (some _) f, x => x = .allInstances ∨ x = .member f
  | .eval i _, x => x = .share i
  | .verifyEval i _, x => x = .eval i ∨ x = .vks
  | .combine _ true, x => x = .evals ∨ x = .gpk
  | .combine _ false, x => x = .evals ∨ x = .gpk ∨ x = .vks
  | .verifyFinal _, x => x = .pseudo ∨ x = .gpk
  | .mockMembers, _ => False
  | .mockDkg, x => ∃ i, 1 ≤ i ∧ i ≤ cfg.numberOfMembers ∧ x = .member (mockMember i)
  | .mockRandom _, x => x = .gpp ∨ ∃ i, 1 ≤ i ∧ i ≤ cfg.numberOfMembers ∧ x = .share i

/-- The file name given on the command line has no slash. -/
def plain : Command → Prop
  | .keygen f => '/' ∉ f
  | .derive _ f => '/' ∉ f
  | _ => True

/-- The file is not accepted as any type of value. -/
def Refused (bytes : List Byte) : Prop := ∀ (α : Type) [Serde α], (Serde.ofFile bytes : Option α) = none

end Verif.Spec
