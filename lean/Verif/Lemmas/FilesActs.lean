import Verif.Lemmas.DiskActs
import Verif.Lemmas.DiskNames
import Verif.Lemmas.Lib
import Verif.Lemmas.DkgCircuitNoG2

/-! The files read and written by the commands. -/

namespace Verif
open Disk Disk.Prog ClientFiles Spec Serde

/-- Every proper beginning is refused. -/
def Torn (bytes : List Byte) : Prop := ∀ p t, bytes = p ++ t → t ≠ [] → Refused p

theorem torn_toFile {α : Type} [Serde α] {a : α} (h : Good 128 a) (hb : Json.Bracketed (enc a)) :
    Torn (toFile a) := fun _ _ hp ht _ _ => ofFile_torn h hb hp ht

/-- What is written by the commands: proofs or JSON. -/
def Text (n : Name) (bytes : List Byte) : Prop := (∃ i, n = (DataFile.proof i).name) ∨ Torn bytes

theorem text_json {α : Type} [Serde α] {n : Name} {a : α} (h : Good 128 a)
    (hb : Json.Bracketed (enc a)) : Text n (toFile a) := Or.inr (torn_toFile h hb)

/-- The names of a set of files. -/
def Names (s : DataFile → Prop) (n : Name) : Prop := ∃ x, s x ∧ x.name = n

theorem acts_writeJson {α : Type} [Serde α] {R : Name → Prop} {a : α} (x : DataFile) (h : Good 128 a)
    (hb : Json.Bracketed (enc a)) :
    Acts R Text (fun _ => True) (fun m => m = x.name) (writeJson x.path a) :=
  acts_write rfl (text_json h hb)

variable {R : Name → Prop}

/-- Two single files. -/
theorem single_ne {x y : DataFile} (hx : x.Plain) (hy : y.Plain) (h : x ≠ y) (n : Name) :
    n = x.name → ¬ n = y.name := fun h1 h2 => h (DataFile.name_inj hx hy (h1.symm.trans h2))

theorem acts_keygen (f : List Char) (sk : Fq) :
    Acts R Text (fun _ => True) (fun n => n = (DataFile.member f).name) (ClientFiles.keygen f sk) :=
  acts_writeJson (.member f) (good_member _ 125) trivial

theorem acts_saveProof (proof : List Byte) (ins : List Fr) (i : ℕ) :
    Acts R Text (fun _ => True) (fun n => n = (DataFile.proof i).name ∨ n = (DataFile.instance_ i).name)
      (saveProof proof ins i) := by
  refine Acts.bind (acts_write (n := (DataFile.proof i).name) rfl (Or.inl ⟨i, rfl⟩)) (fun _ _ => ?_)
    (single_ne trivial trivial (by simp))
  exact acts_writeJson (.instance_ i) (good_strs _ (by omega : 1 ≤ 127)) trivial

theorem acts_prove (prover : List Fr → Option (List Byte)) (b : Bool) (cfg : DkgConfig) (i : ℕ)
    (draw : ℕ → Fr) (hR : R DataFile.memberKeys.name) :
    Acts R Text (fun _ => True) (fun n => n = (DataFile.proof i).name ∨ n = (DataFile.instance_ i).name)
      (ClientFiles.prove prover b cfg i draw) := by
  unfold ClientFiles.prove
  refine Acts.then (acts_client _) (fun _ _ => ?_)
  refine Acts.then (acts_readJson hR) (fun mp _ => ?_)
  refine Acts.then (acts_lib _) (fun mpks _ => ?_)
  refine Acts.then (acts_lib _) (fun dkg _ => ?_)
  refine Acts.then (acts_lib _) (fun ins _ => ?_)
  beta_reduce
  cases prover ins with
  | none => trivial
  | some proof => exact acts_saveProof proof ins i

theorem acts_dkgVerify (verifier : List Byte → List Fr → Bool) (cfg : DkgConfig) (i : ℕ)
    (h1 : R (DataFile.proof i).name) (h2 : R (DataFile.instance_ i).name)
    (h3 : R DataFile.memberKeys.name) :
    Acts R Text (fun _ => True) (fun _ => False) (ClientFiles.dkgVerify verifier cfg i) := by
  unfold ClientFiles.dkgVerify
  refine Acts.then (acts_client _) (fun _ _ => ?_)
  refine Acts.then (acts_readBytes h1) (fun proof _ => ?_)
  refine Acts.then (acts_readJson h2) (fun ib _ => ?_)
  refine Acts.then (acts_lib _) (fun ins _ => ?_)
  refine Acts.then (acts_readJson h3) (fun mp _ => ?_)
  refine Acts.then (acts_lib _) (fun mpks _ => ?_)
  refine Acts.then (acts_lib _) (fun pks _ => ?_)
  beta_reduce
  split
  · trivial
  · split
    · exact acts_pure trivial
    · trivial

theorem acts_saveGpp (gpp : DkgGlobalPubParams) :
    Acts R Text (fun _ => True) (fun n => n = DataFile.gpk.name ∨ n = DataFile.vks.name) (saveGpp gpp) := by
  refine Acts.bind (acts_writeJson .gpk (good_point2 _ 125) trivial) (fun _ _ => ?_)
    (single_ne trivial trivial (by simp))
  exact acts_writeJson .vks (good_points _ 125) trivial

theorem acts_saveShare {share : DkgShareKey} {i : ℕ} (hi : share.index = i) (h : i < 2 ^ 64) :
    Acts R Text (fun _ => True) (fun n => n = (DataFile.share i).name) (saveShare share) := by
  unfold saveShare
  rw [hi]
  refine acts_writeJson (.share i) (good_share ?_ 125) trivial
  show share.index < 2 ^ 64
  rw [hi]
  exact h

theorem dkgShareKey_index {mask : Mask} {k : MemberKey} {cfg : DkgConfig} {i : ℕ}
    {pps : List DkgMemberPublicParams} {s : DkgShareKey} (h : k.dkgShareKey mask cfg i pps = .ok s) :
    s.index = i ∧ 1 ≤ i ∧ i ≤ cfg.numberOfMembers := by
  unfold MemberKey.dkgShareKey at h
  split at h
  · cases h
  · rename_i hi
    simp only [Bind.bind, Except.bind] at h
    split at h
    · cases h
    · cases h
      exact ⟨rfl, by omega, by omega⟩

theorem acts_derive (cfg : DkgConfig) (hn : cfg.numberOfMembers < 2 ^ 64) (i : Option ℕ) (f : List Char)
    (h1 : R DataFile.allInstances.name) (h2 : i.isSome → R (DataFile.member f).name) :
    Acts R Text (fun _ => True) (fun n => (n = DataFile.gpk.name ∨ n = DataFile.vks.name) ∨
      ∃ j, i = some j ∧ n = (DataFile.share j).name) (ClientFiles.derive cfg i f) := by
  unfold ClientFiles.derive
  refine Acts.then (acts_readJson h1) (fun ib _ => ?_)
  refine Acts.then (acts_lib _) (fun ins _ => ?_)
  refine Acts.then (acts_lib _) (fun pub _ => ?_)
  refine Acts.then (acts_lib _) (fun gpp _ => ?_)
  refine Acts.bind (acts_saveGpp gpp) (fun _ _ => ?_) ?_
  · cases i with
    | none => exact (acts_pure trivial).congr (fun n => by simp)
    | some i =>
      refine Acts.then (acts_client _) (fun _ _ => ?_)
      refine Acts.then (acts_readJson (h2 rfl)) (fun mb _ => ?_)
      refine Acts.then (acts_lib _) (fun member _ => ?_)
      refine Acts.then (acts_lib _) (fun share hs => ?_)
      refine Acts.then (acts_lib _) (fun _ _ => ?_)
      obtain ⟨h3, h4, h5⟩ := dkgShareKey_index hs
      exact (acts_saveShare h3 (by omega)).congr (fun n => by simp)
  · rintro n (h | h) ⟨j, -, hj⟩
    · exact single_ne (x := .gpk) (y := .share j) trivial trivial (by simp) n h hj
    · exact single_ne (x := .vks) (y := .share j) trivial trivial (by simp) n h hj

theorem decNat_lt {b n : ℕ} {j : Json} (h : decNat b j = some n) : n < b := by
  unfold decNat at h
  split at h
  · split at h
    · rename_i h'
      cases h
      exact h'.2.2
    · cases h
  · cases h

/-- The index in a share file is a machine word. -/
theorem share_index_lt {bs : List Byte} {s : ShareKeySerde} (h : ofFile bs = some s) : s.index < 2 ^ 64 := by
  unfold ofFile at h
  simp only [Option.bind_eq_bind, Option.bind_eq_some_iff] at h
  obtain ⟨t, -, j, -, h⟩ := h
  have h' : (do
    match ← decStruct ["index", "sk", "vk"] j with
    | [a, b, c] => return (⟨← dec a, ← dec b, ← dec c⟩ : ShareKeySerde)
    | _ => none) = some s := h
  simp only [Option.bind_eq_bind, Option.bind_eq_some_iff] at h'
  obtain ⟨l, -, h'⟩ := h'
  split at h'
  · simp only [Option.bind_eq_some_iff] at h'
    obtain ⟨a, ha, b, -, c, -, h'⟩ := h'
    cases h'
    exact decNat_lt ha
  · cases h'

theorem share_read_index {s : ShareKeySerde} {k : DkgShareKey} (h : s.read = .ok k) : k.index = s.index := by
  unfold ShareKeySerde.read at h
  cases h1 : readField r s.sk with
  | error e => rw [h1] at h; cases h
  | ok a =>
    cases h2 : s.vk.toG1 with
    | error e => rw [h1, h2] at h; cases h
    | ok b =>
      rw [h1, h2] at h
      simp only [Bind.bind, Except.bind] at h
      split at h
      · cases h
      · cases h
        rfl

theorem acts_eval (keccak : Keccak) (h2c : List Byte → G1) (cfg : DkgConfig) (i : ℕ) (input : List Byte)
    (nonce : Fr) (h1 : R (DataFile.share i).name) :
    Acts R Text (fun _ => True) (fun n => n = (DataFile.eval i).name)
      (ClientFiles.eval keccak h2c cfg i input nonce) := by
  unfold ClientFiles.eval
  refine Acts.then (acts_client _) (fun _ _ => ?_)
  refine Acts.then (acts_readJson h1) (fun sb hb => ?_)
  refine Acts.then (acts_lib _) (fun share hs => ?_)
  obtain ⟨bs, hb⟩ := hb
  refine acts_writeJson (.eval i) (good_eval ?_ 125) trivial
  show share.index < 2 ^ 64
  rw [share_read_index hs]
  exact share_index_lt hb

theorem acts_verifyEval (keccak : Keccak) (h2c : List Byte → G1) (cfg : DkgConfig) (i : ℕ) (input : List Byte)
    (h1 : R (DataFile.eval i).name) (h2 : R DataFile.vks.name) :
    Acts R Text (fun _ => True) (fun _ => False) (ClientFiles.verifyEval keccak h2c cfg i input) := by
  unfold ClientFiles.verifyEval
  refine Acts.then (acts_client _) (fun _ _ => ?_)
  refine Acts.then (acts_readJson h1) (fun sb _ => ?_)
  refine Acts.then (acts_lib _) (fun s _ => ?_)
  refine Acts.then (acts_readJson h2) (fun vb _ => ?_)
  refine Acts.then (acts_lib _) (fun vks _ => ?_)
  refine Acts.then (acts_lib _) (fun vk _ => ?_)
  exact (acts_lib _).imp (fun _ _ => trivial)

theorem acts_combine (E : BnPairing) (keccak : Keccak) (h2c : List Byte → G1) (cfg : DkgConfig)
    (input : List Byte) (skip : Bool) (h1 : R DataFile.evals.name) (h2 : R DataFile.gpk.name)
    (h3 : skip = false → R DataFile.vks.name) :
    Acts R Text (fun _ => True) (fun n => n = DataFile.pseudo.name)
      (ClientFiles.combine E keccak h2c cfg input skip) := by
  unfold ClientFiles.combine
  refine Acts.then (acts_readJson h1) (fun eb _ => ?_)
  refine Acts.then (acts_lib _) (fun evals _ => ?_)
  refine Acts.then (acts_readJson h2) (fun gb _ => ?_)
  refine Acts.then (acts_lib _) (fun gpk _ => ?_)
  refine Acts.then (Q := fun _ => True) ?_ (fun ok _ => ?_)
  · unfold verified
    cases skip with
    | true => exact acts_pure trivial
    | false =>
      refine Acts.then (acts_readJson (h3 rfl)) (fun vb _ => ?_)
      refine Acts.then (acts_lib _) (fun vks _ => ?_)
      exact (acts_client _).imp (fun _ _ => trivial)
  · beta_reduce
    split
    · trivial
    · refine Acts.then (acts_lib _) (fun pseudo _ => ?_)
      refine Acts.then (acts_lib _) (fun _ _ => ?_)
      exact acts_writeJson .pseudo (good_pseudo _ 125) trivial

theorem acts_verifyFinal (E : BnPairing) (keccak : Keccak) (h2c : List Byte → G1)
    (input : List Byte) (h1 : R DataFile.pseudo.name) (h2 : R DataFile.gpk.name) :
    Acts R Text (fun _ => True) (fun _ => False) (ClientFiles.verifyFinal E keccak h2c input) := by
  unfold ClientFiles.verifyFinal
  refine Acts.then (acts_readJson h1) (fun eb _ => ?_)
  refine Acts.then (acts_lib _) (fun evals _ => ?_)
  refine Acts.then (acts_readJson h2) (fun gb _ => ?_)
  refine Acts.then (acts_lib _) (fun gpk _ => ?_)
  exact (acts_lib _).imp (fun _ _ => trivial)

end Verif
