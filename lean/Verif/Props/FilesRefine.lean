import Verif.Props.Files

/-! C89: the commands on files do what the functions of `Verif.Model.Client` do on values. -/

namespace Verif.Props
open Disk Disk.Prog ClientFiles Spec Serde

/-- The value in a data file. -/
def load {α : Type} [Serde α] (d : Store) (x : DataFile) : Option α := (d x.name).bind ofFile

/-- The disk after a data file was written. -/
def save {α : Type} [Serde α] (d : Store) (x : DataFile) (a : α) : Store := put d x.name (toFile a)

theorem run_client_ok {α β : Type} {x : Except Client.CliFail α} {f : α → Prog β} {d d' : Store} {b : β} :
    ((client x).bind f).run d = (d', .ok b) ↔ ∃ a, x = .ok a ∧ (f a).run d = (d', .ok b) := by
  cases x with
  | ok a => exact ⟨fun h => ⟨a, rfl, h⟩, fun ⟨_, h, h'⟩ => by cases h; exact h'⟩
  | error e =>
    constructor
    · intro h
      cases congrArg Prod.snd h
    · rintro ⟨a, h, -⟩
      cases h

theorem run_lib_ok {α β : Type} {x : Res α} {f : α → Prog β} {d d' : Store} {b : β} :
    ((lib x).bind f).run d = (d', .ok b) ↔ ∃ a, x = .ok a ∧ (f a).run d = (d', .ok b) := by
  cases x with
  | ok a => exact ⟨fun h => ⟨a, rfl, h⟩, fun ⟨_, h, h'⟩ => by cases h; exact h'⟩
  | error e =>
    constructor
    · intro h
      cases congrArg Prod.snd h
    · rintro ⟨a, h, -⟩
      cases h

theorem run_lib_last {x : Res Unit} {d d' : Store} :
    (lib x).run d = (d', .ok ()) ↔ x = .ok () ∧ d' = d := by
  cases x with
  | ok a => exact ⟨fun h => ⟨rfl, (congrArg Prod.fst h).symm⟩, fun ⟨_, h'⟩ => by rw [h']; rfl⟩
  | error e =>
    constructor
    · intro h
      cases congrArg Prod.snd h
    · rintro ⟨h, -⟩
      cases h

theorem run_readJson_ok {α β : Type} [Serde α] (x : DataFile) {f : α → Prog β} {d d' : Store} {b : β} :
    ((readJson x.path).bind f).run d = (d', .ok b) ↔ ∃ a, load d x = some a ∧ (f a).run d = (d', .ok b) := by
  rw [run_readJson_bind]
  unfold load
  show (match d x.name with
    | none => (d, Except.error Stop.io)
    | some bs => match Serde.ofFile bs with
      | none => (d, Except.error Stop.json)
      | some a => (f a).run d) = _ ↔ _
  cases hb : d x.name with
  | none =>
    constructor
    · intro h
      cases congrArg Prod.snd h
    · rintro ⟨a, h, -⟩
      cases h
  | some bs =>
    dsimp only [Option.bind_some]
    cases ha : (ofFile bs : Option α) with
    | none =>
      constructor
      · intro h
        cases congrArg Prod.snd h
      · rintro ⟨a, h, -⟩
        cases h
    | some a => exact ⟨fun h => ⟨a, rfl, h⟩, fun ⟨_, h, h'⟩ => by cases h; exact h'⟩

theorem run_readBytes_ok {β : Type} (x : DataFile) {f : List Byte → Prog β} {d d' : Store} {b : β} :
    ((readBytes x.path).bind f).run d = (d', .ok b) ↔ ∃ a, d x.name = some a ∧ (f a).run d = (d', .ok b) := by
  rw [run_readBytes_bind]
  show (match d x.name with
    | none => (d, Except.error Stop.io)
    | some bs => (f bs).run d) = _ ↔ _
  cases hb : d x.name with
  | none =>
    constructor
    · intro h
      cases congrArg Prod.snd h
    · rintro ⟨a, h, -⟩
      cases h
  | some bs => exact ⟨fun h => ⟨bs, rfl, h⟩, fun ⟨_, h, h'⟩ => by cases h; exact h'⟩

theorem bind_ok_iff {ε α β : Type} {x : Except ε α} {f : α → Except ε β} {b : β} :
    (x >>= f) = .ok b ↔ ∃ a, x = .ok a ∧ f a = .ok b := by
  cases x with
  | error e =>
    constructor
    · intro h; cases h
    · rintro ⟨a, h, -⟩; cases h
  | ok a => exact ⟨fun h => ⟨a, rfl, h⟩, fun ⟨_, h, h'⟩ => by cases h; exact h'⟩

theorem lift_ok_iff {α : Type} {x : Res α} {a : α} : Client.lift x = .ok a ↔ x = .ok a := by
  cases x with
  | ok b => exact ⟨fun h => by cases h; rfl, fun h => by cases h; rfl⟩
  | error e => exact ⟨fun h => (by cases h), fun h => (by cases h)⟩

theorem pair_ok {α : Type} {d d' : Store} {a : α} : ((d, .ok a) : Store × Except Stop α) = (d', .ok a) ↔ d' = d :=
  ⟨fun h => (congrArg Prod.fst h).symm, fun h => by rw [h]⟩

theorem load_save {α : Type} [Serde α] {a : α} (h : Good 128 a) (d : Store) (x : DataFile) :
    load (save d x a) x = some a := by
  unfold load save
  rw [put_eq]
  exact ofFile_toFile h

/-- C89. `keygen` writes the key pair. -/
theorem C89_keygen (T : Tools) (cfg : DkgConfig) (ρ : Random) (f : List Char) (d : Store) :
    ((Command.keygen f).prog T cfg ρ).run d = (save d (.member f) (Client.keygen ρ.sk), .ok ()) := rfl

/-- C89. `dkg prove` succeeds exactly when the function does on the keys in the file, and writes its
proof and its instance. -/
theorem C89_prove (T : Tools) (cfg : DkgConfig) (ρ : Random) (i : ℕ) (d d' : Store) :
    ((Command.prove i).prog T cfg ρ).run d = (d', .ok ()) ↔
      ∃ mpks proof ins, load d .memberKeys = some mpks ∧
        Client.prove T.prover T.infPanics cfg i mpks ρ.stream = .ok (proof, ins) ∧
        d' = save (put d (DataFile.proof i).name proof) (.instance_ i) ins := by
  show (ClientFiles.prove T.prover T.infPanics cfg i ρ.stream).run d = _ ↔ _
  unfold ClientFiles.prove Client.prove Client.proveInstance
  simp only [bind_eq]
  rw [run_client_ok]
  constructor
  · rintro ⟨_, h1, h⟩
    obtain ⟨mpks, h2, h⟩ := (run_readJson_ok .memberKeys).1 h
    obtain ⟨pks, h3, h⟩ := run_lib_ok.1 h
    obtain ⟨dkg, h4, h⟩ := run_lib_ok.1 h
    obtain ⟨ins, h5, h⟩ := run_lib_ok.1 h
    cases h6 : T.prover ins with
    | none => rw [h6] at h; cases congrArg Prod.snd h
    | some proof =>
      rw [h6] at h
      refine ⟨mpks, proof, ins.map writeField, h2, ?_, (congrArg Prod.fst h).symm⟩
      rw [bind_ok_iff]
      refine ⟨ins, ?_, by rw [h6]; rfl⟩
      rw [bind_ok_iff]
      refine ⟨(), h1, bind_ok_iff.2 ⟨pks, lift_ok_iff.2 h3, bind_ok_iff.2 ⟨dkg, lift_ok_iff.2 h4,
        lift_ok_iff.2 h5⟩⟩⟩
  · rintro ⟨mpks, proof, ins', h2, h, rfl⟩
    obtain ⟨ins, h, h'⟩ := bind_ok_iff.1 h
    obtain ⟨_, h1, h⟩ := bind_ok_iff.1 h
    obtain ⟨pks, h3, h⟩ := bind_ok_iff.1 h
    obtain ⟨dkg, h4, h5⟩ := bind_ok_iff.1 h
    refine ⟨(), h1, (run_readJson_ok .memberKeys).2 ⟨mpks, h2, run_lib_ok.2 ⟨pks, lift_ok_iff.1 h3,
      run_lib_ok.2 ⟨dkg, lift_ok_iff.1 h4, run_lib_ok.2 ⟨ins, lift_ok_iff.1 h5, ?_⟩⟩⟩⟩⟩
    beta_reduce
    cases h6 : T.prover ins with
    | none => rw [h6] at h'; cases h'
    | some p =>
      rw [h6] at h'
      have h7 := Except.ok.inj h'
      injection h7 with h7 h8
      subst h7 h8
      rfl

theorem mapError_ok {ε ε' α : Type} {x : Except ε α} {f : ε → ε'} {a : α} :
    x.mapError f = .ok a ↔ x = .ok a := by
  cases x with
  | ok b => exact ⟨fun h => by cases h; rfl, fun h => by cases h; rfl⟩
  | error e => exact ⟨fun h => (by cases h), fun h => (by cases h)⟩

/-- C89. `dkg verify` succeeds exactly when the check does on the files of this member; it changes
nothing. -/
theorem C89_dkgVerify (T : Tools) (cfg : DkgConfig) (ρ : Random) (i : ℕ) (d d' : Store) :
    ((Command.dkgVerify i).prog T cfg ρ).run d = (d', .ok ()) ↔
      d' = d ∧ ∃ proof ins mpks, d (DataFile.proof i).name = some proof ∧
        load d (.instance_ i) = some ins ∧ load d .memberKeys = some mpks ∧
        Client.dkgVerify T.verifier cfg i proof ins mpks = .ok () := by
  show (ClientFiles.dkgVerify T.verifier cfg i).run d = _ ↔ _
  unfold ClientFiles.dkgVerify Client.dkgVerify
  simp only [bind_eq]
  rw [run_client_ok]
  constructor
  · rintro ⟨_, h1, h⟩
    obtain ⟨proof, h2, h⟩ := (run_readBytes_ok (.proof i)).1 h
    obtain ⟨ib, h3, h⟩ := (run_readJson_ok (.instance_ i)).1 h
    obtain ⟨ins, h4, h⟩ := run_lib_ok.1 h
    obtain ⟨mb, h5, h⟩ := (run_readJson_ok .memberKeys).1 h
    obtain ⟨mpks, h6, h⟩ := run_lib_ok.1 h
    obtain ⟨pks, h7, h⟩ := run_lib_ok.1 h
    beta_reduce at h
    split at h
    · cases congrArg Prod.snd h
    · rename_i h8
      split at h
      · rename_i h9
        refine ⟨(congrArg Prod.fst h).symm, proof, ib, mb, h2, h3, h5, ?_⟩
        refine bind_ok_iff.2 ⟨(), mapError_ok.2 h1, bind_ok_iff.2 ⟨ins, mapError_ok.2 (lift_ok_iff.2 h4),
          bind_ok_iff.2 ⟨mpks, mapError_ok.2 (lift_ok_iff.2 h6), bind_ok_iff.2 ⟨pks,
            mapError_ok.2 (lift_ok_iff.2 h7), ?_⟩⟩⟩⟩
        rw [if_neg h8, if_pos h9]
      · cases congrArg Prod.snd h
  · rintro ⟨rfl, proof, ib, mb, h2, h3, h5, h⟩
    obtain ⟨_, h1, h⟩ := bind_ok_iff.1 h
    obtain ⟨ins, h4, h⟩ := bind_ok_iff.1 h
    obtain ⟨mpks, h6, h⟩ := bind_ok_iff.1 h
    obtain ⟨pks, h7, h⟩ := bind_ok_iff.1 h
    refine ⟨(), mapError_ok.1 h1, (run_readBytes_ok (.proof i)).2 ⟨proof, h2,
      (run_readJson_ok (.instance_ i)).2 ⟨ib, h3, run_lib_ok.2 ⟨ins, lift_ok_iff.1 (mapError_ok.1 h4),
        (run_readJson_ok .memberKeys).2 ⟨mb, h5, run_lib_ok.2 ⟨mpks, lift_ok_iff.1 (mapError_ok.1 h6),
          run_lib_ok.2 ⟨pks, lift_ok_iff.1 (mapError_ok.1 h7), ?_⟩⟩⟩⟩⟩⟩⟩
    beta_reduce
    split at h
    · cases h
    · rename_i h8
      rw [if_neg h8]
      split at h
      · rename_i h9
        rw [if_pos h9]
        rfl
      · cases h

/-- C89. `rand eval` succeeds exactly when the function does on the share in the file, and writes its
evaluation. -/
theorem C89_eval (T : Tools) (cfg : DkgConfig) (ρ : Random) (i : ℕ) (input : List Byte) (d d' : Store) :
    ((Command.eval i input).prog T cfg ρ).run d = (d', .ok ()) ↔
      ∃ share out, load d (.share i) = some share ∧
        Client.eval T.keccak T.h2c cfg i share input ρ.nonce = .ok out ∧ d' = save d (.eval i) out := by
  show (ClientFiles.eval T.keccak T.h2c cfg i input ρ.nonce).run d = _ ↔ _
  unfold ClientFiles.eval Client.eval
  simp only [bind_eq]
  rw [run_client_ok]
  constructor
  · rintro ⟨_, h1, h⟩
    obtain ⟨sb, h2, h⟩ := (run_readJson_ok (.share i)).1 h
    obtain ⟨s, h3, h⟩ := run_lib_ok.1 h
    exact ⟨sb, _, h2, bind_ok_iff.2 ⟨(), h1, bind_ok_iff.2 ⟨s, lift_ok_iff.2 h3, rfl⟩⟩,
      (congrArg Prod.fst h).symm⟩
  · rintro ⟨sb, out, h2, h, rfl⟩
    obtain ⟨_, h1, h⟩ := bind_ok_iff.1 h
    obtain ⟨s, h3, h⟩ := bind_ok_iff.1 h
    cases h
    exact ⟨(), h1, (run_readJson_ok (.share i)).2 ⟨sb, h2, run_lib_ok.2 ⟨s, lift_ok_iff.1 h3, rfl⟩⟩⟩

/-- C87, C89. On every disk with the share of member `i`, `rand eval` succeeds, also after it was stopped. -/
example (T : Tools) (cfg : DkgConfig) (ht : cfg.threshold < 2 ^ 64) (hn : cfg.numberOfMembers < 2 ^ 64)
    (ρ ρ' : Random) (input : List Byte) (i : ℕ) (h1 : 1 ≤ i) (h2 : i ≤ cfg.numberOfMembers) (sk : Fr) (d₀ : Store) :
    let d := save d₀ (.share i) (ShareKeySerde.of ⟨i, sk, sk • g1⟩)
    let d' := save d (.eval i) (PartialEvalSerde.of (DkgShareKey.evaluate T.keccak T.h2c ⟨i, sk, sk • g1⟩ input ρ.nonce))
    ((Command.eval i input).prog T cfg ρ).run d = (d', .ok ()) ∧
      ∀ d₁, Stopped ((Command.eval i input).prog T cfg ρ') d d₁ →
        ((Command.eval i input).prog T cfg ρ).run d₁ = (d', .ok ()) := by
  intro d d'
  have h : ((Command.eval i input).prog T cfg ρ).run d = (d', .ok ()) := by
    refine (C89_eval T cfg ρ i input d d').2 ⟨_, _, load_save (good_share (lt_of_le_of_lt h2 hn) 125) _ _, ?_, rfl⟩
    unfold Client.eval Client.checkIndex
    rw [if_neg (by omega)]
    exact bind_ok_iff.2 ⟨(), rfl, bind_ok_iff.2 ⟨_, lift_ok_iff.2 (C17_roundtrip.2.1 ⟨i, sk, sk • g1⟩ rfl), rfl⟩⟩
  refine ⟨h, fun d₁ hs => ?_⟩
  obtain ⟨h3, h4⟩ := C87_again T cfg ht hn ρ' ρ (.eval i input) trivial (Or.inl hs)
  rw [h] at h3 h4
  exact Prod.ext (h4 rfl) h3

/-- C89. `rand verify` succeeds exactly when the check does on the files; it changes nothing. -/
theorem C89_verifyEval (T : Tools) (cfg : DkgConfig) (ρ : Random) (i : ℕ) (input : List Byte) (d d' : Store) :
    ((Command.verifyEval i input).prog T cfg ρ).run d = (d', .ok ()) ↔
      d' = d ∧ ∃ sigma vks, load d (.eval i) = some sigma ∧ load d .vks = some vks ∧
        Client.verifyEval T.keccak T.h2c cfg i sigma vks input = .ok () := by
  show (ClientFiles.verifyEval T.keccak T.h2c cfg i input).run d = _ ↔ _
  unfold ClientFiles.verifyEval Client.verifyEval
  simp only [bind_eq]
  rw [run_client_ok]
  constructor
  · rintro ⟨_, h1, h⟩
    obtain ⟨sb, h2, h⟩ := (run_readJson_ok (.eval i)).1 h
    obtain ⟨s, h3, h⟩ := run_lib_ok.1 h
    obtain ⟨vb, h4, h⟩ := (run_readJson_ok .vks).1 h
    obtain ⟨vks, h5, h⟩ := run_lib_ok.1 h
    obtain ⟨vk, h6, h⟩ := run_lib_ok.1 h
    obtain ⟨h7, h8⟩ := run_lib_last.1 h
    exact ⟨h8, sb, vb, h2, h4, bind_ok_iff.2 ⟨(), h1, bind_ok_iff.2 ⟨s, lift_ok_iff.2 h3, bind_ok_iff.2 ⟨vks,
      lift_ok_iff.2 h5, bind_ok_iff.2 ⟨vk, lift_ok_iff.2 h6, lift_ok_iff.2 h7⟩⟩⟩⟩⟩
  · rintro ⟨rfl, sb, vb, h2, h4, h⟩
    obtain ⟨_, h1, h⟩ := bind_ok_iff.1 h
    obtain ⟨s, h3, h⟩ := bind_ok_iff.1 h
    obtain ⟨vks, h5, h⟩ := bind_ok_iff.1 h
    obtain ⟨vk, h6, h7⟩ := bind_ok_iff.1 h
    exact ⟨(), h1, (run_readJson_ok (.eval i)).2 ⟨sb, h2, run_lib_ok.2 ⟨s, lift_ok_iff.1 h3,
      (run_readJson_ok .vks).2 ⟨vb, h4, run_lib_ok.2 ⟨vks, lift_ok_iff.1 h5, run_lib_ok.2 ⟨vk, lift_ok_iff.1 h6,
        run_lib_last.2 ⟨lift_ok_iff.1 h7, rfl⟩⟩⟩⟩⟩⟩⟩

/-- C89. `rand combine` succeeds exactly when the function does on the files, and writes the random
value.  With `skip` the file of verification keys is not needed. -/
theorem C89_combine (T : Tools) (cfg : DkgConfig) (ρ : Random) (input : List Byte) (skip : Bool)
    (d d' : Store) :
    ((Command.combine input skip).prog T cfg ρ).run d = (d', .ok ()) ↔
      ∃ evals gpk vks out, load d .evals = some evals ∧ load d .gpk = some gpk ∧
        (skip = false → load d .vks = some vks) ∧
        Client.combine T.E T.keccak T.h2c cfg evals gpk vks input skip = .ok out ∧
        d' = save d .pseudo out := by
  show (ClientFiles.combine T.E T.keccak T.h2c cfg input skip).run d = _ ↔ _
  unfold ClientFiles.combine Client.combine
  simp only [bind_eq]
  constructor
  · intro h
    obtain ⟨eb, h1, h⟩ := (run_readJson_ok .evals).1 h
    obtain ⟨evals, h2, h⟩ := run_lib_ok.1 h
    obtain ⟨gb, h3, h⟩ := (run_readJson_ok .gpk).1 h
    obtain ⟨gpk, h4, h⟩ := run_lib_ok.1 h
    have fin : ∀ ok : List PartialEval,
        Prog.run (if ok.length < cfg.threshold then fail (.cli .notEnough)
          else (lib (combinePartialEvaluations T.keccak cfg (ok.take cfg.threshold))).bind (fun pseudo =>
            (lib (pseudo.verify T.E T.keccak T.h2c input gpk)).bind (fun _ =>
              writeJson pseudoPath (PseudoRandomSerde.of pseudo)))) d = (d', .ok ()) →
        ∃ out, (if ok.length < cfg.threshold then .error .notEnough
          else do
            let pseudo ← Client.lift (combinePartialEvaluations T.keccak cfg (ok.take cfg.threshold))
            Client.lift (pseudo.verify T.E T.keccak T.h2c input gpk)
            return PseudoRandomSerde.of pseudo : Except Client.CliFail _) = .ok out ∧ d' = save d .pseudo out := by
      intro ok h
      split at h
      · cases congrArg Prod.snd h
      · rename_i h5
        obtain ⟨v, h6, h⟩ := run_lib_ok.1 h
        obtain ⟨_, h7, h⟩ := run_lib_ok.1 h
        refine ⟨PseudoRandomSerde.of v, ?_, (congrArg Prod.fst h).symm⟩
        rw [if_neg h5]
        exact bind_ok_iff.2 ⟨v, lift_ok_iff.2 h6, bind_ok_iff.2 ⟨(), lift_ok_iff.2 h7, rfl⟩⟩
    cases skip with
    | true =>
      obtain ⟨out, h5, h6⟩ := fin evals h
      exact ⟨eb, gb, [], out, h1, h3, (by simp), bind_ok_iff.2 ⟨evals, lift_ok_iff.2 h2, bind_ok_iff.2 ⟨gpk,
        lift_ok_iff.2 h4, bind_ok_iff.2 ⟨evals, rfl, h5⟩⟩⟩, h6⟩
    | false =>
      unfold verified at h
      rw [if_neg (by simp)] at h
      simp only [bind_eq, bind_assoc] at h
      obtain ⟨vb, h5, h⟩ := (run_readJson_ok .vks).1 h
      obtain ⟨vks, h6, h⟩ := run_lib_ok.1 h
      obtain ⟨ok, h7, h⟩ := run_client_ok.1 h
      obtain ⟨out, h8, h9⟩ := fin ok h
      exact ⟨eb, gb, vb, out, h1, h3, fun _ => h5, bind_ok_iff.2 ⟨evals, lift_ok_iff.2 h2, bind_ok_iff.2 ⟨gpk,
        lift_ok_iff.2 h4, bind_ok_iff.2 ⟨vks, lift_ok_iff.2 h6, bind_ok_iff.2 ⟨ok, h7, h8⟩⟩⟩⟩, h9⟩
  · rintro ⟨eb, gb, vb, out, h1, h3, h5, h, rfl⟩
    obtain ⟨evals, h2, h⟩ := bind_ok_iff.1 h
    obtain ⟨gpk, h4, h⟩ := bind_ok_iff.1 h
    refine (run_readJson_ok .evals).2 ⟨eb, h1, run_lib_ok.2 ⟨evals, lift_ok_iff.1 h2,
      (run_readJson_ok .gpk).2 ⟨gb, h3, run_lib_ok.2 ⟨gpk, lift_ok_iff.1 h4, ?_⟩⟩⟩⟩
    have fin : ∀ ok : List PartialEval,
        (if ok.length < cfg.threshold then .error .notEnough
          else do
            let pseudo ← Client.lift (combinePartialEvaluations T.keccak cfg (ok.take cfg.threshold))
            Client.lift (pseudo.verify T.E T.keccak T.h2c input gpk)
            return PseudoRandomSerde.of pseudo : Except Client.CliFail _) = .ok out →
        Prog.run (if ok.length < cfg.threshold then fail (.cli .notEnough)
          else (lib (combinePartialEvaluations T.keccak cfg (ok.take cfg.threshold))).bind (fun pseudo =>
            (lib (pseudo.verify T.E T.keccak T.h2c input gpk)).bind (fun _ =>
              writeJson pseudoPath (PseudoRandomSerde.of pseudo)))) d = (save d .pseudo out, .ok ()) := by
      intro ok h
      split at h
      · cases h
      · rename_i h7
        obtain ⟨v, h8, h⟩ := bind_ok_iff.1 h
        obtain ⟨_, h9, h⟩ := bind_ok_iff.1 h
        cases h
        rw [if_neg h7]
        exact run_lib_ok.2 ⟨v, lift_ok_iff.1 h8, run_lib_ok.2 ⟨(), lift_ok_iff.1 h9, rfl⟩⟩
    cases skip with
    | true => exact fin evals h
    | false =>
      obtain ⟨vks, h7, h⟩ := bind_ok_iff.1 h
      obtain ⟨ok, h8, h⟩ := bind_ok_iff.1 h
      unfold verified
      rw [if_neg (by simp)]
      simp only [bind_eq, bind_assoc]
      exact (run_readJson_ok .vks).2 ⟨vb, h5 rfl, run_lib_ok.2 ⟨vks, lift_ok_iff.1 h7,
        run_client_ok.2 ⟨ok, h8, fin ok h⟩⟩⟩

/-- C89. `rand verify-final` succeeds exactly when the check does on the files; it changes nothing. -/
theorem C89_verifyFinal (T : Tools) (cfg : DkgConfig) (ρ : Random) (input : List Byte) (d d' : Store) :
    ((Command.verifyFinal input).prog T cfg ρ).run d = (d', .ok ()) ↔
      d' = d ∧ ∃ pseudo gpk, load d .pseudo = some pseudo ∧ load d .gpk = some gpk ∧
        Client.verifyFinal T.E T.keccak T.h2c pseudo gpk input = .ok () := by
  show (ClientFiles.verifyFinal T.E T.keccak T.h2c input).run d = _ ↔ _
  unfold ClientFiles.verifyFinal Client.verifyFinal
  simp only [bind_eq]
  constructor
  · intro h
    obtain ⟨pb, h1, h⟩ := (run_readJson_ok .pseudo).1 h
    obtain ⟨p, h2, h⟩ := run_lib_ok.1 h
    obtain ⟨gb, h3, h⟩ := (run_readJson_ok .gpk).1 h
    obtain ⟨gpk, h4, h⟩ := run_lib_ok.1 h
    obtain ⟨h5, h6⟩ := run_lib_last.1 h
    exact ⟨h6, pb, gb, h1, h3, bind_ok_iff.2 ⟨p, lift_ok_iff.2 h2, bind_ok_iff.2 ⟨gpk, lift_ok_iff.2 h4,
      lift_ok_iff.2 h5⟩⟩⟩
  · rintro ⟨rfl, pb, gb, h1, h3, h⟩
    obtain ⟨p, h2, h⟩ := bind_ok_iff.1 h
    obtain ⟨gpk, h4, h5⟩ := bind_ok_iff.1 h
    exact (run_readJson_ok .pseudo).2 ⟨pb, h1, run_lib_ok.2 ⟨p, lift_ok_iff.1 h2,
      (run_readJson_ok .gpk).2 ⟨gb, h3, run_lib_ok.2 ⟨gpk, lift_ok_iff.1 h4,
        run_lib_last.2 ⟨lift_ok_iff.1 h5, rfl⟩⟩⟩⟩⟩

/-- The disk after `dkg derive` wrote its files. -/
def saveDerived (d : Store) (index : Option ℕ) (out : Client.DeriveOut) : Store :=
  let d := save (save d .gpk out.gpk) .vks out.vks
  match index, out.share with
  | some i, some s => save d (.share i) s
  | _, _ => d

/-- C89. `dkg derive` succeeds exactly when the function does on the files, and writes the global public
key, the verification keys and the share.  The name of the key file has no slash. -/
theorem C89_derive (T : Tools) (cfg : DkgConfig) (ρ : Random) (index : Option ℕ) (file : List Char)
    (hf : '/' ∉ file) (d d' : Store) :
    ((Command.derive index file).prog T cfg ρ).run d = (d', .ok ()) ↔
      ∃ instances member out, load d .allInstances = some instances ∧
        (∀ i, index = some i → load d (.member file) = some member) ∧
        Client.derive cfg instances (index.map (fun i => (i, member))) = .ok out ∧
        d' = saveDerived d index out := by
  show (ClientFiles.derive cfg index file).run d = _ ↔ _
  unfold ClientFiles.derive Client.derive
  simp only [bind_eq]
  have hkeep : ∀ g : DkgGlobalPubParams, load (α := MemberKeySerde)
      (save (save d .gpk (GlobalParamsSerde.of g).g2a) .vks (GlobalParamsSerde.of g).verifyKeys)
        (.member file) = load d (.member file) := by
    intro g
    unfold load save
    rw [put_ne, put_ne]
    · intro e
      have := DataFile.name_inj (x := .member file) (y := .gpk) hf trivial e
      cases this
    · intro e
      have := DataFile.name_inj (x := .member file) (y := .vks) hf trivial e
      cases this
  constructor
  · intro h
    obtain ⟨ib, h1, h⟩ := (run_readJson_ok .allInstances).1 h
    obtain ⟨ins, h2, h⟩ := run_lib_ok.1 h
    obtain ⟨pub, h3, h⟩ := run_lib_ok.1 h
    obtain ⟨gpp, h4, h⟩ := run_lib_ok.1 h
    cases index with
    | none =>
      exact ⟨ib, ⟨[], ⟨[], []⟩⟩, ⟨_, _, none⟩, h1, (fun i h => by cases h), bind_ok_iff.2 ⟨ins, lift_ok_iff.2 h2,
        bind_ok_iff.2 ⟨pub, lift_ok_iff.2 h3, bind_ok_iff.2 ⟨gpp, lift_ok_iff.2 h4, rfl⟩⟩⟩,
        (congrArg Prod.fst h).symm⟩
    | some i =>
      obtain ⟨_, h5, h⟩ := (run_client_ok (d := save (save d .gpk (GlobalParamsSerde.of gpp).g2a) .vks
        (GlobalParamsSerde.of gpp).verifyKeys)).1 h
      obtain ⟨mb, h6, h⟩ := (run_readJson_ok (.member file)).1 h
      obtain ⟨m, h7, h⟩ := run_lib_ok.1 h
      obtain ⟨sh, h8, h⟩ := run_lib_ok.1 h
      obtain ⟨_, h9, h⟩ := run_lib_ok.1 h
      rw [hkeep] at h6
      refine ⟨ib, mb, ⟨(GlobalParamsSerde.of gpp).g2a, (GlobalParamsSerde.of gpp).verifyKeys,
        some (ShareKeySerde.of sh)⟩, h1, (fun _ _ => h6), bind_ok_iff.2 ⟨ins, lift_ok_iff.2 h2,
        bind_ok_iff.2 ⟨pub, lift_ok_iff.2 h3, bind_ok_iff.2 ⟨gpp, lift_ok_iff.2 h4, bind_ok_iff.2 ⟨(), h5,
          bind_ok_iff.2 ⟨m, lift_ok_iff.2 h7, bind_ok_iff.2 ⟨sh, lift_ok_iff.2 h8, bind_ok_iff.2 ⟨(),
            lift_ok_iff.2 h9, rfl⟩⟩⟩⟩⟩⟩⟩, ?_⟩
      refine (congrArg Prod.fst h).symm.trans ?_
      have hi := (dkgShareKey_index h8).1
      show save _ (.share sh.index) _ = save _ (.share i) _
      rw [hi]
  · rintro ⟨ib, mb, out, h1, h6, h, rfl⟩
    obtain ⟨ins, h2, h⟩ := bind_ok_iff.1 h
    obtain ⟨pub, h3, h⟩ := bind_ok_iff.1 h
    obtain ⟨gpp, h4, h⟩ := bind_ok_iff.1 h
    refine (run_readJson_ok .allInstances).2 ⟨ib, h1, run_lib_ok.2 ⟨ins, lift_ok_iff.1 h2, run_lib_ok.2 ⟨pub,
      lift_ok_iff.1 h3, run_lib_ok.2 ⟨gpp, lift_ok_iff.1 h4, ?_⟩⟩⟩⟩
    cases index with
    | none =>
      cases h
      rfl
    | some i =>
      obtain ⟨_, h5, h⟩ := bind_ok_iff.1 h
      obtain ⟨m, h7, h⟩ := bind_ok_iff.1 h
      obtain ⟨sh, h8, h⟩ := bind_ok_iff.1 h
      obtain ⟨_, h9, h⟩ := bind_ok_iff.1 h
      cases h
      refine (run_client_ok (d := save (save d .gpk (GlobalParamsSerde.of gpp).g2a) .vks
        (GlobalParamsSerde.of gpp).verifyKeys)).2 ⟨(), h5, (run_readJson_ok (.member file)).2 ⟨mb, ?_, run_lib_ok.2 ⟨m,
          lift_ok_iff.1 h7, run_lib_ok.2 ⟨sh, lift_ok_iff.1 h8, run_lib_ok.2 ⟨(), lift_ok_iff.1 h9, ?_⟩⟩⟩⟩⟩
      · rw [hkeep]
        exact h6 i rfl
      · have hi := (dkgShareKey_index (lift_ok_iff.1 h8)).1
        show (save _ (.share sh.index) _, _) = (save _ (.share i) _, _)
        rw [hi]

/-! Failing commands -/

/-- Never fails. -/
def Succeeds {α : Type} : Prog α → Prop
  | done (.ok _) => True
  | done (.error _) => False
  | .read _ next => ∀ b, Succeeds (next b)
  | .write _ _ next => Succeeds next

/-- Does not fail after the first write. -/
def Clean {α : Type} : Prog α → Prop
  | done _ => True
  | .read _ next => ∀ b, Clean (next b)
  | .write _ _ next => Succeeds next

theorem succeeds_run {α : Type} {P : Prog α} (h : Succeeds P) (d : Store) : ∃ a, (P.run d).2 = .ok a := by
  induction P generalizing d with
  | done res =>
    cases res with
    | ok a => exact ⟨a, rfl⟩
    | error e => exact h.elim
  | read n next ih => exact ih _ (h _) d
  | write n bytes next ih => exact ih h _

theorem clean_run {α : Type} {P : Prog α} (h : Clean P) {d d' : Store} {e : Stop}
    (hr : P.run d = (d', .error e)) : d' = d := by
  induction P generalizing d with
  | done res => exact (congrArg Prod.fst hr).symm
  | read n next ih => exact ih _ (h _) hr
  | write n bytes next ih =>
    obtain ⟨a, ha⟩ := succeeds_run h (put d n bytes)
    have : (next.run (put d n bytes)).2 = .error e := congrArg Prod.snd hr
    rw [ha] at this
    cases this

theorem clean_client {α β : Type} (x : Except Client.CliFail α) {f : α → Prog β} (h : ∀ a, Clean (f a)) :
    Clean ((client x).bind f) := by
  cases x with
  | ok a => exact h a
  | error e => trivial

theorem clean_lib {α β : Type} (x : Res α) {f : α → Prog β} (h : ∀ a, Clean (f a)) :
    Clean ((lib x).bind f) := by
  cases x with
  | ok a => exact h a
  | error e => trivial

theorem clean_readJson {α β : Type} [Serde α] (p : List Char) {f : α → Prog β} (h : ∀ a, Clean (f a)) :
    Clean ((readJson p).bind f) := by
  intro b
  cases b with
  | none => trivial
  | some bs =>
    dsimp only
    cases (ofFile bs : Option α) with
    | none => trivial
    | some a => exact h a

theorem clean_readBytes {β : Type} (p : List Char) {f : List Byte → Prog β} (h : ∀ a, Clean (f a)) :
    Clean ((readBytes p).bind f) := by
  intro b
  cases b with
  | none => trivial
  | some bs => exact h bs

theorem clean_last {α : Type} (x : Res α) : Clean (lib x) := by
  cases x <;> trivial

/-- Programs that write nothing. -/
def Silent {α : Type} : Prog α → Prop
  | done _ => True
  | .read _ next => ∀ b, Silent (next b)
  | .write _ _ _ => False

theorem clean_silent {α β : Type} {P : Prog α} (hP : Silent P) {f : α → Prog β} (h : ∀ a, Clean (f a)) :
    Clean (P.bind f) := by
  induction P with
  | done res =>
    cases res with
    | ok a => exact h a
    | error e => trivial
  | read n next ih => exact fun b => ih b (hP b)
  | write n bytes next ih => exact hP.elim

theorem silent_bind {α β : Type} {P : Prog α} (hP : Silent P) {f : α → Prog β} (h : ∀ a, Silent (f a)) :
    Silent (P.bind f) := by
  induction P with
  | done res =>
    cases res with
    | ok a => exact h a
    | error e => trivial
  | read n next ih => exact fun b => ih b (hP b)
  | write n bytes next ih => exact hP.elim

theorem silent_readJson {α : Type} [Serde α] (p : List Char) : Silent (readJson p : Prog α) := by
  intro b
  cases b with
  | none => trivial
  | some bs =>
    dsimp only
    cases (ofFile bs : Option α) <;> trivial

theorem silent_lib {α : Type} (x : Res α) : Silent (lib x) := by
  cases x <;> trivial

theorem silent_each {α β : Type} {f : α → Prog β} (h : ∀ a, Silent (f a)) : ∀ l : List α, Silent (each f l)
  | [] => trivial
  | a :: l => silent_bind (h a) (fun b => silent_bind (silent_each h l) (fun _ => trivial))

theorem succeeds_bind {α β : Type} {P : Prog α} (hP : Succeeds P) {f : α → Prog β} (h : ∀ a, Succeeds (f a)) :
    Succeeds (P.bind f) := by
  induction P with
  | done res =>
    cases res with
    | ok a => exact h a
    | error e => exact hP.elim
  | read n next ih => exact fun b => ih b (hP b)
  | write n bytes next ih => exact ih hP

theorem succeeds_each {α β : Type} {f : α → Prog β} (h : ∀ a, Succeeds (f a)) :
    ∀ l : List α, Succeeds (each f l)
  | [] => trivial
  | a :: l => succeeds_bind (h a) (fun b => succeeds_bind (succeeds_each h l) (fun _ => trivial))

/-- C89. A command that reports a failure has changed nothing, except for `dkg derive` with an index and
the DKG step of `mock`. -/
theorem C89_failure (T : Tools) (cfg : DkgConfig) (ρ : Random) (c : Command)
    (h1 : ∀ i f, c ≠ .derive (some i) f) (h2 : c ≠ .mockDkg) {d d' : Store} {e : Stop}
    (h : (c.prog T cfg ρ).run d = (d', .error e)) : d' = d := by
  refine clean_run ?_ h
  cases c with
  | keygen f => trivial
  | prove i =>
    refine clean_client _ (fun _ => clean_readJson _ (fun _ => clean_lib _ (fun _ => clean_lib _ (fun _ =>
      clean_lib _ (fun ins => ?_)))))
    beta_reduce
    cases T.prover ins <;> trivial
  | dkgVerify i =>
    refine clean_client _ (fun _ => clean_readBytes _ (fun _ => clean_readJson _ (fun _ => clean_lib _ (fun _ =>
      clean_readJson _ (fun _ => clean_lib _ (fun _ => clean_lib _ (fun _ => ?_)))))))
    beta_reduce
    split
    · trivial
    · split <;> trivial
  | derive i f =>
    cases i with
    | none =>
      exact clean_readJson _ (fun _ => clean_lib _ (fun _ => clean_lib _ (fun _ => clean_lib _ (fun _ => trivial))))
    | some i => exact absurd rfl (h1 i f)
  | eval i input => exact clean_client _ (fun _ => clean_readJson _ (fun _ => clean_lib _ (fun _ => trivial)))
  | verifyEval i input =>
    exact clean_client _ (fun _ => clean_readJson _ (fun _ => clean_lib _ (fun _ => clean_readJson _ (fun _ =>
      clean_lib _ (fun _ => clean_lib _ (fun _ => clean_last _))))))
  | combine input skip =>
    refine clean_readJson _ (fun _ => clean_lib _ (fun evals => clean_readJson _ (fun _ => clean_lib _ (fun gpk => ?_))))
    refine clean_silent (f := fun ok : List PartialEval => if ok.length < cfg.threshold then fail (.cli .notEnough)
          else (lib (combinePartialEvaluations T.keccak cfg (ok.take cfg.threshold))).bind (fun pseudo =>
            (lib (pseudo.verify T.E T.keccak T.h2c input gpk)).bind (fun _ =>
              writeJson pseudoPath (PseudoRandomSerde.of pseudo)))) ?_ (fun ok => ?_)
    · unfold verified
      split
      · trivial
      · refine silent_bind (silent_readJson _) (fun _ => silent_bind (silent_lib _) (fun _ => ?_))
        generalize Client.verifyLoop _ _ _ _ _ _ = x
        cases x <;> trivial
    · split
      · trivial
      · exact clean_lib _ (fun _ => clean_lib _ (fun _ => trivial))
  | verifyFinal input =>
    exact clean_readJson _ (fun _ => clean_lib _ (fun _ => clean_readJson _ (fun _ => clean_lib _ (fun _ => clean_last _))))
  | mockMembers =>
    have h : ∀ l, Succeeds (each (fun m : MemberKeySerde × ℕ => writeJson (memberPath (mockMember (m.2 + 1))) m.1) l) :=
      succeeds_each (fun _ => trivial)
    exact succeeds_bind (h _) (fun _ => trivial)
  | mockDkg => exact absurd rfl h2
  | mockRandom input =>
    refine clean_silent (silent_each (fun i => silent_bind (silent_readJson _) (fun _ => silent_lib _)) _) (fun _ => ?_)
    refine clean_readJson _ (fun _ => clean_lib _ (fun gpp => clean_lib _ (fun sigmas => ?_)))
    beta_reduce
    split
    · trivial
    · exact clean_lib _ (fun _ => clean_lib _ (fun _ => trivial))

/-- C89, where it fails: `dkg derive` with a wrong index reports a failure, but has already replaced the
global public key and the verification keys. -/
theorem C89_derive_failed (T : Tools) (cfg : DkgConfig) (ρ : Random) (i : ℕ) (file : List Char) (d : Store)
    (hi : i < 1 ∨ i > cfg.numberOfMembers) {instances : List (List (List Char))} {out : Client.DeriveOut}
    (h1 : load d .allInstances = some instances) (h2 : Client.derive cfg instances none = .ok out) :
    ((Command.derive (some i) file).prog T cfg ρ).run d =
      (save (save d .gpk out.gpk) .vks out.vks, .error (.cli (.badIndex i))) := by
  show (ClientFiles.derive cfg (some i) file).run d = _
  unfold Client.derive at h2
  obtain ⟨ins, h3, h2⟩ := bind_ok_iff.1 h2
  obtain ⟨pub, h4, h2⟩ := bind_ok_iff.1 h2
  obtain ⟨gpp, h5, h2⟩ := bind_ok_iff.1 h2
  cases h2
  unfold ClientFiles.derive
  simp only [bind_eq]
  rw [run_readJson_bind]
  unfold load at h1
  obtain ⟨bs, hb, h1⟩ := Option.bind_eq_some_iff.1 h1
  rw [show d (resolve allInstancesPath) = some bs from hb]
  dsimp only
  rw [h1]
  dsimp only
  rw [lift_ok_iff.1 h3]
  show ((lib (ins.mapM (fun s => do let p ← fromInstance cfg s; return p.1))).bind _).run d = _
  rw [lift_ok_iff.1 h4]
  show ((lib (dkgGlobalPublicParams pub)).bind _).run d = _
  rw [lift_ok_iff.1 h5]
  show ((client (Client.checkIndex cfg i)).bind _).run
    (save (save d .gpk (GlobalParamsSerde.of gpp).g2a) .vks (GlobalParamsSerde.of gpp).verifyKeys) = _
  unfold Client.checkIndex
  rw [if_pos hi]
  rfl

end Verif.Props
