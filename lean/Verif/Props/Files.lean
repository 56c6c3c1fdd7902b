import Verif.Lemmas.FilesActsMock
import Verif.Props.Serialise

/-! C84, C85, C86, C87: the data files as JSON on disk. -/

namespace Verif.Props
open Disk Disk.Prog ClientFiles Spec Serde

/-! ### C84: files are read back -/

/-- Written to any path on any disk and read from there, the value is the same. -/
def ReadBack {α : Type} [Serde α] (a : α) : Prop :=
  ∀ (d : Store) (path : List Char),
    ((writeJson path a).bind (fun _ => (readJson path : Prog α))).run d =
      (put d (resolve path) (toFile a), .ok a)

theorem readBack {α : Type} [Serde α] {a : α} (h : Good 128 a) : ReadBack a := by
  intro d path
  show (readJson path : Prog α).run (put d (resolve path) (toFile a)) = _
  show ((match put d (resolve path) (toFile a) (resolve path) with
    | none => fail .io
    | some bs => match (ofFile bs : Option α) with
      | none => fail .json
      | some a => done (.ok a)) : Prog α).run _ = _
  rw [put_eq]
  dsimp only
  rw [ofFile_toFile h]
  rfl

/-- C84. Every kind of data file is read back as the value that was written: key files, lists of public
keys, instances, all instances, the global public key, verification keys, shares, evaluations, the list
of evaluations, the random value, and the files of the mock command.  Indices are machine words. -/
theorem C84_read_back :
    (∀ k : MemberKeySerde, ReadBack k) ∧
    (∀ l : List PointSerde, ReadBack l) ∧
    (∀ l : List (List Char), ReadBack l) ∧
    (∀ l : List (List (List Char)), ReadBack l) ∧
    (∀ p : Point2Serde, ReadBack p) ∧
    (∀ s : ShareKeySerde, s.index < 2 ^ 64 → ReadBack s) ∧
    (∀ e : PartialEvalSerde, e.index < 2 ^ 64 → ReadBack e) ∧
    (∀ l : List PartialEvalSerde, (∀ e ∈ l, e.index < 2 ^ 64) → ReadBack l) ∧
    (∀ p : PseudoRandomSerde, ReadBack p) ∧
    (∀ p : MemberParamsSerde, p.cfg.threshold < 2 ^ 64 → p.cfg.numberOfMembers < 2 ^ 64 → ReadBack p) ∧
    (∀ l : List PublicParamsSerde, ReadBack l) ∧
    (∀ g : GlobalParamsSerde, ReadBack g) :=
  ⟨fun k => readBack (good_member k 125), fun l => readBack (good_points l 125),
    fun l => readBack (good_strs l (by omega : 1 ≤ 127)),
    fun l => readBack (good_list (by omega : 1 ≤ 127) (fun s _ => good_strs s (by omega : 1 ≤ 126))),
    fun p => readBack (good_point2 p 125), fun s h => readBack (good_share h 125),
    fun e h => readBack (good_eval h 125),
    fun l h => readBack (good_list (by omega : 1 ≤ 127) (fun e he => good_eval (h e he) 124)),
    fun p => readBack (good_pseudo p 125), fun p h1 h2 => readBack (good_params h1 h2 123),
    fun l => readBack (good_list (by omega : 1 ≤ 127) (fun p _ => good_pp p 123)),
    fun g => readBack (good_gpp g 124)⟩

/-- C84. The values themselves survive the file: a key pair, a share and an evaluation written by one
command are what the next command works with. -/
theorem C84_values (d : Store) (path : List Char) :
    (∀ k : MemberKey, k.pk = k.sk • gk →
      ((writeJson path (MemberKeySerde.of k)).bind (fun _ =>
        (readJson path).bind (fun b : MemberKeySerde => lib b.read))).run d =
          (put d (resolve path) (toFile (MemberKeySerde.of k)), .ok k)) ∧
    (∀ k : DkgShareKey, k.vk = k.sk • g1 → k.index < 2 ^ 64 →
      ((writeJson path (ShareKeySerde.of k)).bind (fun _ =>
        (readJson path).bind (fun b : ShareKeySerde => lib b.read))).run d =
          (put d (resolve path) (toFile (ShareKeySerde.of k)), .ok k)) ∧
    (∀ e : PartialEval, e.index < 2 ^ 64 →
      ((writeJson path (PartialEvalSerde.of e)).bind (fun _ =>
        (readJson path).bind (fun b : PartialEvalSerde => lib b.read))).run d =
          (put d (resolve path) (toFile (PartialEvalSerde.of e)), .ok e)) ∧
    (∀ v : PseudoRandom,
      ((writeJson path (PseudoRandomSerde.of v)).bind (fun _ =>
        (readJson path).bind (fun b : PseudoRandomSerde => lib b.read))).run d =
          (put d (resolve path) (toFile (PseudoRandomSerde.of v)), .ok v)) := by
  have key : ∀ {α β : Type} [Serde α] (a : α) (rd : α → Res β) (b : β), Good 128 a → rd a = .ok b →
      ((writeJson path a).bind (fun _ => (readJson path).bind (fun x : α => lib (rd x)))).run d =
        (put d (resolve path) (toFile a), .ok b) := by
    intro α β _ a rd b h1 h2
    have h := readBack h1 d path
    rw [← bind_assoc, run_bind, h]
    dsimp only
    rw [h2]
    rfl
  refine ⟨fun k hk => key _ _ _ (good_member _ 125) (C17_roundtrip.1 k hk),
    fun k hk hi => key _ _ _ (good_share hi 125) (C17_roundtrip.2.1 k hk),
    fun e he => key _ _ _ (good_eval he 125) (C17_roundtrip.2.2.2.2.2.1 e),
    fun v => key _ _ _ (good_pseudo _ 125) (C17_roundtrip.2.2.2.2.2.2 v)⟩

/-- Such values exist. -/
example : (MemberKey.random 5).pk = (MemberKey.random 5).sk • gk := rfl

theorem trailing {α β : Type} [Serde α] [Serde β] {a : α} (h : Good 128 a)
    (hb : Json.Bracketed (enc a)) (rest : List Byte)
    (ht : ∀ s, utf8Decode rest = some s → ∃ c ∈ s, Json.isSpace c = false) :
    (ofFile (toFile a ++ rest) : Option β) = none := by
  unfold ofFile
  have h1 : utf8Decode (toFile a) = some (Json.print (enc a)) := utf8Decode_utf8 _
  rw [utf8Decode_append _ rest h1]
  cases hs : utf8Decode rest with
  | none => rfl
  | some s =>
    obtain ⟨c, hc, hsp⟩ := ht s hs
    simp only [Option.map_some, Option.bind_eq_bind, Option.bind_some]
    have hp : Json.parse (Json.print (enc a) ++ s) = none := by
      obtain ⟨c0, x, hx, hbr⟩ := Json.print_bracketed hb
      have h2 := Json.value_print (enc a) 128 (2 * (Json.print (enc a)).length + 2) [] h.2 Json.ends_nil (by omega)
      rw [List.append_nil] at h2
      have hcl : Json.Closed (enc a) := by
        rw [hx] at h2
        exact Json.value_closed hbr h2
      have h3 := (Json.value_append _).1 128 _ _ _ s (2 * (Json.print (enc a) ++ s).length + 2)
        (by rw [List.length_append]; omega) h2 (Or.inr hcl)
      unfold Json.parse
      rw [h3]
      dsimp only
      rw [List.nil_append, if_neg]
      intro hk
      have : ∀ l : List Char, Json.skip l = [] → ∀ c ∈ l, Json.isSpace c = true := by
        intro l
        induction l with
        | nil => intro _ c hc; cases hc
        | cons y l ih =>
          intro hl c hc
          unfold Json.skip at hl
          rw [List.dropWhile_cons] at hl
          split at hl
          · rename_i hy
            rw [List.mem_cons] at hc
            rcases hc with rfl | hc
            · exact hy
            · exact ih hl c hc
          · cases hl
      rw [this s hk c hc] at hsp
      cases hsp
    rw [hp]
    rfl

/-- The file of the value, followed by anything but white space, is not accepted as any value. -/
def NoTrailing {α : Type} [Serde α] (a : α) : Prop :=
  ∀ (β : Type) [Serde β] (rest : List Byte),
    (∀ s, utf8Decode rest = some s → ∃ c ∈ s, c ∉ [' ', '\n', '\t', '\r']) →
      (ofFile (toFile a ++ rest) : Option β) = none

theorem noTrailing {α : Type} [Serde α] {a : α} (h : Good 128 a) (hb : Json.Bracketed (enc a)) :
    NoTrailing a := by
  intro β _ rest ht
  refine trailing h hb rest (fun s hs => ?_)
  obtain ⟨c, hc, hsp⟩ := ht s hs
  refine ⟨c, hc, ?_⟩
  simp only [List.mem_cons, List.not_mem_nil, or_false, not_or] at hsp
  simp [Json.isSpace, hsp]

/-- C84. A file with anything but white space after the value, such as two files run together or the
rest of a longer older file, is not accepted. -/
theorem C84_trailing :
    (∀ k : MemberKeySerde, NoTrailing k) ∧
    (∀ l : List PointSerde, NoTrailing l) ∧
    (∀ l : List (List Char), NoTrailing l) ∧
    (∀ l : List (List (List Char)), NoTrailing l) ∧
    (∀ p : Point2Serde, NoTrailing p) ∧
    (∀ s : ShareKeySerde, s.index < 2 ^ 64 → NoTrailing s) ∧
    (∀ e : PartialEvalSerde, e.index < 2 ^ 64 → NoTrailing e) ∧
    (∀ l : List PartialEvalSerde, (∀ e ∈ l, e.index < 2 ^ 64) → NoTrailing l) ∧
    (∀ p : PseudoRandomSerde, NoTrailing p) ∧
    (∀ g : GlobalParamsSerde, NoTrailing g) :=
  ⟨fun k => noTrailing (good_member k 125) trivial, fun l => noTrailing (good_points l 125) trivial,
    fun l => noTrailing (good_strs l (by omega : 1 ≤ 127)) trivial,
    fun l => noTrailing (good_list (by omega : 1 ≤ 127) (fun s _ => good_strs s (by omega : 1 ≤ 126))) trivial,
    fun p => noTrailing (good_point2 p 125) trivial, fun s h => noTrailing (good_share h 125) trivial,
    fun e h => noTrailing (good_eval h 125) trivial,
    fun l h => noTrailing (good_list (by omega : 1 ≤ 127) (fun e he => good_eval (h e he) 124)) trivial,
    fun p => noTrailing (good_pseudo p 125) trivial, fun g => noTrailing (good_gpp g 124) trivial⟩

/-- For instance, two key files run together. -/
example (k k' : MemberKeySerde) : (ofFile (toFile k ++ toFile k') : Option MemberKeySerde) = none := by
  refine C84_trailing.1 k _ _ (fun s hs => ?_)
  have : utf8Decode (toFile k') = some (Json.print (enc k')) := utf8Decode_utf8 _
  rw [this] at hs
  cases hs
  obtain ⟨c0, x, hx, hbr⟩ := Json.print_bracketed (v := enc k') trivial
  refine ⟨c0, by rw [hx]; simp, ?_⟩
  rcases hbr with rfl | rfl | rfl <;> decide

/-! ### C85: commands that are stopped -/

theorem writes_plain {cfg : DkgConfig} {c : Command} (hc : ∀ f, c ≠ .keygen f) {x : DataFile}
    (h : writes cfg c x) : x.Plain := by
  cases c with
  | keygen f => exact absurd rfl (hc f)
  | prove i => rcases h with rfl | rfl <;> trivial
  | dkgVerify i => exact h.elim
  | derive i f =>
    cases i with
    | none => rcases h with rfl | rfl <;> trivial
    | some i => rcases h with rfl | rfl | rfl <;> trivial
  | eval i input => cases h; trivial
  | verifyEval i input => exact h.elim
  | combine input skip => cases h; trivial
  | verifyFinal input => exact h.elim
  | mockMembers =>
    rcases h with rfl | ⟨i, -, -, rfl⟩
    · trivial
    · exact slash_mockMember i
  | mockDkg =>
    rcases h with rfl | rfl | rfl | rfl | rfl | ⟨i, -, -, rfl | rfl⟩ <;> trivial
  | mockRandom input => rcases h with rfl | rfl <;> trivial

/-- C85. Wherever a command is stopped (killed, or a write fails), every file is as before, or as after
the complete run, or the command was just writing it; in this case it is the beginning of what the
complete run writes, and unless it is a proof it is not accepted as a value of any type. -/
theorem C85_stopped (T : Tools) (cfg : DkgConfig) (ht : cfg.threshold < 2 ^ 64)
    (hn : cfg.numberOfMembers < 2 ^ 64) (ρ : Random) (c : Command) {d d' : Store}
    (h : Stopped (c.prog T cfg ρ) d d') (n : Name) :
    d' n = d n ∨ d' n = ((c.prog T cfg ρ).run d).1 n ∨
      ∃ x part rest, writes cfg c x ∧ x.name = n ∧ rest ≠ [] ∧ d' n = some part ∧
        ((c.prog T cfg ρ).run d).1 n = some (part ++ rest) ∧
        ((∃ i, x = .proof i) ∨ Refused part) := by
  have ha := acts_command T cfg ht hn ρ c
  by_cases hw : Names (writes cfg c) n
  · rcases stopped_file ha.once ha.contents h n with h | h | ⟨part, rest, h1, h2, h3, h4⟩
    · exact Or.inl h
    · exact Or.inr (Or.inl h)
    · obtain ⟨x, hx, hxn⟩ := hw
      by_cases hp : ∃ i, x = .proof i
      · exact Or.inr (Or.inr ⟨x, part, rest, hx, hxn, h1, h2, h3, Or.inl hp⟩)
      · rcases h4 with ⟨i, hi⟩ | h4
        · by_cases hk : ∃ f, c = .keygen f
          · obtain ⟨f, rfl⟩ := hk
            refine Or.inr (Or.inr ⟨x, part, rest, hx, hxn, h1, h2, h3, Or.inr ?_⟩)
            have hx' : x = .member f := hx
            subst hx'
            have hr : (((Command.keygen f).prog T cfg ρ).run d).1 n = some (toFile (Client.keygen ρ.sk)) := by
              rw [← hxn]
              exact put_eq _ _ _
            rw [hr] at h3
            exact torn_toFile (good_member _ 125) trivial part rest (Option.some.inj h3) h1
          · exact absurd ⟨i, DataFile.name_inj (writes_plain (fun f hf => hk ⟨f, hf⟩) hx) trivial
              (hxn.trans hi)⟩ hp
        · exact Or.inr (Or.inr ⟨x, part, rest, hx, hxn, h1, h2, h3, Or.inr (h4 part rest rfl h1)⟩)
  · exact Or.inl (stopped_other ha.writesIn h hw)

theorem run_readJson_bad {α : Type} [Serde α] {d : Store} {p : List Char} {bs : List Byte}
    (h1 : d (resolve p) = some bs) (h2 : (ofFile bs : Option α) = none) :
    (readJson p : Prog α).run d = (d, .error .json) := by
  show ((match d (resolve p) with
    | none => fail .io
    | some bs => match (ofFile bs : Option α) with
      | none => fail .json
      | some a => done (.ok a)) : Prog α).run d = _
  rw [h1]
  dsimp only
  rw [h2]
  rfl

theorem last_byte (k : MemberKeySerde) : (ofFile (toFile k).dropLast : Option MemberKeySerde) = none := by
  have hne : toFile k ≠ [] := by
    intro h0
    have h1 := ofFile_toFile (good_member k 125)
    rw [h0] at h1
    cases h1
  exact ofFile_torn (good_member k 125) trivial (List.dropLast_append_getLast hne).symm (List.cons_ne_nil _ _)

/-- A key file that was being written when `keygen` was killed: all but the last byte of the key is
there, and no command accepts it. -/
example (T : Tools) (cfg : DkgConfig) (ρ : Random) (d : Store) :
    ∃ d', Stopped ((Command.keygen "member".toList).prog T cfg ρ) d d' ∧
      d' (DataFile.member "member".toList).name = some (toFile (Client.keygen ρ.sk)).dropLast ∧
      (readJson (memberPath "member".toList) : Prog MemberKeySerde).run d' = (d', .error .json) := by
  have h := last_byte (Client.keygen ρ.sk)
  refine ⟨put d (resolve (memberPath "member".toList)) (toFile (Client.keygen ρ.sk)).dropLast,
    Stopped.torn (List.dropLast_prefix _), put_eq _ _ _, ?_⟩
  exact run_readJson_bad (put_eq _ _ _) h

/-! ### C86: which files a command changes -/

/-- C86. A command, completed or stopped anywhere, changes no file except its own: those listed in
`Spec.writes`. -/
theorem C86_own_files (T : Tools) (cfg : DkgConfig) (ht : cfg.threshold < 2 ^ 64)
    (hn : cfg.numberOfMembers < 2 ^ 64) (ρ : Random) (c : Command) {d d' : Store}
    (h : Stopped (c.prog T cfg ρ) d d' ∨ d' = ((c.prog T cfg ρ).run d).1) (n : Name)
    (hx : ∀ x, writes cfg c x → x.name ≠ n) : d' n = d n := by
  have ha := acts_command T cfg ht hn ρ c
  have hw : ¬ Names (writes cfg c) n := fun ⟨x, h1, h2⟩ => hx x h1 h2
  rcases h with h | rfl
  · exact stopped_other ha.writesIn h hw
  · exact run_other ha.writesIn d hw

/-- C86. Different data files have different names. -/
theorem C86_names {x y : DataFile} (hx : x.Plain) (hy : y.Plain) (h : x.name = y.name) : x = y :=
  DataFile.name_inj hx hy h

/-- C86. With file names without slashes, a data file changes only by a command that is listed for it.
So the shares, evaluations, proofs and keys of a member survive all commands of other members, and
verification commands change nothing. -/
theorem C86_isolation (T : Tools) (cfg : DkgConfig) (ht : cfg.threshold < 2 ^ 64)
    (hn : cfg.numberOfMembers < 2 ^ 64) (ρ : Random) (c : Command) (hc : plain c) {d d' : Store}
    (h : Stopped (c.prog T cfg ρ) d d' ∨ d' = ((c.prog T cfg ρ).run d).1) (x : DataFile) (hx : x.Plain)
    (hw : ¬ writes cfg c x) : d' x.name = d x.name := by
  refine C86_own_files T cfg ht hn ρ c h _ (fun y hy e => ?_)
  have hp : y.Plain := by
    by_cases hk : ∃ f, c = .keygen f
    · obtain ⟨f, rfl⟩ := hk
      cases hy
      exact hc
    · exact writes_plain (fun f hf => hk ⟨f, hf⟩) hy
  exact hw (DataFile.name_inj hp hx e ▸ hy)

/-- C86. The secret key of a member: no command changes a key file except `keygen` for this file and
`mock`. -/
theorem C86_keys (T : Tools) (cfg : DkgConfig) (ht : cfg.threshold < 2 ^ 64)
    (hn : cfg.numberOfMembers < 2 ^ 64) (ρ : Random) (c : Command) (hc : plain c) {d d' : Store}
    (h : Stopped (c.prog T cfg ρ) d d' ∨ d' = ((c.prog T cfg ρ).run d).1) (f : List Char) (hf : '/' ∉ f)
    (h1 : c ≠ .keygen f) (h2 : c ≠ .mockMembers) :
    d' (DataFile.member f).name = d (DataFile.member f).name := by
  refine C86_isolation T cfg ht hn ρ c hc h (.member f) hf ?_
  cases c with
  | keygen f' => exact fun e => h1 (by injection e with e; rw [e])
  | mockMembers => exact absurd rfl h2
  | derive i f' => cases i <;> simp [writes]
  | _ => simp [writes]

/-- C86, where it fails: a file name with slashes leaves the directory of keys.  `keygen` with the name
`../dkg/gpk` replaces the global public key, and reports success. -/
theorem C86_escape (T : Tools) (cfg : DkgConfig) (ρ : Random) (d : Store) :
    let res := ((Command.keygen "../dkg/gpk".toList).prog T cfg ρ).run d
    res.2 = .ok () ∧ res.1 DataFile.gpk.name = some (toFile (Client.keygen ρ.sk)) := by
  have h : resolve (memberPath "../dkg/gpk".toList) = resolve gpkPath := by decide +kernel
  refine ⟨rfl, ?_⟩
  show put d (resolve (memberPath "../dkg/gpk".toList)) _ (resolve gpkPath) = _
  rw [h, put_eq]

/-- C86. `keygen` does not look whether there is a key: it replaces the key file, and the old secret is
in no file that it leaves. -/
theorem C86_keygen_replaces (T : Tools) (cfg : DkgConfig) (ρ : Random) (f : List Char) (d : Store) :
    ((Command.keygen f).prog T cfg ρ).run d =
      (put d (DataFile.member f).name (toFile (Client.keygen ρ.sk)), .ok ()) := rfl

/-! ### C87: running a command again -/

theorem reads_plain {cfg : DkgConfig} {c : Command} (hc : plain c) {x : DataFile}
    (hx : reads cfg c x) : x.Plain := by
  cases c with
  | keygen f => exact hx.elim
  | prove i => cases hx; trivial
  | dkgVerify i => rcases hx with rfl | rfl | rfl <;> trivial
  | derive i f =>
    cases i with
    | none => cases hx; trivial
    | some i =>
      rcases hx with rfl | rfl
      · trivial
      · exact hc
  | eval i input => cases hx; trivial
  | verifyEval i input => rcases hx with rfl | rfl <;> trivial
  | combine input skip =>
    cases skip
    · rcases hx with rfl | rfl | rfl <;> trivial
    · rcases hx with rfl | rfl <;> trivial
  | verifyFinal input => rcases hx with rfl | rfl <;> trivial
  | mockMembers => exact hx.elim
  | mockDkg =>
    obtain ⟨i, -, -, rfl⟩ := hx
    exact slash_mockMember i
  | mockRandom input => rcases hx with rfl | ⟨i, -, -, rfl⟩ <;> trivial

theorem writes_plain' {cfg : DkgConfig} {c : Command} (hc : plain c) {y : DataFile}
    (hy : writes cfg c y) : y.Plain := by
  by_cases hk : ∃ f, c = .keygen f
  · obtain ⟨f, rfl⟩ := hk
    cases hy
    exact hc
  · exact writes_plain (fun f hf => hk ⟨f, hf⟩) hy

theorem reads_writes {cfg : DkgConfig} {c : Command} (hc : plain c) {n : Name}
    (h : Names (reads cfg c) n) : ¬ Names (writes cfg c) n := by
  rintro ⟨y, hy, hyn⟩
  obtain ⟨x, hx, hxn⟩ := h
  have e := DataFile.name_inj (reads_plain hc hx) (writes_plain' hc hy) (hxn.trans hyn.symm)
  subst e
  cases c with
  | keygen f => exact hx
  | prove i => cases hx; rcases hy with h | h <;> cases h
  | dkgVerify i => exact hy
  | derive i f =>
    cases i with
    | none => cases hx; rcases hy with h | h <;> cases h
    | some i => rcases hx with rfl | rfl <;> rcases hy with h | h | h <;> cases h
  | eval i input => cases hx; cases hy
  | verifyEval i input => exact hy
  | combine input skip =>
    cases hy
    cases skip
    · rcases hx with h | h | h <;> cases h
    · rcases hx with h | h <;> cases h
  | verifyFinal input => exact hy
  | mockMembers => exact hx
  | mockDkg =>
    obtain ⟨i, -, -, rfl⟩ := hx
    rcases hy with h | h | h | h | h | ⟨i, -, -, h | h⟩ <;> cases h
  | mockRandom input =>
    rcases hy with rfl | rfl <;> rcases hx with h | ⟨i, -, -, h⟩ <;> cases h

/-- C87. A command that was stopped anywhere can be run again: with fresh randomness `ρ'` the result is
what it would have been without the interrupted run, and when it succeeds all files are. -/
theorem C87_again (T : Tools) (cfg : DkgConfig) (ht : cfg.threshold < 2 ^ 64)
    (hn : cfg.numberOfMembers < 2 ^ 64) (ρ ρ' : Random) (c : Command) (hc : plain c) {d d' : Store}
    (h : Stopped (c.prog T cfg ρ) d d' ∨ d' = ((c.prog T cfg ρ).run d).1) :
    ((c.prog T cfg ρ').run d').2 = ((c.prog T cfg ρ').run d).2 ∧
      (((c.prog T cfg ρ').run d).2 = .ok () → ((c.prog T cfg ρ').run d').1 = ((c.prog T cfg ρ').run d).1) := by
  have ha := acts_command T cfg ht hn ρ c
  have hb := acts_command T cfg ht hn ρ' c
  have hout : ∀ n, ¬ Names (writes cfg c) n → d' n = d n := by
    intro n hw
    rcases h with h | rfl
    · exact stopped_other ha.writesIn h hw
    · exact run_other ha.writesIn d hw
  have hin : ∀ n, Names (reads cfg c) n → d n = d' n := fun n hr => (hout n (reads_writes hc hr)).symm
  refine ⟨(run_congr (fun n hr => reads_writes hc hr) hb.readsIn hb.writesIn hin).1.symm, fun hok => ?_⟩
  funext n
  by_cases hw : Names (writes cfg c) n
  · exact (run_congr_written (fun n hr => reads_writes hc hr) hb.readsIn hb.writesIn hin hok
      (hb.always hw)).symm
  · rw [run_other hb.writesIn d hw, run_other hb.writesIn d' hw, hout n hw]

/-- C87. The same with the same randomness: a run after any number of interrupted runs is as the
first. -/
theorem C87_many (T : Tools) (cfg : DkgConfig) (ht : cfg.threshold < 2 ^ 64)
    (hn : cfg.numberOfMembers < 2 ^ 64) (ρ : Random) (c : Command) (hc : plain c) (d : Store) (ds : List Store)
    (h : List.IsChain (fun e e' => ∃ ρ', Stopped (c.prog T cfg ρ') e e') (d :: ds)) :
    ((c.prog T cfg ρ).run ((d :: ds).getLast (by simp))).2 = ((c.prog T cfg ρ).run d).2 ∧
      (((c.prog T cfg ρ).run d).2 = .ok () →
        ((c.prog T cfg ρ).run ((d :: ds).getLast (by simp))).1 = ((c.prog T cfg ρ).run d).1) := by
  induction ds generalizing d with
  | nil => exact ⟨rfl, fun _ => rfl⟩
  | cons e ds ih =>
    rw [List.isChain_cons_cons] at h
    obtain ⟨⟨ρ', h1⟩, h2⟩ := h
    obtain ⟨h3, h4⟩ := C87_again T cfg ht hn ρ' ρ c hc (Or.inl h1)
    obtain ⟨h5, h6⟩ := ih e h2
    rw [List.getLast_cons (by simp)]
    exact ⟨h5.trans h3, fun hok => (h6 (h3.trans hok)).trans (h4 hok)⟩

/-- The key file written above with its last byte missing: running `keygen` for "bob" leaves it as it is, whether
that run is stopped or not; running the same `keygen` again, even after two stops, writes a whole file. -/
example (T : Tools) (ρ : Random) (d : Store) (part : List Byte)
    (h1 : d (DataFile.member "alice".toList).name = some part) :
    (∀ d', Stopped ((Command.keygen "bob".toList).prog T ⟨2, 3⟩ ρ) d d' ∨
        d' = (((Command.keygen "bob".toList).prog T ⟨2, 3⟩ ρ).run d).1 →
      d' (DataFile.member "alice".toList).name = some part) ∧
    ∀ d1 d2, Stopped ((Command.keygen "alice".toList).prog T ⟨2, 3⟩ ρ) d d1 →
      Stopped ((Command.keygen "alice".toList).prog T ⟨2, 3⟩ ρ) d1 d2 →
      (((Command.keygen "alice".toList).prog T ⟨2, 3⟩ ρ).run d2).1 =
        put d (DataFile.member "alice".toList).name (toFile (Client.keygen ρ.sk)) := by
  refine ⟨fun d' h => ?_, fun d1 d2 s1 s2 => ?_⟩
  · rw [C86_keys T ⟨2, 3⟩ (by norm_num) (by norm_num) ρ (.keygen "bob".toList) (show '/' ∉ "bob".toList by decide) h "alice".toList (by decide)
      (fun e => by cases e) (fun e => by cases e), h1]
  · exact (C87_many T ⟨2, 3⟩ (by norm_num) (by norm_num) ρ (.keygen "alice".toList)
      (show '/' ∉ "alice".toList by decide) d [d1, d2]
      (.cons_cons ⟨ρ, s1⟩ (.cons_cons ⟨ρ, s2⟩ (.singleton _)))).2 rfl

end Verif.Props
