import Verif.Props.FilesRefine
import Verif.Props.Mock

/-! C90: the mock command on files, and the other commands after it. -/

namespace Verif.Props
open Disk Disk.Prog ClientFiles Spec Serde

/-- The values in the files of the mock command; a file that is missing or of another type is `none`. -/
def view (d : Store) : Mock.Files where
  mpks := load d .memberKeys
  member i := load d (.member (mockMember i))
  secret i := load d (.secret i)
  dkgsPublic := load d .dkgsPublic
  instances := load d .allInstances
  gpp := load d .gpp
  gpk := load d .gpk
  vks := load d .vks
  share i := load d (.share i)
  evals := load d .evals
  pseudo := load d .pseudo

theorem load_save_ne {α β : Type} [Serde α] [Serde β] (a : α) (d : Store) {x y : DataFile} (hx : x.Plain)
    (hy : y.Plain) (h : y ≠ x) : (load (save d x a) y : Option β) = load d y := by
  unfold load save
  rw [put_ne d (fun e => h (DataFile.name_inj hy hx e))]

/-- The disk after one file for each element of a list. -/
def saveAll {α β : Type} [Serde β] (x : α → DataFile) (w : α → β) (l : List α) (d : Store) : Store :=
  l.foldl (fun d a => save d (x a) (w a)) d

theorem run_saveAll {α β γ : Type} [Serde β] (x : α → DataFile) (w : α → β) (l : List α) (d : Store)
    (f : List Unit → Prog γ) :
    ∃ us, ((each (fun a => writeJson (x a).path (w a)) l).bind f).run d = (f us).run (saveAll x w l d) := by
  induction l generalizing d f with
  | nil => exact ⟨[], rfl⟩
  | cons a l ih =>
    obtain ⟨us, h⟩ := ih (save d (x a) (w a)) (fun bs => f (() :: bs))
    refine ⟨() :: us, ?_⟩
    show (((each (fun a => writeJson (x a).path (w a)) l).bind (fun bs => done (.ok (() :: bs)))).bind f).run
      (save d (x a) (w a)) = _
    rw [bind_assoc]
    exact h

theorem load_saveAll_ne {α β γ : Type} [Serde β] [Serde γ] (x : α → DataFile) (w : α → β) (l : List α) (d : Store)
    {y : DataFile} (hy : y.Plain) (hx : ∀ a, (x a).Plain) (h : ∀ a, y ≠ x a) :
    (load (saveAll x w l d) y : Option γ) = load d y := by
  unfold saveAll
  induction l generalizing d with
  | nil => rfl
  | cons a l ih => rw [List.foldl_cons, ih, load_save_ne _ _ (hx a) hy (h a)]

theorem load_saveAll {α β : Type} [Serde β] (x : ℕ → DataFile) (hx : ∀ i, (x i).Plain)
    (hinj : ∀ i j, x i = x j → i = j) (w : α → β) (l : List α) (h : ∀ a ∈ l, Good 128 (w a)) (d : Store) :
    (fun i => load (saveAll (fun a : α × ℕ => x (a.2 + 1)) (fun a => w a.1) l.zipIdx d) (x i)) =
      Mock.writeFrom w l (fun i => load d (x i)) := by
  induction l using List.reverseRecOn with
  | nil =>
    funext i
    unfold Mock.writeFrom
    simp [saveAll]
  | append_singleton l a ih =>
    have ih := ih (fun b hb => h b (List.mem_append_left _ hb))
    funext i
    have ih := congrFun ih i
    unfold saveAll at ih ⊢
    rw [List.zipIdx_append, List.foldl_append]
    simp only [List.zipIdx_singleton, List.foldl_cons, List.foldl_nil, zero_add]
    unfold Mock.writeFrom at ih ⊢
    by_cases hi : i = l.length + 1
    · subst hi
      rw [load_save (h a (by simp)), if_pos (by omega)]
      simp
    · rw [load_save_ne _ _ (hx _) (hx _) (fun e => hi (hinj _ _ e)), ih]
      split
      · congr 1
        rcases Nat.lt_or_ge (i - 1) l.length with h | h
        · rw [List.getElem?_append_left h]
        · rw [List.getElem?_eq_none h, List.getElem?_eq_none (by simp; omega)]
      · rfl

/-- C90. `mock --members` succeeds and gives the files of the model of C69. -/
theorem C90_members (T : Tools) (cfg : DkgConfig) (ρ : Random) (d : Store) :
    ∃ d', (Command.mockMembers.prog T cfg ρ).run d = (d', .ok ()) ∧
      view d' = Mock.mockMembers cfg ρ.mock.sk (view d) := by
  show ∃ d', (ClientFiles.mockMembers cfg ρ.mock.sk).run d = (d', .ok ()) ∧ _
  unfold ClientFiles.mockMembers
  simp only [bind_eq]
  set members := (List.range cfg.numberOfMembers).map (fun i => MemberKeySerde.of (MemberKey.random (ρ.mock.sk i)))
    with hm
  obtain ⟨us, h⟩ := run_saveAll (fun m : MemberKeySerde × ℕ => .member (mockMember (m.2 + 1))) (fun m => m.1)
    members.zipIdx (save d .memberKeys (members.map (·.pk))) (fun _ => pure ())
  refine ⟨_, h, ?_⟩
  have hne : ∀ {γ : Type} [Serde γ] (y : DataFile), y.Plain → (∀ f, y ≠ .member f) → y ≠ .memberKeys →
      (load (saveAll (fun m : MemberKeySerde × ℕ => .member (mockMember (m.2 + 1))) (fun m => m.1)
        members.zipIdx (save d .memberKeys (members.map (·.pk)))) y : Option γ) = load d y := by
    intro γ _ y hy h1 h2
    exact (load_saveAll_ne (fun m : MemberKeySerde × ℕ => .member (mockMember (m.2 + 1))) _ _ _ hy
      (fun a => slash_mockMember _) (fun a => h1 _)).trans (load_save_ne _ _ (x := .memberKeys) trivial hy h2)
  have h1 := load_saveAll (fun i => .member (mockMember i)) (fun i => slash_mockMember i)
    (fun i j e => mockMember_inj (by injection e)) id members (fun a _ => good_member _ 125)
    (save d .memberKeys (members.map (·.pk)))
  unfold view Mock.mockMembers
  dsimp only
  rw [Mock.Files.mk.injEq]
  refine ⟨?_, ?_, ?_, ?_, ?_, ?_, ?_, ?_, ?_, ?_, ?_⟩
  · exact (load_saveAll_ne (fun m : MemberKeySerde × ℕ => .member (mockMember (m.2 + 1))) _ _ _ (y := .memberKeys)
      trivial (fun a => slash_mockMember _) (fun a => by simp)).trans (load_save (good_points _ 125) _ _)
  · refine h1.trans ?_
    congr 1
    funext i
    exact load_save_ne _ _ (x := .memberKeys) trivial (slash_mockMember i) (by simp)
  · funext i
    exact hne (.secret i) trivial (by simp) (by simp)
  · exact hne .dkgsPublic trivial (by simp) (by simp)
  · exact hne .allInstances trivial (by simp) (by simp)
  · exact hne .gpp trivial (by simp) (by simp)
  · exact hne .gpk trivial (by simp) (by simp)
  · exact hne .vks trivial (by simp) (by simp)
  · funext i
    exact hne (.share i) trivial (by simp) (by simp)
  · exact hne .evals trivial (by simp) (by simp)
  · exact hne .pseudo trivial (by simp) (by simp)

theorem mock_lift_ok {α : Type} {x : Res α} {a : α} : Mock.lift x = .ok a ↔ x = .ok a := by
  cases x with
  | ok b => exact ⟨fun h => by cases h; rfl, fun h => by cases h; rfl⟩
  | error e => exact ⟨fun h => (by cases h), fun h => (by cases h)⟩

theorem mock_file_ok {α : Type} {x : Option α} {a : α} : Mock.file x = .ok a ↔ x = some a := by
  cases x with
  | some b => exact ⟨fun h => by cases h; rfl, fun h => by cases h; rfl⟩
  | none => exact ⟨fun h => (by cases h), fun h => (by cases h)⟩

theorem mock_lift_mapM {α β : Type} {f : α → Except Mock.MockFail β} {g : α → Res β}
    (h : ∀ a b, f a = .ok b ↔ g a = .ok b) (l : List α) (bs : List β) :
    l.mapM f = .ok bs ↔ l.mapM g = .ok bs := by
  induction l generalizing bs with
  | nil =>
    simp only [List.mapM_nil]
    exact ⟨fun h => by cases h; rfl, fun h => by cases h; rfl⟩
  | cons a l ih =>
    rw [List.mapM_cons, List.mapM_cons, bind_ok_iff, bind_ok_iff]
    refine exists_congr (fun b => and_congr (h a b) ?_)
    rw [bind_ok_iff, bind_ok_iff]
    refine exists_congr (fun bs' => and_congr (ih bs') ?_)
    exact ⟨fun h => by cases h; rfl, fun h => by cases h; rfl⟩

theorem run_each_ok {ε α β : Type} {f : α → Prog β} {g : α → Except ε β} {d : Store}
    (h : ∀ a, ∀ (γ : Type) (k : β → Prog γ) (d' : Store) (c : γ),
      ((f a).bind k).run d = (d', .ok c) ↔ ∃ b, g a = .ok b ∧ (k b).run d = (d', .ok c))
    (l : List α) {γ : Type} (k : List β → Prog γ) (d' : Store) (c : γ) :
    ((each f l).bind k).run d = (d', .ok c) ↔ ∃ bs, l.mapM g = .ok bs ∧ (k bs).run d = (d', .ok c) := by
  induction l generalizing k with
  | nil => exact ⟨fun h => ⟨[], rfl, h⟩, fun ⟨bs, h1, h2⟩ => by cases h1; exact h2⟩
  | cons a l ih =>
    rw [each, bind_assoc, h]
    constructor
    · rintro ⟨b, h1, h2⟩
      rw [bind_assoc, ih] at h2
      obtain ⟨bs, h3, h4⟩ := h2
      exact ⟨b :: bs, by rw [List.mapM_cons, h1, h3]; rfl, h4⟩
    · rintro ⟨bs, h1, h2⟩
      rw [List.mapM_cons] at h1
      obtain ⟨b, h3, h1⟩ := bind_ok_iff.1 h1
      obtain ⟨bs', h4, h1⟩ := bind_ok_iff.1 h1
      cases h1
      refine ⟨b, h3, ?_⟩
      rw [bind_assoc, ih]
      exact ⟨bs', h4, h2⟩

/-- Reading one file and decoding its value. -/
theorem run_readValue {α β γ : Type} [Serde α] (x : DataFile) (rd : α → Res β) (d : Store) (k : β → Prog γ)
    (d' : Store) (c : γ) :
    (((readJson x.path).bind (fun b : α => lib (rd b))).bind k).run d = (d', .ok c) ↔
      ∃ b, (do let m ← Mock.file (load d x); Mock.lift (rd m) : Except Mock.MockFail β) = .ok b ∧
        (k b).run d = (d', .ok c) := by
  rw [bind_assoc]
  constructor
  · intro h
    obtain ⟨a, h1, h⟩ := (run_readJson_ok x).1 h
    obtain ⟨b, h2, h⟩ := run_lib_ok.1 h
    exact ⟨b, bind_ok_iff.2 ⟨a, mock_file_ok.2 h1, mock_lift_ok.2 h2⟩, h⟩
  · rintro ⟨b, h1, h⟩
    obtain ⟨a, h2, h3⟩ := bind_ok_iff.1 h1
    exact (run_readJson_ok x).2 ⟨a, mock_file_ok.1 h2, run_lib_ok.2 ⟨b, mock_lift_ok.1 h3, h⟩⟩

/-- Closes the fields of `view` that a write does not touch. -/
macro "other_file" : tactic =>
  `(tactic| first
    | exact load_save_ne _ _ trivial trivial (by simp)
    | (funext i; exact load_save_ne _ _ trivial trivial (by simp))
    | (funext i; exact load_save_ne _ _ trivial (slash_mockMember i) (by simp)))

theorem view_mpks (d : Store) {v : List PointSerde} (h : Good 128 v) :
    view (save d .memberKeys v) = { view d with mpks := some v } := by
  unfold view
  rw [Mock.Files.mk.injEq]
  refine ⟨?_, ?_, ?_, ?_, ?_, ?_, ?_, ?_, ?_, ?_, ?_⟩
  · exact load_save h _ _
  · other_file
  · other_file
  · other_file
  · other_file
  · other_file
  · other_file
  · other_file
  · other_file
  · other_file
  · other_file

theorem view_dkgsPublic (d : Store) {v : List PublicParamsSerde} (h : Good 128 v) :
    view (save d .dkgsPublic v) = { view d with dkgsPublic := some v } := by
  unfold view
  rw [Mock.Files.mk.injEq]
  refine ⟨?_, ?_, ?_, ?_, ?_, ?_, ?_, ?_, ?_, ?_, ?_⟩
  · other_file
  · other_file
  · other_file
  · exact load_save h _ _
  · other_file
  · other_file
  · other_file
  · other_file
  · other_file
  · other_file
  · other_file

theorem view_instances (d : Store) {v : List (List (List Char))} (h : Good 128 v) :
    view (save d .allInstances v) = { view d with instances := some v } := by
  unfold view
  rw [Mock.Files.mk.injEq]
  refine ⟨?_, ?_, ?_, ?_, ?_, ?_, ?_, ?_, ?_, ?_, ?_⟩
  · other_file
  · other_file
  · other_file
  · other_file
  · exact load_save h _ _
  · other_file
  · other_file
  · other_file
  · other_file
  · other_file
  · other_file

theorem view_gpp (d : Store) {v : GlobalParamsSerde} (h : Good 128 v) :
    view (save d .gpp v) = { view d with gpp := some v } := by
  unfold view
  rw [Mock.Files.mk.injEq]
  refine ⟨?_, ?_, ?_, ?_, ?_, ?_, ?_, ?_, ?_, ?_, ?_⟩
  · other_file
  · other_file
  · other_file
  · other_file
  · other_file
  · exact load_save h _ _
  · other_file
  · other_file
  · other_file
  · other_file
  · other_file

theorem view_gpk (d : Store) {v : Point2Serde} (h : Good 128 v) :
    view (save d .gpk v) = { view d with gpk := some v } := by
  unfold view
  rw [Mock.Files.mk.injEq]
  refine ⟨?_, ?_, ?_, ?_, ?_, ?_, ?_, ?_, ?_, ?_, ?_⟩
  · other_file
  · other_file
  · other_file
  · other_file
  · other_file
  · other_file
  · exact load_save h _ _
  · other_file
  · other_file
  · other_file
  · other_file

theorem view_vks (d : Store) {v : List PointSerde} (h : Good 128 v) :
    view (save d .vks v) = { view d with vks := some v } := by
  unfold view
  rw [Mock.Files.mk.injEq]
  refine ⟨?_, ?_, ?_, ?_, ?_, ?_, ?_, ?_, ?_, ?_, ?_⟩
  · other_file
  · other_file
  · other_file
  · other_file
  · other_file
  · other_file
  · other_file
  · exact load_save h _ _
  · other_file
  · other_file
  · other_file

theorem view_evals (d : Store) {v : List PartialEvalSerde} (h : Good 128 v) :
    view (save d .evals v) = { view d with evals := some v } := by
  unfold view
  rw [Mock.Files.mk.injEq]
  refine ⟨?_, ?_, ?_, ?_, ?_, ?_, ?_, ?_, ?_, ?_, ?_⟩
  · other_file
  · other_file
  · other_file
  · other_file
  · other_file
  · other_file
  · other_file
  · other_file
  · other_file
  · exact load_save h _ _
  · other_file

theorem view_pseudo (d : Store) {v : PseudoRandomSerde} (h : Good 128 v) :
    view (save d .pseudo v) = { view d with pseudo := some v } := by
  unfold view
  rw [Mock.Files.mk.injEq]
  refine ⟨?_, ?_, ?_, ?_, ?_, ?_, ?_, ?_, ?_, ?_, ?_⟩
  · other_file
  · other_file
  · other_file
  · other_file
  · other_file
  · other_file
  · other_file
  · other_file
  · other_file
  · other_file
  · exact load_save h _ _

theorem view_put_share (d : Store) (i : ℕ) {v : ShareKeySerde} (h : Good 128 v) :
    view (save d (.share i) v) = { view d with share := Function.update (view d).share i (some v) } := by
  unfold view
  rw [Mock.Files.mk.injEq]
  refine ⟨?_, ?_, ?_, ?_, ?_, ?_, ?_, ?_, ?_, ?_, ?_⟩
  · other_file
  · other_file
  · other_file
  · other_file
  · other_file
  · other_file
  · other_file
  · other_file
  · funext j
    dsimp only
    by_cases hj : j = i
    · rw [hj, load_save h, Function.update_self]
    · rw [Function.update_of_ne hj]
      exact load_save_ne _ _ trivial trivial (fun e => hj (by injection e))
  · other_file
  · other_file

theorem view_shares (shares : List DkgShareKey) (h : ∀ s ∈ shares, s.index < 2 ^ 64) (d : Store) :
    view (saveAll (fun s : DkgShareKey => .share s.index) ShareKeySerde.of shares d) =
      Mock.saveShares shares (view d) := by
  unfold saveAll Mock.saveShares
  induction shares generalizing d with
  | nil => rfl
  | cons s l ih =>
    rw [List.foldl_cons, List.foldl_cons, ih (fun s hs => h s (List.mem_cons_of_mem _ hs)),
      view_put_share _ _ (good_share (h s (by simp)) 125)]

theorem view_secrets (dkgs : List DkgMemberParams) (h : ∀ p ∈ dkgs, p.cfg.threshold < 2 ^ 64 ∧
    p.cfg.numberOfMembers < 2 ^ 64) (d : Store) :
    view (saveAll (fun a : DkgMemberParams × ℕ => .secret (a.2 + 1)) (fun a => MemberParamsSerde.of a.1)
      dkgs.zipIdx d) = { view d with secret := Mock.writeFrom MemberParamsSerde.of dkgs (view d).secret } := by
  have hne : ∀ {γ : Type} [Serde γ] (y : DataFile), y.Plain → (∀ f, y ≠ .secret f) →
      (load (saveAll (fun a : DkgMemberParams × ℕ => .secret (a.2 + 1)) (fun a => MemberParamsSerde.of a.1)
        dkgs.zipIdx d) y : Option γ) = load d y := fun y hy h1 =>
    load_saveAll_ne (fun a : DkgMemberParams × ℕ => .secret (a.2 + 1)) _ _ _ hy (fun a => trivial) (fun a => h1 _)
  have h1 := load_saveAll (fun i => .secret i) (fun i => trivial) (fun i j e => by injection e)
    MemberParamsSerde.of dkgs (fun a ha => good_params (h a ha).1 (h a ha).2 123) d
  unfold view
  dsimp only
  rw [Mock.Files.mk.injEq]
  refine ⟨hne _ trivial (by simp), ?_, h1, hne _ trivial (by simp), hne _ trivial (by simp),
    hne _ trivial (by simp), hne _ trivial (by simp), hne _ trivial (by simp), ?_, hne _ trivial (by simp),
    hne _ trivial (by simp)⟩
  · funext i
    exact hne _ (slash_mockMember i) (by simp)
  · funext i
    exact hne _ trivial (by simp)

theorem mock_return_ok {α : Type} {x y : α} : (return x : Except Mock.MockFail α) = .ok y ↔ y = x :=
  ⟨fun h => by cases h; rfl, fun h => by rw [h]; rfl⟩

theorem decNat_lt {b : ℕ} {j : Json} {n : ℕ} (h : decNat b j = some n) : n < b := by
  unfold decNat at h
  split at h
  · split at h
    · rename_i h'
      cases h
      exact h'.2.2
    · cases h
  · cases h

theorem dec_share_index {j : Json} {s : ShareKeySerde} (h : dec j = some s) : s.index < 2 ^ 64 := by
  change (do
    match ← decStruct ["index", "sk", "vk"] j with
    | [a, b, c] => return (⟨← dec a, ← dec b, ← dec c⟩ : ShareKeySerde)
    | _ => none) = some s at h
  obtain ⟨l, -, h⟩ := Option.bind_eq_some_iff.1 h
  split at h
  · obtain ⟨i, h1, h⟩ := Option.bind_eq_some_iff.1 h
    obtain ⟨_, -, h⟩ := Option.bind_eq_some_iff.1 h
    obtain ⟨_, -, h⟩ := Option.bind_eq_some_iff.1 h
    cases h
    exact decNat_lt h1
  · cases h

theorem load_share_index {d : Store} {x : DataFile} {s : ShareKeySerde} (h : load d x = some s) :
    s.index < 2 ^ 64 := by
  unfold load at h
  obtain ⟨bs, -, h⟩ := Option.bind_eq_some_iff.1 h
  obtain ⟨_, -, h⟩ := Option.bind_eq_some_iff.1 h
  obtain ⟨j, -, h⟩ := Option.bind_eq_some_iff.1 h
  exact dec_share_index h

/-- C90. `mock --random` succeeds exactly when the model of C69 does on the files, and leaves its files. -/
theorem C90_random (T : Tools) (cfg : DkgConfig) (ρ : Random) (input : List Byte) (d : Store) :
    (∀ d', ((Command.mockRandom input).prog T cfg ρ).run d = (d', .ok ()) →
      Mock.mockRandom T.E T.keccak T.h2c cfg input ρ.mock.nonce (view d) = .ok (view d')) ∧
    ∀ f, Mock.mockRandom T.E T.keccak T.h2c cfg input ρ.mock.nonce (view d) = .ok f →
      ∃ d', ((Command.mockRandom input).prog T cfg ρ).run d = (d', .ok ()) ∧ view d' = f := by
  let core : List DkgShareKey → GlobalParamsSerde → DkgGlobalPubParams → List PartialEval → PseudoRandom → Prop :=
    fun shares gb gpp sigmas v =>
      (List.range cfg.numberOfMembers).mapM (fun i => (do
        let m ← Mock.file (load d (.share (i + 1)))
        Mock.lift (ShareKeySerde.read m) : Except Mock.MockFail _)) = .ok shares ∧
      load d .gpp = some gb ∧ gb.read = .ok gpp ∧
      shares.zipIdx.mapM (fun si => (do
        let sigma := DkgShareKey.evaluate T.keccak T.h2c si.1 input (ρ.mock.nonce si.2)
        let vk ← getOrPanic gpp.verifyKeys si.2
        sigma.verify T.keccak T.h2c cfg input vk
        return sigma : Res PartialEval)) = .ok sigmas ∧
      ¬ sigmas.length < cfg.threshold ∧
      combinePartialEvaluations T.keccak cfg (sigmas.take cfg.threshold) = .ok v ∧
      v.verify T.E T.keccak T.h2c input gpp.g2a = .ok ()
  have hprog : ∀ d', ((Command.mockRandom input).prog T cfg ρ).run d = (d', .ok ()) ↔
      ∃ shares gb gpp sigmas v, core shares gb gpp sigmas v ∧
        d' = save (save d .evals (sigmas.map PartialEvalSerde.of)) .pseudo (PseudoRandomSerde.of v) := by
    intro d'
    show (ClientFiles.mockRandom T.E T.keccak T.h2c cfg input ρ.mock.nonce).run d = (d', .ok ()) ↔ _
    unfold ClientFiles.mockRandom
    simp only [bind_eq]
    refine (run_each_ok (fun i γ k d' c => run_readValue (.share (i + 1)) ShareKeySerde.read d k d' c) _ _ _ _).trans ?_
    constructor
    · rintro ⟨shares, h1, h⟩
      obtain ⟨gb, h2, h⟩ := (run_readJson_ok .gpp).1 h
      obtain ⟨gpp, h3, h⟩ := run_lib_ok.1 h
      obtain ⟨sigmas, h4, h⟩ := run_lib_ok.1 h
      by_cases h5 : sigmas.length < cfg.threshold
      · rw [if_pos h5] at h
        cases congrArg Prod.snd h
      · rw [if_neg h5] at h
        obtain ⟨v, h6, h⟩ := run_lib_ok.1 h
        obtain ⟨_, h7, h⟩ := run_lib_ok.1 h
        exact ⟨shares, gb, gpp, sigmas, v, ⟨h1, h2, h3, h4, h5, h6, h7⟩, (congrArg Prod.fst h).symm⟩
    · rintro ⟨shares, gb, gpp, sigmas, v, ⟨h1, h2, h3, h4, h5, h6, h7⟩, rfl⟩
      refine ⟨shares, h1, (run_readJson_ok .gpp).2 ⟨gb, h2, run_lib_ok.2 ⟨gpp, h3, run_lib_ok.2 ⟨sigmas, h4, ?_⟩⟩⟩⟩
      rw [if_neg h5]
      exact run_lib_ok.2 ⟨v, h6, run_lib_ok.2 ⟨(), h7, rfl⟩⟩
  have hmock : ∀ f, Mock.mockRandom T.E T.keccak T.h2c cfg input ρ.mock.nonce (view d) = .ok f ↔
      ∃ shares gb gpp sigmas v, core shares gb gpp sigmas v ∧ f = Mock.saveEvals sigmas v (view d) := by
    intro f
    unfold Mock.mockRandom
    have hm : ∀ (gpp : DkgGlobalPubParams) (shares : List DkgShareKey) (sigmas : List PartialEval), _ ↔ _ :=
      fun gpp shares sigmas => mock_lift_mapM (f := fun si : DkgShareKey × ℕ => (do
        let sigma := DkgShareKey.evaluate T.keccak T.h2c si.1 input (ρ.mock.nonce si.2)
        let vk ← Mock.lift (getOrPanic gpp.verifyKeys si.2)
        Mock.lift (sigma.verify T.keccak T.h2c cfg input vk)
        return sigma)) (g := fun si => (do
        let sigma := DkgShareKey.evaluate T.keccak T.h2c si.1 input (ρ.mock.nonce si.2)
        let vk ← getOrPanic gpp.verifyKeys si.2
        sigma.verify T.keccak T.h2c cfg input vk
        return sigma : Res PartialEval)) (fun a b => by
          rw [bind_ok_iff, bind_ok_iff]
          refine exists_congr (fun vk => and_congr mock_lift_ok ?_)
          rw [bind_ok_iff, bind_ok_iff]
          refine exists_congr (fun _ => and_congr mock_lift_ok ?_)
          exact ⟨fun h => by cases h; rfl, fun h => by cases h; rfl⟩) shares.zipIdx sigmas
    constructor
    · intro h
      obtain ⟨shares, h1, h⟩ := bind_ok_iff.1 h
      obtain ⟨gb, h2, h⟩ := bind_ok_iff.1 h
      obtain ⟨gpp, h3, h⟩ := bind_ok_iff.1 h
      obtain ⟨sigmas, h4, h⟩ := bind_ok_iff.1 h
      by_cases h5 : sigmas.length < cfg.threshold
      · rw [if_pos h5] at h
        cases h
      · rw [if_neg h5] at h
        obtain ⟨v, h6, h⟩ := bind_ok_iff.1 h
        obtain ⟨_, h7, h⟩ := bind_ok_iff.1 h
        exact ⟨shares, gb, gpp, sigmas, v, ⟨h1, mock_file_ok.1 h2, mock_lift_ok.1 h3, (hm gpp shares sigmas).1 h4,
          h5, mock_lift_ok.1 h6, mock_lift_ok.1 h7⟩, mock_return_ok.1 h⟩
    · rintro ⟨shares, gb, gpp, sigmas, v, ⟨h1, h2, h3, h4, h5, h6, h7⟩, rfl⟩
      refine bind_ok_iff.2 ⟨shares, h1, bind_ok_iff.2 ⟨gb, mock_file_ok.2 h2, bind_ok_iff.2 ⟨gpp, mock_lift_ok.2 h3,
        bind_ok_iff.2 ⟨sigmas, (hm gpp shares sigmas).2 h4, ?_⟩⟩⟩⟩
      rw [if_neg h5]
      exact bind_ok_iff.2 ⟨v, mock_lift_ok.2 h6, bind_ok_iff.2 ⟨(), mock_lift_ok.2 h7, rfl⟩⟩
  have hview : ∀ shares gb gpp sigmas v, core shares gb gpp sigmas v →
      view (save (save d .evals (sigmas.map PartialEvalSerde.of)) .pseudo (PseudoRandomSerde.of v)) =
        Mock.saveEvals sigmas v (view d) := by
    rintro shares gb gpp sigmas v ⟨h1, -, -, h4, -⟩
    have hg : Good 128 (sigmas.map PartialEvalSerde.of) := by
      refine good_of_map (by omega : 1 ≤ 127) (fun e he => good_eval ?_ 124)
      obtain ⟨⟨s, j⟩, hsj, h⟩ := mapM_ok_mem h4 he
      obtain ⟨vk, -, h⟩ := bind_ok_iff.1 h
      obtain ⟨_, -, h⟩ := bind_ok_iff.1 h
      cases h
      obtain ⟨i, hi, h⟩ := mapM_ok_mem h1 (List.fst_mem_of_mem_zipIdx hsj)
      rw [List.mem_range] at hi
      obtain ⟨m, h2, h3⟩ := bind_ok_iff.1 h
      have := load_share_index (mock_file_ok.1 h2)
      rw [← ((C17_key_files.2 _ _).1 (mock_lift_ok.1 h3)).1] at this
      exact this
    rw [view_pseudo _ (good_pseudo _ 125), view_evals _ hg]
    rfl
  constructor
  · intro d' h
    obtain ⟨shares, gb, gpp, sigmas, v, h1, rfl⟩ := (hprog d').1 h
    exact (hmock _).2 ⟨shares, gb, gpp, sigmas, v, h1, hview _ _ _ _ _ h1⟩
  · intro f h
    obtain ⟨shares, gb, gpp, sigmas, v, h1, rfl⟩ := (hmock f).1 h
    exact ⟨_, (hprog _).2 ⟨shares, gb, gpp, sigmas, v, h1, rfl⟩, hview _ _ _ _ _ h1⟩

/-- C90. `mock --dkg` succeeds exactly when the model of C69 does on the files, and leaves its files. -/
theorem C90_dkg (T : Tools) (cfg : DkgConfig) (ht : cfg.threshold < 2 ^ 64) (hn : cfg.numberOfMembers < 2 ^ 64)
    (ρ : Random) (d : Store) :
    (∀ d', (Command.mockDkg.prog T cfg ρ).run d = (d', .ok ()) →
      Mock.mockDkg T.infPanics cfg ρ.mock.draw (view d) = .ok (view d')) ∧
    ∀ f, Mock.mockDkg T.infPanics cfg ρ.mock.draw (view d) = .ok f →
      ∃ d', (Command.mockDkg.prog T cfg ρ).run d = (d', .ok ()) ∧ view d' = f := by
  let core : List MemberKey → List DkgMemberParams → List (List Fr) → DkgGlobalPubParams → List DkgShareKey → Prop :=
    fun members dkgs ins pp shares =>
      (List.range cfg.numberOfMembers).mapM (fun i => (do
        let m ← Mock.file (load d (.member (mockMember (i + 1))))
        Mock.lift (MemberKeySerde.read m) : Except Mock.MockFail _)) = .ok members ∧
      (List.range cfg.numberOfMembers).mapM (fun i =>
        DkgMemberParams.new Poseidon.hash2 cfg (members.map (·.pk)) (ρ.mock.draw i)) = .ok dkgs ∧
      dkgs.mapM (fun d => d.publicParams.toInstance T.infPanics d.publicKeys) = .ok ins ∧
      dkgGlobalPublicParams (dkgs.map (·.publicParams)) = .ok pp ∧
      (List.range cfg.numberOfMembers).mapM (fun i => (do
        let m ← getOrPanic members i
        let share ← m.dkgShareKey Poseidon.hash2 cfg (i + 1) (dkgs.map (·.publicParams))
        share.verify cfg pp.verifyKeys
        return share : Res DkgShareKey)) = .ok shares
  let disk : List DkgMemberParams → List (List Fr) → DkgGlobalPubParams → List DkgShareKey → Store :=
    fun dkgs ins pp shares =>
      let d1 := save d .allInstances (ins.map (fun l => l.map writeField))
      let d2 := saveAll (fun a : DkgMemberParams × ℕ => .secret (a.2 + 1)) (fun a => MemberParamsSerde.of a.1)
        dkgs.zipIdx d1
      let d3 := save d2 .dkgsPublic ((dkgs.map (·.publicParams)).map PublicParamsSerde.of)
      let d4 := save d3 .gpp (GlobalParamsSerde.of pp)
      let d5 := save d4 .gpk (GlobalParamsSerde.of pp).g2a
      let d6 := save d5 .vks (GlobalParamsSerde.of pp).verifyKeys
      saveAll (fun s : DkgShareKey => .share s.index) ShareKeySerde.of shares d6
  have hprog : ∀ d', (Command.mockDkg.prog T cfg ρ).run d = (d', .ok ()) ↔
      ∃ members dkgs ins pp shares, core members dkgs ins pp shares ∧ d' = disk dkgs ins pp shares := by
    intro d'
    show (ClientFiles.mockDkg T.infPanics cfg ρ.mock.draw).run d = (d', .ok ()) ↔ _
    unfold ClientFiles.mockDkg
    simp only [bind_eq]
    refine (run_each_ok (fun i γ k d' c =>
      run_readValue (.member (mockMember (i + 1))) MemberKeySerde.read d k d' c) _ _ _ _).trans ?_
    have hins : ∀ (ins : List (List Fr)) (k : Unit → Prog Unit), ((saveInstances ins).bind k).run d =
        (k ()).run (save d .allInstances (ins.map (fun l => l.map writeField))) := fun ins k => rfl
    have hsave : ∀ (dkgs : List DkgMemberParams) (pp : DkgGlobalPubParams) (d1 : Store) (k : Unit → Prog Unit),
        ((saveParams dkgs (dkgs.map (·.publicParams)) pp).bind k).run d1 = (k ()).run (
          save (save (save (save (saveAll (fun a : DkgMemberParams × ℕ => .secret (a.2 + 1))
            (fun a => MemberParamsSerde.of a.1) dkgs.zipIdx d1) .dkgsPublic
              ((dkgs.map (·.publicParams)).map PublicParamsSerde.of)) .gpp (GlobalParamsSerde.of pp)) .gpk
                (GlobalParamsSerde.of pp).g2a) .vks (GlobalParamsSerde.of pp).verifyKeys) := by
      intro dkgs pp d1 k
      unfold saveParams
      simp only [bind_eq, bind_assoc]
      obtain ⟨us, h⟩ := run_saveAll (fun a : DkgMemberParams × ℕ => .secret (a.2 + 1))
        (fun a => MemberParamsSerde.of a.1) dkgs.zipIdx d1 (fun _ =>
          (writeJson dkgsPublicPath ((dkgs.map (·.publicParams)).map PublicParamsSerde.of)).bind (fun _ =>
          (writeJson gppPath (GlobalParamsSerde.of pp)).bind (fun _ =>
          (writeJson gpkPath (GlobalParamsSerde.of pp).g2a).bind (fun _ =>
          (writeJson vksPath (GlobalParamsSerde.of pp).verifyKeys).bind k))))
      exact h
    have hshares : ∀ (shares : List DkgShareKey) (d1 : Store), (saveShares shares).run d1 =
        (saveAll (fun s : DkgShareKey => .share s.index) ShareKeySerde.of shares d1, .ok ()) := by
      intro shares d1
      unfold saveShares
      obtain ⟨us, h⟩ := run_saveAll (fun s : DkgShareKey => .share s.index) ShareKeySerde.of shares d1
        (fun _ => pure ())
      exact h
    constructor
    · rintro ⟨members, h1, h⟩
      obtain ⟨dkgs, h2, h⟩ := run_lib_ok.1 h
      obtain ⟨ins, h3, h⟩ := run_lib_ok.1 h
      rw [hins] at h
      obtain ⟨pp, h4, h⟩ := run_lib_ok.1 h
      rw [hsave] at h
      obtain ⟨shares, h5, h⟩ := run_lib_ok.1 h
      rw [hshares] at h
      exact ⟨members, dkgs, ins, pp, shares, ⟨h1, h2, h3, h4, h5⟩, (congrArg Prod.fst h).symm⟩
    · rintro ⟨members, dkgs, ins, pp, shares, ⟨h1, h2, h3, h4, h5⟩, rfl⟩
      refine ⟨members, h1, run_lib_ok.2 ⟨dkgs, h2, run_lib_ok.2 ⟨ins, h3, ?_⟩⟩⟩
      rw [hins]
      refine run_lib_ok.2 ⟨pp, h4, ?_⟩
      rw [hsave]
      refine run_lib_ok.2 ⟨shares, h5, ?_⟩
      rw [hshares]
  have hmock : ∀ f, Mock.mockDkg T.infPanics cfg ρ.mock.draw (view d) = .ok f ↔
      ∃ members dkgs ins pp shares, core members dkgs ins pp shares ∧
        f = Mock.saveShares shares (Mock.saveParams dkgs (dkgs.map (·.publicParams)) pp
          (Mock.saveInstances ins (view d))) := by
    intro f
    unfold Mock.mockDkg
    have hm : ∀ (members : List MemberKey) (dkgs : List DkgMemberParams) (pp : DkgGlobalPubParams)
        (shares : List DkgShareKey), _ ↔ _ :=
      fun members dkgs pp shares => mock_lift_mapM (f := fun i : ℕ => (do
        let m ← Mock.lift (getOrPanic members i)
        let share ← Mock.lift (m.dkgShareKey Poseidon.hash2 cfg (i + 1) (dkgs.map (·.publicParams)))
        Mock.lift (share.verify cfg pp.verifyKeys)
        return share)) (g := fun i => (do
        let m ← getOrPanic members i
        let share ← m.dkgShareKey Poseidon.hash2 cfg (i + 1) (dkgs.map (·.publicParams))
        share.verify cfg pp.verifyKeys
        return share : Res DkgShareKey)) (fun a b => by
          rw [bind_ok_iff, bind_ok_iff]
          refine exists_congr (fun m => and_congr mock_lift_ok ?_)
          rw [bind_ok_iff, bind_ok_iff]
          refine exists_congr (fun sh => and_congr mock_lift_ok ?_)
          rw [bind_ok_iff, bind_ok_iff]
          refine exists_congr (fun _ => and_congr mock_lift_ok ?_)
          exact ⟨fun h => by cases h; rfl, fun h => by cases h; rfl⟩) (List.range cfg.numberOfMembers) shares
    have hd : ∀ (members : List MemberKey) (dkgs : List DkgMemberParams), _ ↔ _ := fun members dkgs =>
      mock_lift_mapM (f := fun i : ℕ => Mock.lift (DkgMemberParams.new Poseidon.hash2 cfg (members.map (·.pk))
        (ρ.mock.draw i))) (fun a b => mock_lift_ok) (List.range cfg.numberOfMembers) dkgs
    have hi : ∀ (dkgs : List DkgMemberParams) (ins : List (List Fr)), _ ↔ _ := fun dkgs ins =>
      mock_lift_mapM (f := fun d : DkgMemberParams => Mock.lift (d.publicParams.toInstance T.infPanics
        d.publicKeys)) (fun a b => mock_lift_ok) dkgs ins
    constructor
    · intro h
      obtain ⟨members, h1, h⟩ := bind_ok_iff.1 h
      obtain ⟨dkgs, h2, h⟩ := bind_ok_iff.1 h
      obtain ⟨ins, h3, h⟩ := bind_ok_iff.1 h
      obtain ⟨pp, h4, h⟩ := bind_ok_iff.1 h
      obtain ⟨shares, h5, h⟩ := bind_ok_iff.1 h
      exact ⟨members, dkgs, ins, pp, shares, ⟨h1, (hd _ _).1 h2, (hi _ _).1 h3, mock_lift_ok.1 h4,
        (hm _ _ _ _).1 h5⟩, mock_return_ok.1 h⟩
    · rintro ⟨members, dkgs, ins, pp, shares, ⟨h1, h2, h3, h4, h5⟩, rfl⟩
      exact bind_ok_iff.2 ⟨members, h1, bind_ok_iff.2 ⟨dkgs, (hd _ _).2 h2, bind_ok_iff.2 ⟨ins, (hi _ _).2 h3,
        bind_ok_iff.2 ⟨pp, mock_lift_ok.2 h4, bind_ok_iff.2 ⟨shares, (hm _ _ _ _).2 h5, rfl⟩⟩⟩⟩⟩
  have hview : ∀ members dkgs ins pp shares, core members dkgs ins pp shares →
      view (disk dkgs ins pp shares) = Mock.saveShares shares (Mock.saveParams dkgs (dkgs.map (·.publicParams)) pp
          (Mock.saveInstances ins (view d))) := by
    rintro members dkgs ins pp shares ⟨-, h2, -, -, h5⟩
    show view (saveAll _ _ _ _) = _
    rw [view_shares]
    · rw [view_vks _ (good_points _ 125), view_gpk _ (good_point2 _ 125), view_gpp _ (good_gpp _ 124),
        view_dkgsPublic _ (good_of_map (by omega : 1 ≤ 127) (fun _ _ => good_pp _ 123)), view_secrets,
        view_instances _ (good_of_map (by omega : 1 ≤ 127) (fun _ _ => good_strs _ (by omega : 1 ≤ 126)))]
      · rfl
      · intro p hp
        obtain ⟨i, -, h⟩ := mapM_ok_mem h2 hp
        rw [dkg_new_cfg h]
        exact ⟨ht, hn⟩
    · intro s hs
      obtain ⟨i, hi, h⟩ := mapM_ok_mem h5 hs
      rw [List.mem_range] at hi
      obtain ⟨m, -, h⟩ := bind_ok h
      obtain ⟨sh, h6, h⟩ := bind_ok h
      obtain ⟨_, -, h⟩ := bind_ok h
      cases h
      rw [(dkgShareKey_index h6).1]
      omega
  constructor
  · intro d' h
    obtain ⟨members, dkgs, ins, pp, shares, h1, rfl⟩ := (hprog d').1 h
    exact (hmock _).2 ⟨members, dkgs, ins, pp, shares, h1, hview _ _ _ _ _ h1⟩
  · intro f h
    obtain ⟨members, dkgs, ins, pp, shares, h1, rfl⟩ := (hmock f).1 h
    exact ⟨_, (hprog _).2 ⟨members, dkgs, ins, pp, shares, h1, rfl⟩, hview _ _ _ _ _ h1⟩

/-- C90. The whole mock run works on every disk, and then every member can derive its share from the
files, evaluate and verify, and the files can be combined and verified: the random value stands for the
sum of the dealt polynomials.  The dealt points must be finite if the encoding of infinity panics. -/
theorem C90_pipeline (T : Tools) (t n : ℕ) (ht : 0 < t) (htn : t ≤ n) (hn : n < 2 ^ 64) (ρ : Random)
    (hfin : T.infPanics = true → ∀ j, j < n → ρ.mock.draw j 0 ≠ 0 ∧
      ∀ i, 1 ≤ i → i ≤ n → Spec.poly ((List.range t).map (ρ.mock.draw j)) (i : Fr) ≠ 0)
    (input : List Byte) (d : Store) :
    let cfg : DkgConfig := ⟨t, n⟩
    let F : Fr → Fr := fun x => ∑ j ∈ Finset.range n, Spec.poly ((List.range t).map (ρ.mock.draw j)) x
    ∃ d1 d2 d3, (Command.mockMembers.prog T cfg ρ).run d = (d1, .ok ()) ∧
      (Command.mockDkg.prog T cfg ρ).run d1 = (d2, .ok ()) ∧
      ((Command.mockRandom input).prog T cfg ρ).run d2 = (d3, .ok ()) ∧
      (∀ (ρ' : Random) (i : ℕ), 1 ≤ i → i ≤ n →
        ∃ d4 d5, ((Command.derive (some i) (mockMember i)).prog T cfg ρ').run d3 = (d4, .ok ()) ∧
          view d4 = view d3 ∧
          ((Command.eval i input).prog T cfg ρ').run d4 = (d5, .ok ()) ∧
          ((Command.verifyEval i input).prog T cfg ρ').run d5 = (d5, .ok ())) ∧
      (∀ ρ' : Random, ∃ d4, ((Command.combine input false).prog T cfg ρ').run d3 = (d4, .ok ()) ∧
        view d4 = view d3 ∧ ((Command.verifyFinal input).prog T cfg ρ').run d4 = (d4, .ok ())) ∧
      ∃ pseudo p, load d3 .pseudo = some pseudo ∧ PseudoRandomSerde.read pseudo = .ok p ∧
        p.proof = F 0 • T.h2c input := by
  intro cfg F
  obtain ⟨f, mpks, ins, gpk, vks, evals, pseudo, hm, -, h2, h3, h4, h5, h6, -, -, h9, -, -, hi, hc, hv, p, hp, hp', -⟩ :=
    C69_mock T.E T.keccak T.h2c T.infPanics t n ht htn hn ρ.mock hfin input (view d)
  obtain ⟨d1, e1, v1⟩ := C90_members T cfg ρ d
  unfold Mock.mock at hm
  simp only [if_true] at hm
  rw [← v1] at hm
  obtain ⟨f2, hm2, hm3⟩ := bind_ok_iff.1 hm
  obtain ⟨d2, e2, v2⟩ := (C90_dkg T cfg (lt_of_le_of_lt htn hn) hn ρ d1).2 f2 hm2
  rw [← v2] at hm3
  obtain ⟨d3, e3, v3⟩ := (C90_random T cfg ρ input d2).2 f hm3
  rw [← v3] at h2 h3 h4 h5 h6 hi
  refine ⟨d1, d2, d3, e1, e2, e3, fun ρ' i hi1 hi2 => ?_, fun ρ' => ?_, pseudo, p, h6, hp, hp'⟩
  · obtain ⟨hk, -, share, e, hs, hsr, hder, -⟩ := hi i hi1 hi2
    have hder' := (C89_derive T cfg ρ' (some i) (mockMember i) (slash_mockMember i) d3 _).2
      ⟨ins, _, _, h2, fun j hj => (by cases hj; exact hk), hder, rfl⟩
    have hview : view (saveDerived d3 (some i) ⟨gpk, vks, some share⟩) = view d3 := by
      show view (save (save (save d3 .gpk gpk) .vks vks) (.share i) share) = _
      rw [view_put_share _ _ (good_share (load_share_index hs) 125), view_vks _ (good_points _ 125),
        view_gpk _ (good_point2 _ 125), ← h3, ← h4, ← hs]
      dsimp only
      rw [Function.update_eq_self]
    have hev : Client.eval T.keccak T.h2c cfg i share input ρ'.nonce = .ok (PartialEvalSerde.of
        (DkgShareKey.evaluate T.keccak T.h2c ⟨i, F i, F i • g1⟩ input ρ'.nonce)) := by
      unfold Client.eval Client.checkIndex
      rw [if_neg (by simp only [cfg]; omega)]
      exact bind_ok_iff.2 ⟨(), rfl, bind_ok_iff.2 ⟨_, lift_ok_iff.2 hsr, rfl⟩⟩
    have hs4 : load (saveDerived d3 (some i) ⟨gpk, vks, some share⟩) (.share i) = some share :=
      (congrFun (congrArg Mock.Files.share hview) i).trans hs
    have hv4 : load (saveDerived d3 (some i) ⟨gpk, vks, some share⟩) .vks = some vks :=
      (congrArg Mock.Files.vks hview).trans h4
    refine ⟨_, _, hder', hview, (C89_eval T cfg ρ' i input _ _).2 ⟨share, _, hs4, hev, rfl⟩,
      (C89_verifyEval T cfg ρ' i input _ _).2 ⟨rfl, _, vks, load_save (good_eval (lt_of_le_of_lt hi2 hn) 125) _ _,
        (load_save_ne _ _ (x := .eval i) (y := .vks) trivial trivial (by simp)).trans hv4, ?_⟩⟩
    unfold Client.verifyEval Client.checkIndex
    rw [if_neg (by simp only [cfg]; omega)]
    refine bind_ok_iff.2 ⟨(), rfl, bind_ok_iff.2 ⟨_, lift_ok_iff.2 (C17_roundtrip.2.2.2.2.2.1 _),
      bind_ok_iff.2 ⟨_, lift_ok_iff.2 h9, bind_ok_iff.2 ⟨F i • g1, lift_ok_iff.2 ?_, lift_ok_iff.2 ?_⟩⟩⟩⟩
    · unfold getOrPanic
      rw [List.getElem?_map, List.getElem?_range' (by omega : i - 1 < n)]
      simp only [Option.map_some]
      have : 1 + 1 * (i - 1) = i := by omega
      rw [this]
    · exact (C05_honest_evaluation_verifies T.keccak T.h2c cfg ⟨i, F i, F i • g1⟩ rfl hi1 hi2 input ρ'.nonce).2.2
  · refine ⟨_, (C89_combine T cfg ρ' input false d3 _).2 ⟨evals, gpk, vks, pseudo, h5, h3, fun _ => h4, hc, rfl⟩, ?_,
      (C89_verifyFinal T cfg ρ' input _ _).2 ⟨rfl, pseudo, gpk, load_save (good_pseudo _ 125) _ _,
        (load_save_ne _ _ (x := .pseudo) (y := .gpk) trivial trivial (by simp)).trans h3, hv⟩⟩
    rw [view_pseudo _ (good_pseudo _ 125), ← h6]

/-- C90 for 2 of 3 members with constant polynomials, also if the encoding of infinity panics. -/
example (T : Tools) (ρ : Random) (hρ : ρ.mock.draw = fun _ k => if k = 0 then (1 : Fr) else 0)
    (input : List Byte) (d : Store) :
    ∃ d1 d2 d3, (Command.mockMembers.prog T ⟨2, 3⟩ ρ).run d = (d1, .ok ()) ∧
      (Command.mockDkg.prog T ⟨2, 3⟩ ρ).run d1 = (d2, .ok ()) ∧
      ((Command.mockRandom input).prog T ⟨2, 3⟩ ρ).run d2 = (d3, .ok ()) := by
  obtain ⟨d1, d2, d3, h1, h2, h3, -⟩ := C90_pipeline T 2 3 (by omega) (by omega) (by norm_num) ρ (by
    intro _ j _
    rw [hρ]
    refine ⟨one_ne_zero, fun i _ _ => ?_⟩
    have : (List.range 2).map ((fun _ k => if k = 0 then (1 : Fr) else 0 : ℕ → ℕ → Fr) j) = [1, 0] := rfl
    rw [this]
    simp [Spec.poly]) input d
  exact ⟨d1, d2, d3, h1, h2, h3⟩

end Verif.Props
