import Verif.Lemmas.FilesActs
import Verif.Model.Mock

/-! The files read and written by the mock commands, and all commands together. -/

namespace Verif
open Disk Disk.Prog ClientFiles Spec Serde
open DkgCircuit (mapM_ok_forall₂)

variable {R : Name → Prop}

theorem slash_mockMember (i : ℕ) : '/' ∉ mockMember i := by
  unfold mockMember
  rw [List.mem_append]
  rintro (h | h)
  · exact absurd h (by simp)
  · exact slash_decimal i h

theorem mockMember_inj {i j : ℕ} (h : mockMember i = mockMember j) : i = j :=
  decimalText_inj (List.append_cancel_left h)

/-- One file for each element of a list. -/
theorem acts_numbered {α : Type} (x : ℕ → DataFile) (hx : ∀ i, (x i).Plain) (hinj : ∀ i j, x i = x j → i = j)
    (f : α × ℕ → Prog Unit) (l : List α)
    (h : ∀ a ∈ l.zipIdx, Acts R Text (fun _ => True) (fun n => n = (x (a.2 + 1)).name) (f a)) :
    Acts R Text (fun _ => True) (fun n => ∃ i, 1 ≤ i ∧ i ≤ l.length ∧ n = (x i).name) (each f l.zipIdx) := by
  refine ((acts_each (Q := fun _ => True) (fun a ha => h a ha) ?_).imp (fun _ _ => trivial)).congr (fun n => ?_)
  · have : (l.zipIdx.map Prod.snd).Nodup := by
      rw [List.zipIdx_map_snd]
      exact List.nodup_range'
    rw [List.Nodup, List.pairwise_map] at this
    refine this.imp (fun {a b} hab n h1 h2 => hab ?_)
    have := hinj _ _ (DataFile.name_inj (hx _) (hx _) (h1.symm.trans h2))
    omega
  · constructor
    · rintro ⟨⟨a, i⟩, hm, hn⟩
      obtain ⟨-, h2, -⟩ := List.mem_zipIdx hm
      exact ⟨i + 1, by omega, by omega, hn⟩
    · rintro ⟨i, h1, h2, hn⟩
      obtain ⟨j, rfl⟩ : ∃ j, i = j + 1 := ⟨i - 1, by omega⟩
      refine ⟨(l[j], j), ?_, hn⟩
      rw [List.mk_mem_zipIdx_iff_getElem?]
      exact List.getElem?_eq_getElem _

theorem acts_mockMembers (cfg : DkgConfig) (sk : ℕ → Fq) :
    Acts R Text (fun _ => True) (fun n => n = DataFile.memberKeys.name ∨
      ∃ i, 1 ≤ i ∧ i ≤ cfg.numberOfMembers ∧ n = (DataFile.member (mockMember i)).name)
      (ClientFiles.mockMembers cfg sk) := by
  refine Acts.bind (acts_writeJson .memberKeys (good_points _ 125) trivial) (fun _ _ => ?_) ?_
  · have := acts_numbered (R := R) (fun i => .member (mockMember i)) (fun i => slash_mockMember i)
      (fun i j h => mockMember_inj (by injection h))
      (fun m : MemberKeySerde × ℕ => writeJson (memberPath (mockMember (m.2 + 1))) m.1)
      ((List.range cfg.numberOfMembers).map (fun i => MemberKeySerde.of (MemberKey.random (sk i))))
      (fun a _ => acts_writeJson (.member (mockMember (a.2 + 1))) (good_member _ 125) trivial)
    refine (Acts.bind this (fun _ _ => acts_pure trivial) (fun _ _ h => h)).congr (fun n => ?_)
    simp
  · rintro n h ⟨i, -, -, h'⟩
    exact single_ne (x := .memberKeys) (y := .member (mockMember i)) trivial (slash_mockMember i) (by simp) n h h'

theorem mapM_ok_mem {ε α β : Type} {f : α → Except ε β} {l : List α} {l' : List β} (h : l.mapM f = .ok l')
    {b : β} (hb : b ∈ l') : ∃ a ∈ l, f a = .ok b := by
  have h2 := mapM_ok_forall₂ f h
  clear h
  induction h2 with
  | nil => cases hb
  | cons h _ ih =>
    rw [List.mem_cons] at hb
    rcases hb with rfl | hb
    · exact ⟨_, by simp, h⟩
    · obtain ⟨a, h1, h2⟩ := ih hb
      exact ⟨a, List.mem_cons_of_mem _ h1, h2⟩

theorem good_of_map {α β : Type} [Serde β] {k : ℕ} (hk : 1 ≤ k) {f : α → β} {l : List α}
    (h : ∀ a ∈ l, Good k (f a)) : Good (k + 1) (l.map f) := by
  refine good_list hk (fun b hb => ?_)
  obtain ⟨a, ha, rfl⟩ := List.mem_map.1 hb
  exact h a ha

theorem bind_ok {ε α β : Type} {x : Except ε α} {f : α → Except ε β} {b : β} (h : (x >>= f) = .ok b) :
    ∃ a, x = .ok a ∧ f a = .ok b := by
  cases x with
  | error e => cases h
  | ok a => exact ⟨a, rfl, h⟩

theorem dkg_new_cfg {mask : Mask} {cfg : DkgConfig} {pks : List Gk} {draw : ℕ → Fr} {d : DkgMemberParams}
    (h : DkgMemberParams.new mask cfg pks draw = .ok d) : d.cfg = cfg := by
  unfold DkgMemberParams.new at h
  split at h
  · cases h
  · obtain ⟨_, -, h⟩ := bind_ok h
    obtain ⟨_, -, h⟩ := bind_ok h
    obtain ⟨_, -, h⟩ := bind_ok h
    cases h
    rfl

theorem acts_saveInstances (l : List (List Fr)) :
    Acts R Text (fun _ => True) (fun n => n = DataFile.allInstances.name) (saveInstances l) :=
  acts_writeJson .allInstances (good_of_map (by omega : 1 ≤ 127)
    (fun _ _ => good_strs _ (by omega : 1 ≤ 126))) trivial

theorem acts_saveParams {cfg : DkgConfig} (ht : cfg.threshold < 2 ^ 64) (hn : cfg.numberOfMembers < 2 ^ 64)
    (dkgs : List DkgMemberParams) (hd : ∀ d ∈ dkgs, d.cfg = cfg) (hl : dkgs.length = cfg.numberOfMembers)
    (pub : List DkgMemberPublicParams) (gpp : DkgGlobalPubParams) :
    Acts R Text (fun _ => True) (fun n => (∃ i, 1 ≤ i ∧ i ≤ cfg.numberOfMembers ∧ n = (DataFile.secret i).name) ∨
      (n = DataFile.dkgsPublic.name ∨ (n = DataFile.gpp.name ∨ (n = DataFile.gpk.name ∨ n = DataFile.vks.name))))
      (saveParams dkgs pub gpp) := by
  have h1 := acts_numbered (R := R) (fun i => .secret i) (fun i => trivial) (fun i j h => by injection h)
      (fun d : DkgMemberParams × ℕ => writeJson (secretPath (d.2 + 1)) (MemberParamsSerde.of d.1)) dkgs
      (fun a ha => acts_writeJson (.secret (a.2 + 1)) (good_params (by
        show a.1.cfg.threshold < 2 ^ 64
        rw [hd a.1 (List.fst_mem_of_mem_zipIdx ha)]; exact ht) (by
        show a.1.cfg.numberOfMembers < 2 ^ 64
        rw [hd a.1 (List.fst_mem_of_mem_zipIdx ha)]; exact hn) 123) trivial)
  rw [hl] at h1
  refine Acts.bind h1 (fun _ _ => ?_) ?_
  · refine Acts.bind (acts_writeJson .dkgsPublic (good_of_map (by omega : 1 ≤ 127)
      (fun _ _ => good_pp _ 123)) trivial) (fun _ _ => ?_) ?_
    · refine Acts.bind (acts_writeJson .gpp (good_gpp _ 124) trivial) (fun _ _ => ?_) ?_
      · exact acts_saveGpp gpp
      · rintro n h (h' | h')
        · exact single_ne (x := .gpp) (y := .gpk) trivial trivial (by simp) n h h'
        · exact single_ne (x := .gpp) (y := .vks) trivial trivial (by simp) n h h'
    · rintro n h (h' | h' | h')
      · exact single_ne (x := .dkgsPublic) (y := .gpp) trivial trivial (by simp) n h h'
      · exact single_ne (x := .dkgsPublic) (y := .gpk) trivial trivial (by simp) n h h'
      · exact single_ne (x := .dkgsPublic) (y := .vks) trivial trivial (by simp) n h h'
  · rintro n ⟨i, -, -, h⟩ (h' | h' | h' | h')
    · exact single_ne (x := .secret i) (y := .dkgsPublic) trivial trivial (by simp) n h h'
    · exact single_ne (x := .secret i) (y := .gpp) trivial trivial (by simp) n h h'
    · exact single_ne (x := .secret i) (y := .gpk) trivial trivial (by simp) n h h'
    · exact single_ne (x := .secret i) (y := .vks) trivial trivial (by simp) n h h'

theorem acts_saveShares {N : ℕ} (hN : N < 2 ^ 64) (shares : List DkgShareKey)
    (h : shares.map (·.index) = List.range' 1 N) :
    Acts R Text (fun _ => True) (fun n => ∃ i, 1 ≤ i ∧ i ≤ N ∧ n = (DataFile.share i).name)
      (saveShares shares) := by
  have hm : ∀ i, (∃ s ∈ shares, s.index = i) ↔ 1 ≤ i ∧ i ≤ N := by
    intro i
    have : i ∈ shares.map (·.index) ↔ i ∈ List.range' 1 N := by rw [h]
    rw [List.mem_map, List.mem_range'_1] at this
    rw [this]
    omega
  have h1 : Acts R Text (fun _ => True) (fun n => ∃ s ∈ shares, n = (DataFile.share s.index).name)
      (each saveShare shares) := by
    refine (acts_each (Q := fun _ => True) (fun s hs => acts_saveShare rfl ?_) ?_).imp (fun _ _ => trivial)
    · have := (hm s.index).1 ⟨s, hs, rfl⟩
      omega
    · have : (shares.map (·.index)).Nodup := by rw [h]; exact List.nodup_range'
      rw [List.Nodup, List.pairwise_map] at this
      refine this.imp (fun {a b} hab n h1 h2 => ?_)
      exact single_ne (x := .share a.index) (y := .share b.index) trivial trivial
        (fun e => hab (by injection e)) n h1 h2
  refine (Acts.bind h1 (fun _ _ => acts_pure trivial) (fun _ _ h => h)).congr (fun n => ?_)
  constructor
  · rintro (⟨s, hs, hn⟩ | h)
    · obtain ⟨h1, h2⟩ := (hm s.index).1 ⟨s, hs, rfl⟩
      exact ⟨s.index, h1, h2, hn⟩
    · exact h.elim
  · rintro ⟨i, h1, h2, hn⟩
    obtain ⟨s, hs, rfl⟩ := (hm i).2 ⟨h1, h2⟩
    exact Or.inl ⟨s, hs, hn⟩

theorem acts_mockDkg (b : Bool) {cfg : DkgConfig} (ht : cfg.threshold < 2 ^ 64)
    (hn : cfg.numberOfMembers < 2 ^ 64) (draw : ℕ → ℕ → Fr)
    (hR : ∀ i, 1 ≤ i → i ≤ cfg.numberOfMembers → R (DataFile.member (mockMember i)).name) :
    Acts R Text (fun _ => True) (fun n => n = DataFile.allInstances.name ∨
      (((∃ i, 1 ≤ i ∧ i ≤ cfg.numberOfMembers ∧ n = (DataFile.secret i).name) ∨
        (n = DataFile.dkgsPublic.name ∨ (n = DataFile.gpp.name ∨ (n = DataFile.gpk.name ∨ n = DataFile.vks.name)))) ∨
        ∃ i, 1 ≤ i ∧ i ≤ cfg.numberOfMembers ∧ n = (DataFile.share i).name))
      (ClientFiles.mockDkg b cfg draw) := by
  unfold ClientFiles.mockDkg
  have h1 : Acts R Text (fun _ => True) (fun _ => False) (each (fun i => do
      let memberBytes : MemberKeySerde ← readJson (memberPath (mockMember (i + 1)))
      lib memberBytes.read) (List.range cfg.numberOfMembers)) := by
    refine ((acts_each (Q := fun _ => True) (N := fun _ _ => False) (fun i hi => ?_) ?_).imp
      (fun _ _ => trivial)).congr (fun n => by simp)
    · rw [List.mem_range] at hi
      refine Acts.then (acts_readJson (hR (i + 1) (by omega) (by omega))) (fun _ _ => ?_)
      exact (acts_lib _).imp (fun _ _ => trivial)
    · exact List.pairwise_of_forall (fun _ _ _ h => h.elim)
  refine Acts.then h1 (fun members _ => ?_)
  refine Acts.then (acts_lib _) (fun dkgs hd => ?_)
  refine Acts.then (acts_lib _) (fun instances _ => ?_)
  refine Acts.bind (acts_saveInstances instances) (fun _ _ => ?_) ?_
  · refine Acts.then (acts_lib _) (fun pp _ => ?_)
    refine Acts.bind (acts_saveParams ht hn dkgs ?_ ?_ _ pp) (fun _ _ => ?_) ?_
    · intro d hd'
      obtain ⟨i, -, h⟩ := mapM_ok_mem hd hd'
      exact dkg_new_cfg h
    · have := (mapM_ok_forall₂ _ hd).length_eq
      rw [List.length_range] at this
      exact this.symm
    · refine Acts.then (acts_lib _) (fun shares hs => ?_)
      refine acts_saveShares hn shares ?_
      have h2 := mapM_ok_forall₂ _ hs
      rw [List.range_eq_range'] at h2
      have h3 : ∀ (a : ℕ) (l : List ℕ) (ss : List DkgShareKey), l = List.range' a l.length →
          List.Forall₂ (fun i s => s.index = i + 1) l ss → ss.map (·.index) = List.range' (a + 1) l.length := by
        intro a l ss hl hf
        induction hf generalizing a with
        | nil => rfl
        | @cons i s l ss hi _ ih =>
          rw [List.length_cons, List.range'_succ] at hl
          obtain ⟨e1, e2⟩ := List.cons.inj hl
          rw [List.map_cons, List.length_cons, List.range'_succ, ih (a + 1) e2, hi, e1]
      have h4 := h3 0 (List.range' 0 cfg.numberOfMembers) shares (by rw [List.length_range']) (h2.imp (fun {i s} h => by
        obtain ⟨m, -, h⟩ := bind_ok h
        obtain ⟨sh, h5, h⟩ := bind_ok h
        obtain ⟨_, -, h⟩ := bind_ok h
        cases h
        exact (dkgShareKey_index h5).1))
      rw [List.length_range'] at h4
      exact h4
    · rintro n (⟨i, -, -, h⟩ | h | h | h | h) ⟨j, -, -, h'⟩
      · exact single_ne (x := .secret i) (y := .share j) trivial trivial (by simp) n h h'
      · exact single_ne (x := .dkgsPublic) (y := .share j) trivial trivial (by simp) n h h'
      · exact single_ne (x := .gpp) (y := .share j) trivial trivial (by simp) n h h'
      · exact single_ne (x := .gpk) (y := .share j) trivial trivial (by simp) n h h'
      · exact single_ne (x := .vks) (y := .share j) trivial trivial (by simp) n h h'
  · rintro n h ((⟨i, -, -, h'⟩ | h' | h' | h' | h') | ⟨j, -, -, h'⟩)
    · exact single_ne (x := .allInstances) (y := .secret i) trivial trivial (by simp) n h h'
    · exact single_ne (x := .allInstances) (y := .dkgsPublic) trivial trivial (by simp) n h h'
    · exact single_ne (x := .allInstances) (y := .gpp) trivial trivial (by simp) n h h'
    · exact single_ne (x := .allInstances) (y := .gpk) trivial trivial (by simp) n h h'
    · exact single_ne (x := .allInstances) (y := .vks) trivial trivial (by simp) n h h'
    · exact single_ne (x := .allInstances) (y := .share j) trivial trivial (by simp) n h h'

theorem acts_mockRandom (E : BnPairing) (keccak : Keccak) (h2c : List Byte → G1)
    (cfg : DkgConfig) (input : List Byte) (nonce : ℕ → Fr) (h0 : R DataFile.gpp.name)
    (hR : ∀ i, 1 ≤ i → i ≤ cfg.numberOfMembers → R (DataFile.share i).name) :
    Acts R Text (fun _ => True) (fun n => n = DataFile.evals.name ∨ n = DataFile.pseudo.name)
      (ClientFiles.mockRandom E keccak h2c cfg input nonce) := by
  unfold ClientFiles.mockRandom
  have h1 : Acts R Text (fun bs : List DkgShareKey => ∀ s ∈ bs, s.index < 2 ^ 64) (fun _ => False) (each (fun i => do
      let shareBytes : ShareKeySerde ← readJson (sharePath (i + 1))
      lib shareBytes.read) (List.range cfg.numberOfMembers)) := by
    refine (acts_each (Q := fun s : DkgShareKey => s.index < 2 ^ 64) (N := fun _ _ => False) (fun i hi => ?_)
      ?_).congr (fun n => by simp)
    · rw [List.mem_range] at hi
      refine Acts.then (acts_readJson (hR (i + 1) (by omega) (by omega))) (fun sb hb => ?_)
      obtain ⟨bs, hb⟩ := hb
      refine (acts_lib _).imp (fun s hs => ?_)
      rw [share_read_index hs]
      exact share_index_lt hb
    · exact List.pairwise_of_forall (fun _ _ _ h => h.elim)
  refine Acts.then h1 (fun shares hs => ?_)
  refine Acts.then (acts_readJson h0) (fun gb _ => ?_)
  refine Acts.then (acts_lib _) (fun gpp _ => ?_)
  refine Acts.then (acts_lib _) (fun sigmas hg => ?_)
  beta_reduce
  split
  · trivial
  · refine Acts.then (acts_lib _) (fun v _ => ?_)
    refine Acts.then (acts_lib _) (fun _ _ => ?_)
    refine Acts.bind (acts_writeJson .evals (good_of_map (by omega : 1 ≤ 127) (fun s hs' => good_eval ?_ 124))
      trivial) (fun _ _ => ?_) (single_ne trivial trivial (by simp))
    · obtain ⟨si, h2, h⟩ := mapM_ok_mem hg hs'
      obtain ⟨vk, -, h⟩ := bind_ok h
      obtain ⟨_, -, h⟩ := bind_ok h
      cases h
      exact hs si.1 (List.fst_mem_of_mem_zipIdx h2)
    · exact acts_writeJson .pseudo (good_pseudo _ 125) trivial

/-- The commands read and write the files that are said. -/
theorem acts_command (T : Tools) (cfg : DkgConfig) (ht : cfg.threshold < 2 ^ 64)
    (hn : cfg.numberOfMembers < 2 ^ 64) (ρ : Random) (c : Command) :
    Acts (Names (reads cfg c)) Text (fun _ => True) (Names (writes cfg c)) (c.prog T cfg ρ) := by
  have one : ∀ (x : DataFile) (n : Name), n = x.name ↔ Names (fun y => y = x) n := by
    intro x n
    constructor
    · rintro rfl; exact ⟨x, rfl, rfl⟩
    · rintro ⟨y, rfl, rfl⟩; rfl
  have none_ : ∀ n : Name, False ↔ Names (fun _ => False) n := by
    intro n
    constructor
    · exact False.elim
    · rintro ⟨y, h, -⟩; exact h
  have hr : ∀ {x}, reads cfg c x → Names (reads cfg c) x.name := fun h => ⟨_, h, rfl⟩
  cases c with
  | keygen f => exact (acts_keygen f _).congr (one _)
  | prove i =>
    refine (acts_prove _ _ cfg i _ (hr rfl)).congr (fun n => ?_)
    constructor
    · rintro (rfl | rfl)
      · exact ⟨_, Or.inl rfl, rfl⟩
      · exact ⟨_, Or.inr rfl, rfl⟩
    · rintro ⟨x, rfl | rfl, rfl⟩
      · exact Or.inl rfl
      · exact Or.inr rfl
  | dkgVerify i =>
    exact (acts_dkgVerify _ cfg i (hr (Or.inl rfl)) (hr (Or.inr (Or.inl rfl))) (hr (Or.inr (Or.inr rfl)))).congr none_
  | derive i f =>
    refine (acts_derive cfg hn i f ?_ ?_).congr (fun n => ?_)
    · cases i with
      | none => exact hr rfl
      | some i => exact hr (Or.inl rfl)
    · cases i with
      | none => exact fun h => by simp at h
      | some i => exact fun _ => hr (Or.inr rfl)
    · cases i with
      | none =>
        constructor
        · rintro ((rfl | rfl) | ⟨j, h, -⟩)
          · exact ⟨_, Or.inl rfl, rfl⟩
          · exact ⟨_, Or.inr rfl, rfl⟩
          · cases h
        · rintro ⟨x, rfl | rfl, rfl⟩
          · exact Or.inl (Or.inl rfl)
          · exact Or.inl (Or.inr rfl)
      | some i =>
        constructor
        · rintro ((rfl | rfl) | ⟨j, h, rfl⟩)
          · exact ⟨_, Or.inl rfl, rfl⟩
          · exact ⟨_, Or.inr (Or.inl rfl), rfl⟩
          · cases h
            exact ⟨_, Or.inr (Or.inr rfl), rfl⟩
        · rintro ⟨x, rfl | rfl | rfl, rfl⟩
          · exact Or.inl (Or.inl rfl)
          · exact Or.inl (Or.inr rfl)
          · exact Or.inr ⟨i, rfl, rfl⟩
  | eval i input => exact (acts_eval _ _ cfg i input _ (hr rfl)).congr (one _)
  | verifyEval i input =>
    exact (acts_verifyEval _ _ cfg i input (hr (Or.inl rfl)) (hr (Or.inr rfl))).congr none_
  | combine input skip =>
    refine (acts_combine _ _ _ cfg input skip ?_ ?_ ?_).congr (one _)
    · cases skip <;> exact hr (Or.inl rfl)
    · cases skip
      · exact hr (Or.inr (Or.inl rfl))
      · exact hr (Or.inr rfl)
    · rintro rfl
      exact hr (Or.inr (Or.inr rfl))
  | verifyFinal input =>
    exact (acts_verifyFinal _ _ _ input (hr (Or.inl rfl)) (hr (Or.inr rfl))).congr none_
  | mockMembers =>
    refine (acts_mockMembers cfg _).congr (fun n => ?_)
    constructor
    · rintro (rfl | ⟨i, h1, h2, rfl⟩)
      · exact ⟨_, Or.inl rfl, rfl⟩
      · exact ⟨_, Or.inr ⟨i, h1, h2, rfl⟩, rfl⟩
    · rintro ⟨x, rfl | ⟨i, h1, h2, rfl⟩, rfl⟩
      · exact Or.inl rfl
      · exact Or.inr ⟨i, h1, h2, rfl⟩
  | mockDkg =>
    refine (acts_mockDkg _ ht hn _ (fun i h1 h2 => hr ⟨i, h1, h2, rfl⟩)).congr (fun n => ?_)
    constructor
    · rintro (rfl | ((⟨i, h1, h2, rfl⟩ | rfl | rfl | rfl | rfl) | ⟨i, h1, h2, rfl⟩))
      · exact ⟨_, Or.inl rfl, rfl⟩
      · exact ⟨_, Or.inr (Or.inr (Or.inr (Or.inr (Or.inr ⟨i, h1, h2, Or.inl rfl⟩)))), rfl⟩
      · exact ⟨_, Or.inr (Or.inl rfl), rfl⟩
      · exact ⟨_, Or.inr (Or.inr (Or.inl rfl)), rfl⟩
      · exact ⟨_, Or.inr (Or.inr (Or.inr (Or.inl rfl))), rfl⟩
      · exact ⟨_, Or.inr (Or.inr (Or.inr (Or.inr (Or.inl rfl)))), rfl⟩
      · exact ⟨_, Or.inr (Or.inr (Or.inr (Or.inr (Or.inr ⟨i, h1, h2, Or.inr rfl⟩)))), rfl⟩
    · rintro ⟨x, rfl | rfl | rfl | rfl | rfl | ⟨i, h1, h2, rfl | rfl⟩, rfl⟩
      · exact Or.inl rfl
      · exact Or.inr (Or.inl (Or.inr (Or.inl rfl)))
      · exact Or.inr (Or.inl (Or.inr (Or.inr (Or.inl rfl))))
      · exact Or.inr (Or.inl (Or.inr (Or.inr (Or.inr (Or.inl rfl)))))
      · exact Or.inr (Or.inl (Or.inr (Or.inr (Or.inr (Or.inr rfl)))))
      · exact Or.inr (Or.inl (Or.inl ⟨i, h1, h2, rfl⟩))
      · exact Or.inr (Or.inr ⟨i, h1, h2, rfl⟩)
  | mockRandom input =>
    refine (acts_mockRandom _ _ _ cfg input _ (hr (Or.inl rfl))
      (fun i h1 h2 => hr (Or.inr ⟨i, h1, h2, rfl⟩))).congr (fun n => ?_)
    constructor
    · rintro (rfl | rfl)
      · exact ⟨_, Or.inl rfl, rfl⟩
      · exact ⟨_, Or.inr rfl, rfl⟩
    · rintro ⟨x, rfl | rfl, rfl⟩
      · exact Or.inl rfl
      · exact Or.inr rfl

end Verif
