import Verif.Lemmas.DiskTogether
import Verif.Props.Files

/-! C88: commands that run at the same time in one data directory. -/

namespace Verif.Props
open Disk Disk.Prog ClientFiles Spec Serde Relation

variable {ι : Type} [DecidableEq ι]

/-- C88. Commands that run at the same time in one directory, in any order of their steps, where no one
writes a file that another one reads or writes: each ends with the result it would have had alone, its
files are then as after that run, and no other files change.  Any of the commands may stop for ever. -/
theorem C88_together (T : Tools) (cfg : DkgConfig) (ht : cfg.threshold < 2 ^ 64)
    (hn : cfg.numberOfMembers < 2 ^ 64) (c : ι → Command) (ρ : ι → Random) (hc : ∀ i, plain (c i))
    (apart : ∀ i j, i ≠ j → ∀ x, writes cfg (c i) x → ¬ reads cfg (c j) x ∧ ¬ writes cfg (c j) x)
    {d d' : Store} {P : ι → Prog Unit}
    (h : ReflTransGen Step (fun i => (c i).prog T cfg (ρ i), d) (P, d')) :
    (∀ i res, P i = done res →
      res = (((c i).prog T cfg (ρ i)).run d).2 ∧
      ∀ x, writes cfg (c i) x → d' x.name = (((c i).prog T cfg (ρ i)).run d).1 x.name) ∧
    ∀ n, (∀ i x, writes cfg (c i) x → x.name ≠ n) → d' n = d n := by
  have ha := fun i => acts_command T cfg ht hn (ρ i) (c i)
  refine ⟨fun i res hi => ?_, fun n hno => ?_⟩
  · have := alone_steps (R := fun i => Names (reads cfg (c i))) (W := fun i => Names (writes cfg (c i)))
      (Sh := fun _ => False) (J := fun _ _ => True) ?_ (fun _ _ h => h.elim)
      (fun i n => reads_writes (hc i)) h (fun i => (ha i).readsIn)
      (fun i => (ha i).writesIn.mono (fun n => Or.inl)) (fun i => ?_) i
    · obtain ⟨-, -, e, h1, -, h2⟩ := this
      rw [hi] at h1 h2
      rw [← h1]
      refine ⟨rfl, fun x hx => ?_⟩
      rcases h2 x.name (Or.inr ⟨x, hx, rfl⟩) with h | ⟨_, _, h⟩
      · exact h
      · cases h
    · rintro i j hij n ⟨x, hx, hxn⟩
      constructor
      · rintro ⟨y, hy, hyn⟩
        have e := DataFile.name_inj (writes_plain' (hc i) hx) (reads_plain (hc j) hy) (hxn.trans hyn.symm)
        subst e
        exact (apart i j hij x hx).1 hy
      · rintro ⟨y, hy, hyn⟩
        have e := DataFile.name_inj (writes_plain' (hc i) hx) (writes_plain' (hc j) hy) (hxn.trans hyn.symm)
        subst e
        exact (apart i j hij x hx).2 hy
    · have triv : ∀ (Q : Prog Unit) (d : Store), RunWrites (fun _ _ => True) Q d := by
        intro Q
        induction Q with
        | done res => exact fun _ => trivial
        | read n next ih => exact fun d => ih _ d
        | write n bytes next ih => exact fun d => ⟨trivial, ih _⟩
      exact triv _ _
  · exact other_steps h (V := fun n => ∃ i, Names (writes cfg (c i)) n)
      (fun i => (ha i).writesIn.mono (fun n hn => ⟨i, hn⟩)) (fun ⟨i, x, h1, h2⟩ => hno i x h1 h2)

/-- C88. In particular all members can create their proofs at the same time, and all members can
evaluate at the same time (also on different inputs). -/
theorem C88_members (cfg : DkgConfig) (input : ℕ → List Byte) :
    (∀ i j : ℕ, i ≠ j → ∀ x, writes cfg (.prove i) x →
      ¬ reads cfg (.prove j) x ∧ ¬ writes cfg (.prove j) x) ∧
    (∀ i j : ℕ, i ≠ j → ∀ x, writes cfg (.eval i (input i)) x →
      ¬ reads cfg (.eval j (input j)) x ∧ ¬ writes cfg (.eval j (input j)) x) := by
  constructor
  · rintro i j hij x (rfl | rfl) <;> simp [reads, writes, hij]
  · rintro i j hij x rfl
    simp [reads, writes, hij]

/-- Two members create their keys at the same time: the second starts to write, the first one finishes,
then the second. -/
example (T : Tools) (cfg : DkgConfig) (ρ : Bool → Random) (d : Store) :
    let c : Bool → Command := fun b => .keygen (if b then "bob".toList else "alice".toList)
    (∀ i, plain (c i)) ∧
    (∀ i j, i ≠ j → ∀ x, writes cfg (c i) x → ¬ reads cfg (c j) x ∧ ¬ writes cfg (c j) x) ∧
    ∃ d', ReflTransGen Step (fun i => (c i).prog T cfg (ρ i), d) (fun _ => done (.ok ()), d') := by
  intro c
  refine ⟨?_, ?_, ?_⟩
  · rintro (_ | _) <;> simp [c, plain]
  · rintro (_ | _) (_ | _) h x hx <;> simp [c, reads, writes] at h hx ⊢ <;> subst hx <;> simp
  · have h := Step.write (P := Function.update (fun i => (c i).prog T cfg (ρ i)) false (done (.ok ())))
      (d := put (put d (resolve (memberPath "bob".toList)) []) (resolve (memberPath "alice".toList))
        (toFile (Client.keygen (ρ false).sk))) (i := true) (bytes := toFile (Client.keygen (ρ true).sk))
      (n := resolve (memberPath "bob".toList)) (next := done (.ok ())) rfl
    have e : Function.update (Function.update (fun i => (c i).prog T cfg (ρ i)) false (done (.ok ()))) true
        (done (.ok ())) = fun _ => done (.ok ()) := by
      funext b
      cases b <;> rfl
    rw [e] at h
    exact ⟨_, ReflTransGen.tail (ReflTransGen.tail (ReflTransGen.single
      (Step.torn (i := true) (part := []) (bytes := toFile (Client.keygen (ρ true).sk))
        (n := resolve (memberPath "bob".toList)) (next := done (.ok ())) rfl List.nil_prefix))
      (Step.write (i := false) (bytes := toFile (Client.keygen (ρ false).sk))
        (n := resolve (memberPath "alice".toList)) (next := done (.ok ())) rfl)) h⟩

theorem RunWrites.contents {α : Type} {J : Name → List Byte → Prop} {P : Prog α} {d : Store}
    (h : RunWrites J P d) (ho : Once P) {n : Name} (hn : AlwaysWrites n P) {a : α} (ha : (P.run d).2 = .ok a) :
    ∃ bytes, (P.run d).1 n = some bytes ∧ J n bytes := by
  induction P generalizing d with
  | done res =>
    simp only [run] at ha
    subst ha
    exact hn.elim
  | read m next ih => exact ih _ h (ho _) (hn _) ha
  | write m bytes next ih =>
    by_cases e : m = n
    · subst e
      refine ⟨bytes, ?_, h.1⟩
      show (next.run (put d m bytes)).1 m = some bytes
      rw [run_other ho.1 _ (by simp), put_eq]
    · exact ih h.2 ho.2 (hn.resolve_left e) ha

theorem runWrites_client {α β : Type} {J : Name → List Byte → Prop} (x : Except Client.CliFail α)
    (f : α → Prog β) (d : Store) (h : ∀ a, x = .ok a → RunWrites J (f a) d) : RunWrites J ((client x).bind f) d := by
  cases x with
  | ok a => exact h a rfl
  | error e => trivial

theorem runWrites_lib {α β : Type} {J : Name → List Byte → Prop} (x : Res α)
    (f : α → Prog β) (d : Store) (h : ∀ a, x = .ok a → RunWrites J (f a) d) : RunWrites J ((lib x).bind f) d := by
  cases x with
  | ok a => exact h a rfl
  | error e => trivial

theorem runWrites_readJson {α β : Type} [Serde α] {J : Name → List Byte → Prop} (p : List Char)
    (f : α → Prog β) (d : Store) (h : ∀ bs a, d (resolve p) = some bs → ofFile bs = some a → RunWrites J (f a) d) :
    RunWrites J ((readJson p).bind f) d := by
  show RunWrites J (Prog.bind (match d (resolve p) with
    | none => fail .io
    | some bs => match Serde.ofFile bs with
      | none => fail .json
      | some a => done (.ok a)) f) d
  cases hb : d (resolve p) with
  | none => trivial
  | some bs =>
    dsimp only
    cases ha : (Serde.ofFile bs : Option α) with
    | none => trivial
    | some a => exact h bs a hb ha

/-- What `derive` computes from the file of all instances. -/
noncomputable def globalOf (cfg : DkgConfig) (b : Option (List Byte)) : Option DkgGlobalPubParams := do
  let bs ← b
  let l : List (List (List Char)) ← ofFile bs
  let instances ← (l.mapM (fun l => l.mapM (readField r)) : Res _).toOption
  let dkgsPub ← (instances.mapM (fun s => do let p ← fromInstance cfg s; return p.1) : Res _).toOption
  (dkgGlobalPublicParams dkgsPub).toOption

theorem runWrites_derive (cfg : DkgConfig) (i : Option ℕ) (f : List Char) (d : Store) :
    RunWrites (fun n bytes => ∃ g, globalOf cfg (d DataFile.allInstances.name) = some g ∧
      (n = DataFile.gpk.name → bytes = toFile (GlobalParamsSerde.of g).g2a) ∧
      (n = DataFile.vks.name → bytes = toFile (GlobalParamsSerde.of g).verifyKeys))
      (ClientFiles.derive cfg i f) d := by
  unfold ClientFiles.derive
  refine runWrites_readJson _ _ _ (fun bs l h1 h2 => ?_)
  refine runWrites_lib _ _ _ (fun instances h3 => ?_)
  refine runWrites_lib _ _ _ (fun pub h4 => ?_)
  refine runWrites_lib _ _ _ (fun gpp h5 => ?_)
  have hg : globalOf cfg (d DataFile.allInstances.name) = some gpp := by
    unfold globalOf
    rw [show d DataFile.allInstances.name = some bs from h1]
    simp only [Option.bind_eq_bind, Option.bind_some]
    rw [h2]
    simp only [Option.bind_some]
    rw [h3]
    simp only [Except.toOption, Option.bind_some]
    rw [h4]
    simp only [Option.bind_some]
    rw [h5]
  have ne : DataFile.gpk.name ≠ DataFile.vks.name := fun e => by
    have := DataFile.name_inj (x := .gpk) (y := .vks) trivial trivial e
    cases this
  refine ⟨?_, ?_, ?_⟩
  · exact ⟨gpp, hg, fun _ => rfl, fun h => absurd h ne⟩
  · exact ⟨gpp, hg, fun h => absurd h.symm ne, fun _ => rfl⟩
  · cases i with
    | none => trivial
    | some i =>
      refine runWrites_client _ _ _ (fun _ _ => ?_)
      refine runWrites_readJson _ _ _ (fun _ mb _ _ => ?_)
      refine runWrites_lib _ _ _ (fun member _ => ?_)
      refine runWrites_lib _ _ _ (fun share hs => ?_)
      refine runWrites_lib _ _ _ (fun _ _ => ?_)
      refine ⟨⟨gpp, hg, fun h => ?_, fun h => ?_⟩, trivial⟩
      · have := DataFile.name_inj (x := .share share.index) (y := .gpk) trivial trivial h
        cases this
      · have := DataFile.name_inj (x := .share share.index) (y := .vks) trivial trivial h
        cases this

/-- C88. All members can derive their shares at the same time, although each of them writes the
verification keys and the global public key: when all have ended, the results and the share files are
as if each had been alone, and so are the two common files. -/
theorem C88_derive (T : Tools) (cfg : DkgConfig) (ht : cfg.threshold < 2 ^ 64)
    (hn : cfg.numberOfMembers < 2 ^ 64) (index : ι → Option ℕ) (file : ι → List Char) (ρ : ι → Random)
    (hf : ∀ i, '/' ∉ file i) (hi : ∀ i j a, index i = some a → index j = some a → i = j)
    {d d' : Store} {P : ι → Prog Unit}
    (h : ReflTransGen Step (fun i => (Command.derive (index i) (file i)).prog T cfg (ρ i), d) (P, d'))
    (hd : ∀ i, ∃ res, P i = done res) (i : ι) :
    let alone := ((Command.derive (index i) (file i)).prog T cfg (ρ i)).run d
    P i = done alone.2 ∧
    (∀ a, index i = some a → d' (DataFile.share a).name = alone.1 (DataFile.share a).name) ∧
    (alone.2 = .ok () → d' DataFile.gpk.name = alone.1 DataFile.gpk.name ∧
      d' DataFile.vks.name = alone.1 DataFile.vks.name) := by
  have hA := fun i => acts_derive (R := Names (reads cfg (.derive (index i) (file i)))) cfg hn (index i) (file i)
    (by cases index i with
      | none => exact ⟨_, rfl, rfl⟩
      | some a => exact ⟨_, Or.inl rfl, rfl⟩)
    (by cases index i with
      | none => exact fun h => by simp at h
      | some a => exact fun _ => ⟨_, Or.inr rfl, rfl⟩)
  have hplain : ∀ i x, reads cfg (.derive (index i) (file i)) x → x.Plain :=
    fun i x hx => reads_plain (show plain (.derive (index i) (file i)) from hf i) hx
  have hnoread : ∀ i y, (y = DataFile.gpk ∨ y = DataFile.vks ∨ ∃ a, y = DataFile.share a) →
      ¬ Names (reads cfg (.derive (index i) (file i))) y.name := by
    rintro i y hy ⟨x, hx, hxn⟩
    have hyp : y.Plain := by rcases hy with rfl | rfl | ⟨a, rfl⟩ <;> trivial
    have e := DataFile.name_inj (hplain i x hx) hyp hxn
    subst e
    revert hx
    cases index i with
    | none => rcases hy with rfl | rfl | ⟨a, rfl⟩ <;> simp [reads]
    | some b => rcases hy with rfl | rfl | ⟨a, rfl⟩ <;> simp [reads]
  have key := fun {s} (hs : ReflTransGen Step (fun i => (Command.derive (index i) (file i)).prog T cfg (ρ i), d) s)
    (i : ι) => alone_steps (P' := s.1) (d' := s.2)
      (R := fun i => Names (reads cfg (.derive (index i) (file i))))
      (W := fun i n => ∃ j, index i = some j ∧ n = (DataFile.share j).name)
      (Sh := fun n => n = DataFile.gpk.name ∨ n = DataFile.vks.name)
      (J := fun n bytes => ∃ g, globalOf cfg (d DataFile.allInstances.name) = some g ∧
        (n = DataFile.gpk.name → bytes = toFile (GlobalParamsSerde.of g).g2a) ∧
        (n = DataFile.vks.name → bytes = toFile (GlobalParamsSerde.of g).verifyKeys))
      (by
        rintro i j hij n ⟨a, ha, rfl⟩
        refine ⟨hnoread j (.share a) (Or.inr (Or.inr ⟨a, rfl⟩)), ?_⟩
        rintro ⟨b, hb, e⟩
        have := DataFile.name_inj (x := .share a) (y := .share b) trivial trivial e
        injection this with this
        subst this
        exact hij (hi i j a ha hb))
      (by
        rintro i n (rfl | rfl)
        · refine ⟨hnoread i .gpk (Or.inl rfl), ?_⟩
          rintro ⟨b, hb, e⟩
          have := DataFile.name_inj (x := .gpk) (y := .share b) trivial trivial e
          cases this
        · refine ⟨hnoread i .vks (Or.inr (Or.inl rfl)), ?_⟩
          rintro ⟨b, hb, e⟩
          have := DataFile.name_inj (x := .vks) (y := .share b) trivial trivial e
          cases this)
      (by
        rintro i n hr ⟨a, ha, rfl⟩
        exact hnoread i (.share a) (Or.inr (Or.inr ⟨a, rfl⟩)) hr)
      hs (fun i => (hA i).readsIn) (fun i => (hA i).writesIn.mono (fun n hn => hn.symm))
      (fun i => runWrites_derive cfg (index i) (file i) d) i
  obtain ⟨-, -, e, h1, -, h2⟩ := key h i
  obtain ⟨res, hres⟩ := hd i
  dsimp only at h1 h2
  rw [hres] at h1 h2
  have h1' : ((Command.derive (index i) (file i)).prog T cfg (ρ i)).run d = (e, res) := h1.symm
  intro alone
  have hal : alone = (e, res) := h1'
  rw [hal]
  refine ⟨hres, fun a ha => ?_, fun hok => ?_⟩
  · rcases h2 _ (Or.inr ⟨a, ha, rfl⟩) with h | ⟨_, _, h⟩
    · exact h
    · cases h
  · have hok' : (((Command.derive (index i) (file i)).prog T cfg (ρ i)).run d).2 = .ok () := by
      rw [h1']; exact hok
    -- the common contents
    have common : ∀ n, (n = DataFile.gpk.name ∨ n = DataFile.vks.name) → d' n = e n := by
      intro n hn'
      have hal : AlwaysWrites n ((Command.derive (index i) (file i)).prog T cfg (ρ i)) :=
        (hA i).always (Or.inl hn')
      obtain ⟨bytes, hb, hJ⟩ := RunWrites.contents (runWrites_derive cfg (index i) (file i) d) (hA i).once hal hok'
      have hb' : e n = some bytes := by rw [← hb]; exact (congrArg (fun p => p.1 n) h1').symm
      obtain ⟨g, hg, h6⟩ := hJ
      have hK : ∀ s, ReflTransGen Step (fun i => (Command.derive (index i) (file i)).prog T cfg (ρ i), d) s →
          ∀ j b nx, s.1 j = write n b nx → b = bytes := by
        intro s hs j b nx hj
        obtain ⟨-, -, e', -, h4, -⟩ := key hs j
        rw [hj] at h4
        obtain ⟨g', hg', h5⟩ := h4.1
        rw [hg] at hg'
        cases hg'
        rcases hn' with rfl | rfl
        · rw [h5.1 rfl, h6.1 rfl]
        · rw [h5.2 rfl, h6.2 rfl]
      rcases shared_steps h hK i hal with h | h | ⟨j, b, nx, h⟩
      · rw [hres] at h
        have hr : res = .ok () := hok
        rw [hr] at h
        exact h.elim
      · rw [h, hb']
      · obtain ⟨r', hr'⟩ := hd j
        rw [hr'] at h
        cases h
    exact ⟨common _ (Or.inl rfl), common _ (Or.inr rfl)⟩

end Verif.Props
