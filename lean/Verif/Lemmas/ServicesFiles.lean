import Verif.Model.ServicesFiles
import Verif.Props.FilesMock
import Verif.Lemmas.Serialise

/-! Passes of the services on files: what they write, and that they do what the passes on values do. -/

namespace Verif.ServicesFiles
open Disk Disk.Prog ClientFiles Spec Props Serde
open Services (Machine Draw config)
open ZkdvrfPre (State)
open Zkdvrf (Call)

theorem hexEncode_digit (bs : List Byte) : ∀ c ∈ hexEncode bs, ∃ n < 16, c = hexDigit n := by
  induction bs with
  | nil => intro c hc; cases hc
  | cons b bs ih =>
    have hb := b.isLt
    intro c hc
    simp only [hexEncode, List.mem_cons] at hc
    rcases hc with rfl | rfl | hc
    · exact ⟨_, by omega, rfl⟩
    · exact ⟨_, by omega, rfl⟩
    · exact ih c hc

theorem mem_zipWith {α β γ : Type} {f : α → β → γ} {c : γ} : ∀ {l : List α} {l' : List β},
    c ∈ List.zipWith f l l' → ∃ a ∈ l, ∃ b ∈ l', c = f a b
  | [], _, h => by simp at h
  | _ :: _, [], h => by simp at h
  | a :: l, b :: l', h => by
    rw [List.zipWith_cons_cons, List.mem_cons] at h
    rcases h with rfl | h
    · exact ⟨a, List.mem_cons_self, b, List.mem_cons_self, rfl⟩
    · obtain ⟨a', ha, b', hb, hc⟩ := mem_zipWith h
      exact ⟨a', List.mem_cons_of_mem _ ha, b', List.mem_cons_of_mem _ hb, hc⟩

theorem slash_memberName (keccak : Keccak) (a : Address) : '/' ∉ memberName keccak a := by
  have h : ∀ n < 16, hexDigit n ≠ '/' ∧ (hexDigit n).toUpper ≠ '/' := by decide
  unfold memberName addressText
  rw [List.mem_append, List.mem_cons, List.mem_cons]
  rintro (h1 | h1 | h1 | h1)
  · exact absurd h1 (by decide)
  · exact absurd h1 (by decide)
  · exact absurd h1 (by decide)
  · obtain ⟨c, hc, d, -, e⟩ := mem_zipWith h1
    obtain ⟨n, hn, rfl⟩ := hexEncode_digit _ c hc
    unfold checkDigit at e
    split at e
    · exact (h n hn).2 e.symm
    · exact (h n hn).1 e.symm

/-! ### What a pass writes -/

section Writes
variable {W : DataFile → Prop} {α : Type}

theorem writesIn_exec {M : Machine} {p : State} (ht : p.threshold < 2 ^ 64) (hn : p.memberCount < 2 ^ 64)
    (d : Draw) {c : Command} (h : ∀ x, writes (config p) c x → W x) : WritesIn (Names W) (exec M p d c) :=
  WritesIn.mono (fun _ ⟨x, hx, e⟩ => ⟨x, h x hx, e⟩) (acts_command (tools M) (config p) ht hn (random d) c).writesIn

theorem writesIn_writeJson [Serde α] (x : DataFile) (h : W x) (a : α) :
    WritesIn (Names W) (writeJson x.path a) := ⟨⟨x, h, rfl⟩, trivial⟩

theorem writesIn_orThrow {V : Name → Prop} (o : Option α) : WritesIn V (orThrow o) := by
  cases o <;> trivial

theorem writesIn_pure {V : Name → Prop} (a : α) : WritesIn V (pure a : Prog α) := trivial

theorem writesIn_sending {V : Name → Prop} {P : Prog Call} (h : WritesIn V P) : WritesIn V (sending P) :=
  WritesIn.bind h (fun _ => trivial)

end Writes

/-- The files that a pass of a node may write. -/
def nodeWrites (M : Machine) (p : State) (a : Address) (x : DataFile) : Prop := x.Plain ∧
  (x = .member (memberName M.env.keccak a) → (p.addrToNode a).status = false) ∧
  (x = .vks ∨ (∃ i, x = .share i) → p.lastSubmittedRound a = 0)

theorem nodePass_writes {M : Machine} {p : State} (ht : p.threshold < 2 ^ 64) (hn : p.memberCount < 2 ^ 64)
    (a : Address) (d : Draw) : WritesIn (Names (nodeWrites M p a)) (nodePass M p a d) := by
  have easy : ∀ x : DataFile, x.Plain → x ≠ .member (memberName M.env.keccak a) → x ≠ .vks →
      (∀ i, x ≠ .share i) → nodeWrites M p a x := fun x h0 h1 h2 h3 =>
    ⟨h0, fun h => absurd h h1, fun h => by
      rcases h with h | ⟨i, h⟩
      · exact absurd h h2
      · exact absurd h (h3 i)⟩
  unfold nodePass
  dsimp only
  split
  · split
    · split
      · rename_i hs
        refine writesIn_sending (WritesIn.bind (writesIn_exec ht hn d ?_) (fun _ =>
          WritesIn.bind (writesIn_readJson _) (fun _ => WritesIn.bind (writesIn_orThrow _) (fun _ => trivial))))
        rintro x rfl
        refine ⟨slash_memberName _ _, fun _ => by simpa using hs, fun h => ?_⟩
        rcases h with h | ⟨i, h⟩ <;> cases h
      · trivial
    · split
      · refine writesIn_sending (WritesIn.bind (writesIn_writeJson .memberKeys ?_ _) (fun _ =>
          WritesIn.bind (writesIn_orThrow _) (fun i => WritesIn.bind (writesIn_exec ht hn d ?_) (fun _ =>
          WritesIn.bind (writesIn_exec ht hn d ?_) (fun _ => WritesIn.bind (writesIn_readBytes _) (fun _ =>
          WritesIn.bind (writesIn_readJson _) (fun _ =>
          WritesIn.bind (writesIn_orThrow _) (fun _ => trivial))))))))
        · exact easy _ trivial (by simp) (by simp) (by simp)
        · rintro x (rfl | rfl)
          · exact easy _ trivial (by simp) (by simp) (by simp)
          · exact easy _ trivial (by simp) (by simp) (by simp)
        · rintro x h
          exact h.elim
      · trivial
    · split
      · refine writesIn_sending (WritesIn.bind ?_ (fun _ => WritesIn.bind (writesIn_orThrow _) (fun i =>
          WritesIn.bind (writesIn_exec ht hn d ?_) (fun _ => WritesIn.bind (writesIn_exec ht hn d ?_) (fun _ =>
          WritesIn.bind (writesIn_readJson _) (fun _ =>
          WritesIn.bind (writesIn_orThrow _) (fun _ => trivial)))))))
        · unfold deriveFirst
          split
          · rename_i h0
            refine WritesIn.bind (writesIn_writeJson .allInstances ?_ _) (fun _ =>
              WritesIn.bind (writesIn_orThrow _) (fun i => writesIn_exec ht hn d ?_))
            · exact easy _ trivial (by simp) (by simp) (by simp)
            · rintro x (rfl | rfl | rfl)
              · exact easy _ trivial (by simp) (by simp) (by simp)
              · exact ⟨trivial, by simp, fun _ => h0⟩
              · exact ⟨trivial, by simp, fun _ => h0⟩
          · trivial
        · rintro x rfl
          exact easy _ trivial (by simp) (by simp) (by simp)
        · rintro x h
          exact h.elim
      · trivial
    · trivial
  · trivial

/-- The files that a pass of the admin may write. -/
def adminWrites (p : State) (x : DataFile) : Prop := x.Plain ∧
  (x = .gpk ∨ x = .vks → p.contractPhase = .NidkgComplete)

theorem adminPass_writes {M : Machine} {p : State} (ht : p.threshold < 2 ^ 64) (hn : p.memberCount < 2 ^ 64)
    (d : Draw) (begun : Bool) : WritesIn (Names (adminWrites p)) (adminPass M p d begun) := by
  unfold adminPass
  split
  · trivial
  · rename_i h0
    refine writesIn_sending (WritesIn.bind (writesIn_writeJson .allInstances ?_ _) (fun _ =>
      WritesIn.bind (writesIn_exec ht hn d ?_) (fun _ => WritesIn.bind (writesIn_readJson _) (fun _ =>
      WritesIn.bind (writesIn_orThrow _) (fun _ => trivial)))))
    · exact ⟨trivial, fun _ => h0⟩
    · rintro x (rfl | rfl) <;> exact ⟨trivial, fun _ => h0⟩
  · split
    · trivial
    · split
      · trivial
      · split
        · refine writesIn_sending (WritesIn.bind (writesIn_writeJson .evals ?_ _) (fun _ =>
            WritesIn.bind (writesIn_exec ht hn d ?_) (fun _ => WritesIn.bind (writesIn_exec ht hn d ?_) (fun _ =>
            WritesIn.bind (writesIn_readJson _) (fun _ =>
            WritesIn.bind (writesIn_orThrow _) (fun _ => trivial))))))
          · exact ⟨trivial, by simp⟩
          · rintro x rfl
            exact ⟨trivial, by simp⟩
          · rintro x h
            exact h.elim
        · trivial
  · trivial

theorem load_same {α : Type} [Serde α] {d d' : Store} {x : DataFile} (h : d' x.name = d x.name) :
    (load d' x : Option α) = load d x := by
  unfold load
  rw [h]

theorem not_names {W : DataFile → Prop} (hW : ∀ x, W x → x.Plain) {x : DataFile} (hx : x.Plain) (h : ¬ W x) :
    ¬ Names W x.name := by
  rintro ⟨y, hy, e⟩
  exact h (DataFile.name_inj (hW y hy) hx e ▸ hy)

/-! ### Passes on values and passes on files -/

theorem run_seq {α β : Type} {P : Prog α} {f : α → Prog β} {d d' : Store} {a : α} (h : P.run d = (d', .ok a)) :
    (P.bind f).run d = (f a).run d' := by
  rw [run_bind, h]

theorem run_write {α β : Type} [Serde α] (x : DataFile) (v : α) (f : Unit → Prog β) (d : Store) :
    ((writeJson x.path v).bind f).run d = (f ()).run (save d x v) := rfl

theorem run_orThrow {α β : Type} {o : Option α} {a : α} (h : o = some a) (f : α → Prog β) (d : Store) :
    ((orThrow o).bind f).run d = (f a).run d := by
  subst h
  rfl

theorem run_json {α β : Type} [Serde α] (x : DataFile) {f : α → Prog β} {d : Store} {a : α}
    (h : load d x = some a) : ((readJson x.path).bind f).run d = (f a).run d := by
  cases hb : d x.name with
  | none => unfold load at h; rw [hb] at h; cases h
  | some bs =>
    unfold load at h
    rw [hb] at h
    rw [run_readJson_bind]
    show (match d x.name with
      | none => (d, Except.error Stop.io)
      | some bs => match Serde.ofFile bs with
        | none => (d, Except.error Stop.json)
        | some a => (f a).run d) = _
    rw [hb]
    dsimp only
    rw [show (Serde.ofFile bs : Option α) = some a from h]

theorem run_bytes {β : Type} (x : DataFile) {f : List Byte → Prog β} {d : Store} {bs : List Byte}
    (h : d x.name = some bs) : ((readBytes x.path).bind f).run d = (f bs).run d := by
  rw [run_readBytes_bind]
  show (match d x.name with
    | none => (d, Except.error Stop.io)
    | some bs => (f bs).run d) = _
  rw [h]

theorem register_run {M : Machine} (p : State) (a : Address) (d : Draw) {mpk : GrumpkinSol.Point} (s : Store)
    (h : Client.registration (Client.keygen d.sk) = some mpk) :
    (registerNode M p a d).run s = (save s (.member (memberName M.env.keccak a)) (Client.keygen d.sk),
      .ok (.registerNode mpk)) := by
  refine (run_seq (C89_keygen (tools M) (config p) (random d) _ s)).trans ?_
  refine (run_json (.member (memberName M.env.keccak a)) (load_save (good_member _ 125) s _)).trans ?_
  exact run_orThrow h _ _

theorem submitPP_run {M : Machine} {p : State} {a : Address} {d : Draw} (s : Store) {i : ℕ}
    {proof : List Byte} {file : List (List Char)} {pp : List Word} (hi : ZkdvrfPre.getIndexPlus p a = some i)
    (h1 : Client.prove M.prover M.infPanics (config p) i (Client.mpksFile p.pkList) d.stream = .ok (proof, file))
    (h2 : Client.dkgVerify M.verifier (config p) i proof file (Client.mpksFile p.pkList) = .ok ())
    (h3 : Client.ppSubmission file = some pp) :
    ∃ s', (submitPP M p a d).run s = (s', .ok (.submitPublicParams pp proof)) := by
  have hk : load (save s .memberKeys (Client.mpksFile p.pkList)) .memberKeys = some (Client.mpksFile p.pkList) :=
    load_save (good_points _ 125) s _
  have hp : (save (put (save s .memberKeys (Client.mpksFile p.pkList)) (DataFile.proof i).name proof)
      (.instance_ i) file) (DataFile.proof i).name = some proof := by
    unfold save
    rw [put_ne _ (fun e => by cases DataFile.name_inj (x := .proof i) (y := .instance_ i) trivial trivial e), put_eq]
  have hf : load (save (put (save s .memberKeys (Client.mpksFile p.pkList)) (DataFile.proof i).name proof)
      (.instance_ i) file) (.instance_ i) = some file := load_save (good_strs _ (by omega : 1 ≤ 127)) _ _
  have hm : load (save (put (save s .memberKeys (Client.mpksFile p.pkList)) (DataFile.proof i).name proof)
      (.instance_ i) file) .memberKeys = some (Client.mpksFile p.pkList) := by
    rw [load_save_ne (x := (.instance_ i)) (y := .memberKeys) _ _ trivial trivial (by simp)]
    refine (load_same ?_).trans hk
    exact put_ne _ (fun e => by cases DataFile.name_inj (x := .memberKeys) (y := .proof i) trivial trivial e) _
  refine ⟨save (put (save s .memberKeys (Client.mpksFile p.pkList)) (DataFile.proof i).name proof)
    (.instance_ i) file, (run_write .memberKeys _ _ s).trans ?_⟩
  refine (run_orThrow hi _ _).trans ?_
  refine (run_seq ((C89_prove (tools M) (config p) (random d) i _ _).2 ⟨_, _, _, hk, h1, rfl⟩)).trans ?_
  refine (run_seq ((C89_dkgVerify (tools M) (config p) (random d) i _ _).2
    ⟨rfl, _, _, _, hp, hf, hm, h2⟩)).trans ?_
  refine (run_bytes (.proof i) hp).trans ?_
  refine (run_json (.instance_ i) hf).trans ?_
  exact run_orThrow h3 _ _

theorem derive_share {cfg : DkgConfig} {instances : List (List (List Char))} {i : ℕ} {m : MemberKeySerde}
    {out : Client.DeriveOut} (h : Client.derive cfg instances (some (i, m)) = .ok out) :
    ∃ sh, out.share = some sh ∧ sh.index = i ∧ i ≤ cfg.numberOfMembers := by
  unfold Client.derive at h
  obtain ⟨_, -, h⟩ := bind_ok_iff.1 h
  obtain ⟨_, -, h⟩ := bind_ok_iff.1 h
  obtain ⟨_, -, h⟩ := bind_ok_iff.1 h
  dsimp only at h
  obtain ⟨_, -, h⟩ := bind_ok_iff.1 h
  obtain ⟨_, -, h⟩ := bind_ok_iff.1 h
  obtain ⟨share, h1, h⟩ := bind_ok_iff.1 h
  obtain ⟨_, -, h⟩ := bind_ok_iff.1 h
  cases h
  obtain ⟨h2, -, h3⟩ := dkgShareKey_index (lift_ok_iff.1 h1)
  exact ⟨_, rfl, h2, h3⟩

theorem good_instances (l : List (List Word)) : Good 128 (Client.instancesFile l) :=
  good_list (by omega : 1 ≤ 127) (fun _ _ => good_strs _ (by omega : 1 ≤ 126))

theorem derive_run {M : Machine} {p : State} (hn : p.memberCount < 2 ^ 64) {a : Address} {d : Draw} {s : Store}
    {i : ℕ} {m : MemberKeySerde} {out : Client.DeriveOut} (hi : ZkdvrfPre.getIndexPlus p a = some i)
    (h1 : load s (.member (memberName M.env.keccak a)) = some m)
    (h2 : Client.derive (config p) (Client.instancesFile p.ppList) (some (i, m)) = .ok out) :
    ∃ s', (nidkgDerive M p a d).run s = (s', .ok ()) ∧ load s' .vks = some out.vks ∧
      load s' (.share i) = out.share ∧
      (load s' (.member (memberName M.env.keccak a)) : Option MemberKeySerde) = some m := by
  obtain ⟨sh, e1, e2, e3⟩ := derive_share h2
  have hpl : (DataFile.member (memberName M.env.keccak a)).Plain := slash_memberName _ _
  have hg : Good 128 sh := good_share (by rw [e2]; exact lt_of_le_of_lt e3 hn) 125
  have hm := (load_save_ne (β := MemberKeySerde) (Client.instancesFile p.ppList) s (x := .allInstances)
    trivial hpl (by simp)).trans h1
  refine ⟨saveDerived (save s .allInstances (Client.instancesFile p.ppList)) (some i) out, ?_, ?_, ?_, ?_⟩
  · refine (run_write .allInstances _ _ s).trans ?_
    refine (run_orThrow hi _ _).trans ?_
    exact (C89_derive (tools M) (config p) (random d) (some i) _ (slash_memberName _ _) _ _).2
      ⟨_, m, out, load_save (good_instances _) _ _, fun _ _ => hm, h2, rfl⟩
  · unfold saveDerived
    rw [e1]
    dsimp only
    rw [load_save_ne (x := (.share i)) (y := .vks) _ _ trivial trivial (by simp), load_save (good_points _ 125)]
  · unfold saveDerived
    rw [e1]
    dsimp only
    rw [load_save hg]
  · unfold saveDerived
    rw [e1]
    dsimp only
    rw [load_save_ne (x := .share i) _ _ trivial hpl (by simp), load_save_ne (x := .vks) _ _ trivial hpl (by simp),
      load_save_ne (x := .gpk) _ _ trivial hpl (by simp), hm]

theorem eval_run {M : Machine} {p : State} {a : Address} {d : Draw} {s : Store} {i : ℕ} {sh : ShareKeySerde}
    {vks : List PointSerde} {e : PartialEvalSerde} {w : SolEval} (hi : ZkdvrfPre.getIndexPlus p a = some i)
    (h1 : load s (.share i) = some sh) (h2 : load s .vks = some vks)
    (h3 : Client.eval M.env.keccak (evalHash M.env.keccak) (config p) i sh (p.roundInput p.currentRoundNum)
      d.nonce = .ok e)
    (h4 : Client.verifyEval M.env.keccak (evalHash M.env.keccak) (config p) i e vks
      (p.roundInput p.currentRoundNum) = .ok ())
    (h5 : Client.evalSubmission e = some w) :
    (submitPartialEval M p a d).run s = (save s (.eval i) e, .ok (.submitPartialEval w)) := by
  have hg : Good 128 e := by
    unfold Client.eval at h3
    obtain ⟨_, -, h⟩ := bind_ok_iff.1 h3
    obtain ⟨k, h6, h⟩ := bind_ok_iff.1 h
    cases h
    refine good_eval ?_ 125
    show k.index < 2 ^ 64
    rw [share_read_index (lift_ok_iff.1 h6)]
    exact load_share_index h1
  have he : load (save s (.eval i) e) (.eval i) = some e := load_save hg _ _
  have hv : load (save s (.eval i) e) .vks = some vks := by
    rw [load_save_ne (x := (.eval i)) (y := .vks) _ _ trivial trivial (by simp), h2]
  refine (run_orThrow hi _ _).trans ?_
  refine (run_seq ((C89_eval (tools M) (config p) (random d) i _ _ _).2 ⟨sh, e, h1, h3, rfl⟩)).trans ?_
  refine (run_seq ((C89_verifyEval (tools M) (config p) (random d) i _ _ _).2 ⟨rfl, e, vks, he, hv, h4⟩)).trans ?_
  refine (run_json (.eval i) he).trans ?_
  exact run_orThrow h5 _ _

theorem gpp_run {M : Machine} {p : State} (d : Draw) (s : Store) {out : Client.DeriveOut} {g : SolG2}
    (h1 : Client.derive (config p) (Client.instancesFile p.ppList) none = .ok out)
    (h2 : Client.gpkSubmission out.gpk = some g) :
    ∃ s', (createGpp M p d).run s = (s', .ok (.computeVk g)) ∧ load s' .gpk = some out.gpk ∧
      load s' .vks = some out.vks := by
  let s1 := save s .allInstances (Client.instancesFile p.ppList)
  have hg : load (save (save s1 .gpk out.gpk) .vks out.vks) .gpk = some out.gpk := by
    rw [load_save_ne (x := .vks) (y := .gpk) _ _ trivial trivial (by simp), load_save (good_point2 _ 125)]
  refine ⟨save (save s1 .gpk out.gpk) .vks out.vks, ?_, hg, load_save (good_points _ 125) _ _⟩
  refine (run_write .allInstances _ _ s).trans ?_
  refine (run_seq (d' := save (save s1 .gpk out.gpk) .vks out.vks) ((C89_derive (tools M) (config p) (random d)
    none _ (by decide) _ _).2 ⟨_, Client.keygen 0, out, load_save (good_instances _) _ _,
      fun _ h => (Option.some_ne_none _ h.symm).elim, h1, rfl⟩)).trans ?_
  refine (run_json .gpk hg).trans ?_
  exact run_orThrow h2 _ _

theorem random_run {M : Machine} {p : State} (d : Draw) (s : Store) {gpk : Point2Serde} {vks : List PointSerde}
    {out : PseudoRandomSerde} {rnd : SolRandom}
    (hidx : ∀ i, (p.roundToEval p.currentRoundNum i).indexPlus < 2 ^ 64)
    (h1 : load s .gpk = some gpk) (h2 : load s .vks = some vks)
    (h3 : Client.combine M.env.E M.env.keccak (evalHash M.env.keccak) (config p)
      (Client.evalsFile p.memberCount (p.roundToEval p.currentRoundNum)) gpk vks
      (p.roundInput p.currentRoundNum) false = .ok out)
    (h4 : Client.verifyFinal M.env.E M.env.keccak (evalHash M.env.keccak) out gpk
      (p.roundInput p.currentRoundNum) = .ok ())
    (h5 : Client.submission out = some rnd) :
    ∃ s', (createRandom M p d).run s = (s', .ok (.submitRandom rnd)) := by
  let evals := Client.evalsFile p.memberCount (p.roundToEval p.currentRoundNum)
  have hg : Good 128 evals := by
    refine good_list (by omega : 1 ≤ 127) (fun e he => good_eval ?_ 124)
    obtain ⟨x, hx, rfl⟩ := List.mem_map.1 he
    obtain ⟨i, -, rfl⟩ := List.mem_map.1 (List.mem_filter.1 hx).1
    exact hidx i
  let s1 := save s .evals evals
  let s2 := save s1 .pseudo out
  have hp : load s2 .pseudo = some out := load_save (good_pseudo _ 125) _ _
  have hk1 : load s1 .gpk = some gpk := by rw [load_save_ne (x := .evals) (y := .gpk) _ _ trivial trivial (by simp), h1]
  have hk2 : load s2 .gpk = some gpk := by rw [load_save_ne (x := .pseudo) (y := .gpk) _ _ trivial trivial (by simp), hk1]
  have hv1 : load s1 .vks = some vks := by rw [load_save_ne (x := .evals) (y := .vks) _ _ trivial trivial (by simp), h2]
  refine ⟨s2, (run_write .evals _ _ s).trans ?_⟩
  refine (run_seq (d' := s2) ((C89_combine (tools M) (config p) (random d) _ false _ _).2
    ⟨evals, gpk, vks, out, load_save hg _ _, hk1, fun _ => hv1, h3, rfl⟩)).trans ?_
  refine (run_seq (d' := s2) ((C89_verifyFinal (tools M) (config p) (random d) _ _ _).2
    ⟨rfl, out, gpk, hp, hk2, h4⟩)).trans ?_
  refine (run_json .pseudo hp).trans ?_
  exact run_orThrow h5 _ _

theorem sending_run {P : Prog Call} {s s' : Store} {c : Call} (h : P.run s = (s', .ok c)) :
    (sending P).run s = (s', .ok (some c)) := run_seq h

end Verif.ServicesFiles
