import Verif.Model.Disk

/-! Lemmas on programs that read and write files. -/

namespace Verif.Disk

namespace Prog

variable {α β : Type}

theorem bind_eq (P : Prog α) (f : α → Prog β) : (P >>= f) = P.bind f := rfl

theorem pure_eq (a : α) : (pure a : Prog α) = done (.ok a) := rfl

theorem bind_assoc {γ : Type} (P : Prog α) (f : α → Prog β) (g : β → Prog γ) :
    (P.bind f).bind g = P.bind (fun a => (f a).bind g) := by
  induction P with
  | done res => cases res <;> rfl
  | read n next ih =>
    simp only [bind]
    congr 1
    funext b
    exact ih b
  | write n bytes next ih =>
    simp only [bind, ih]

/-- What a sequence does. -/
theorem run_bind (P : Prog α) (f : α → Prog β) (d : Store) : (P.bind f).run d =
    match P.run d with
    | (d', .ok a) => (f a).run d'
    | (d', .error e) => (d', .error e) := by
  induction P generalizing d with
  | done res => cases res <;> rfl
  | read n next ih => exact ih (d n) d
  | write n bytes next ih => exact ih (put d n bytes)

/-- All writes are to these files. -/
def WritesIn (W : Name → Prop) : Prog α → Prop
  | done _ => True
  | read _ next => ∀ b, WritesIn W (next b)
  | write n _ next => W n ∧ WritesIn W next

/-- All reads are from these files. -/
def ReadsIn (R : Name → Prop) : Prog α → Prop
  | done _ => True
  | read n next => R n ∧ ∀ b, ReadsIn R (next b)
  | write _ _ next => ReadsIn R next

/-- Every successful run writes the file. -/
def AlwaysWrites (n : Name) : Prog α → Prop
  | done (.ok _) => False
  | done (.error _) => True
  | read _ next => ∀ b, AlwaysWrites n (next b)
  | write m _ next => m = n ∨ AlwaysWrites n next

/-- No file is written twice. -/
def Once : Prog α → Prop
  | done _ => True
  | read _ next => ∀ b, Once (next b)
  | write n _ next => WritesIn (· ≠ n) next ∧ Once next

/-- Every file that is written satisfies `J`. -/
def Contents (J : Name → List Byte → Prop) : Prog α → Prop
  | done _ => True
  | read _ next => ∀ b, Contents J (next b)
  | write n bytes next => J n bytes ∧ Contents J next

theorem WritesIn.mono {W W' : Name → Prop} (h : ∀ n, W n → W' n) {P : Prog α} (hP : WritesIn W P) :
    WritesIn W' P := by
  induction P with
  | done res => trivial
  | read n next ih => exact fun b => ih b (hP b)
  | write n bytes next ih => exact ⟨h n hP.1, ih hP.2⟩

theorem WritesIn.bind {W : Name → Prop} {P : Prog α} {f : α → Prog β} (hP : WritesIn W P)
    (hf : ∀ a, WritesIn W (f a)) : WritesIn W (P.bind f) := by
  induction P with
  | done res =>
    cases res with
    | ok a => exact hf a
    | error e => trivial
  | read n next ih => exact fun b => ih b (hP b)
  | write n bytes next ih => exact ⟨hP.1, ih hP.2⟩

theorem ReadsIn.bind {R : Name → Prop} {P : Prog α} {f : α → Prog β} (hP : ReadsIn R P)
    (hf : ∀ a, ReadsIn R (f a)) : ReadsIn R (P.bind f) := by
  induction P with
  | done res =>
    cases res with
    | ok a => exact hf a
    | error e => trivial
  | read n next ih => exact ⟨hP.1, fun b => ih b (hP.2 b)⟩
  | write n bytes next ih => exact ih hP

theorem ReadsIn.mono {R R' : Name → Prop} (h : ∀ n, R n → R' n) {P : Prog α} (hP : ReadsIn R P) :
    ReadsIn R' P := by
  induction P with
  | done res => trivial
  | read n next ih => exact ⟨h n hP.1, fun b => ih b (hP.2 b)⟩
  | write n bytes next ih => exact ih hP

theorem Contents.bind {J : Name → List Byte → Prop} {P : Prog α} {f : α → Prog β} (hP : Contents J P)
    (hf : ∀ a, Contents J (f a)) : Contents J (P.bind f) := by
  induction P with
  | done res =>
    cases res with
    | ok a => exact hf a
    | error e => trivial
  | read n next ih => exact fun b => ih b (hP b)
  | write n bytes next ih => exact ⟨hP.1, ih hP.2⟩

theorem AlwaysWrites.bind_left {n : Name} {P : Prog α} {f : α → Prog β} (hP : AlwaysWrites n P) :
    AlwaysWrites n (P.bind f) := by
  induction P with
  | done res =>
    cases res with
    | ok a => exact hP.elim
    | error e => trivial
  | read m next ih => exact fun b => ih b (hP b)
  | write m bytes next ih => exact hP.imp id ih

theorem AlwaysWrites.bind_right {n : Name} {P : Prog α} {f : α → Prog β} (hf : ∀ a, AlwaysWrites n (f a)) :
    AlwaysWrites n (P.bind f) := by
  induction P with
  | done res =>
    cases res with
    | ok a => exact hf a
    | error e => trivial
  | read m next ih => exact fun b => ih b
  | write m bytes next ih => exact Or.inr ih

theorem put_ne (d : Store) {n m : Name} (h : n ≠ m) (b : List Byte) : put d m b n = d n :=
  Function.update_of_ne h _ _

theorem put_eq (d : Store) (n : Name) (b : List Byte) : put d n b n = some b := Function.update_self _ _ _

/-- Other files do not change. -/
theorem run_other {W : Name → Prop} {P : Prog α} (hP : WritesIn W P) (d : Store) {n : Name} (hn : ¬ W n) :
    (P.run d).1 n = d n := by
  induction P generalizing d with
  | done res => rfl
  | read m next ih => exact ih (d m) (hP (d m)) d
  | write m bytes next ih =>
    have := ih hP.2 (put d m bytes)
    rw [put_ne d (by rintro rfl; exact hn hP.1)] at this
    exact this

/-- Other files do not change, wherever the program is stopped. -/
theorem stopped_other {W : Name → Prop} {P : Prog α} (hP : WritesIn W P) {d d' : Store} (h : Stopped P d d')
    {n : Name} (hn : ¬ W n) : d' n = d n := by
  induction h with
  | here => rfl
  | read _ ih => exact ih (hP _)
  | torn _ => exact put_ne _ (by rintro rfl; exact hn hP.1) _
  | write _ ih =>
    rw [ih hP.2]
    exact put_ne _ (by rintro rfl; exact hn hP.1) _

/-- A run is determined by the files that are read. -/
theorem run_congr {R W : Name → Prop} (hRW : ∀ n, R n → ¬ W n) {P : Prog α} (hr : ReadsIn R P)
    (hw : WritesIn W P) {d e : Store} (h : ∀ n, R n → d n = e n) :
    (P.run d).2 = (P.run e).2 ∧ ∀ n, (P.run d).1 n = (P.run e).1 n ∨
      ((P.run d).1 n = d n ∧ (P.run e).1 n = e n) := by
  induction P generalizing d e with
  | done res => exact ⟨rfl, fun n => Or.inr ⟨rfl, rfl⟩⟩
  | read m next ih =>
    have hm := h m hr.1
    have := ih (d m) (hr.2 _) (hw _) h
    simp only [run]
    rw [← hm]
    exact this
  | write m bytes next ih =>
    have h' : ∀ n, R n → put d m bytes n = put e m bytes n := by
      intro n hn
      have hne : n ≠ m := by rintro rfl; exact hRW n hn hw.1
      rw [put_ne d hne, put_ne e hne]
      exact h n hn
    obtain ⟨h1, h2⟩ := ih hr hw.2 h'
    refine ⟨h1, fun n => ?_⟩
    simp only [run]
    rcases h2 n with h3 | ⟨h3, h4⟩
    · exact Or.inl h3
    · by_cases hne : n = m
      · subst hne
        left
        rw [h3, h4, put_eq, put_eq]
      · right
        rw [h3, h4, put_ne d hne, put_ne e hne]
        exact ⟨rfl, rfl⟩

/-- A file that every successful run writes has the same contents after it. -/
theorem run_congr_written {R W : Name → Prop} (hRW : ∀ n, R n → ¬ W n) {P : Prog α} (hr : ReadsIn R P)
    (hw : WritesIn W P) {d e : Store} (h : ∀ n, R n → d n = e n) {a : α} (ha : (P.run d).2 = .ok a)
    {n : Name} (hn : AlwaysWrites n P) : (P.run d).1 n = (P.run e).1 n := by
  induction P generalizing d e with
  | done res =>
    simp only [run] at ha
    subst ha
    exact hn.elim
  | read m next ih =>
    have hm := h m hr.1
    have := ih (d m) (hr.2 _) (hw _) h ha (hn _)
    simp only [run]
    rw [← hm]
    exact this
  | write m bytes next ih =>
    have h' : ∀ n, R n → put d m bytes n = put e m bytes n := by
      intro k hk
      have hne : k ≠ m := by rintro rfl; exact hRW k hk hw.1
      rw [put_ne d hne, put_ne e hne]
      exact h k hk
    simp only [run] at ha ⊢
    rcases hn with rfl | hn
    · rcases (run_congr (P := next) hRW hr hw.2 h').2 m with h3 | ⟨h3, h4⟩
      · exact h3
      · rw [h3, h4, put_eq, put_eq]
    · exact ih hr hw.2 h' ha hn

/-- Wherever the program is stopped, a file is as before, as after the program, or the beginning of
what the program writes. -/
theorem stopped_file {J : Name → List Byte → Prop} {P : Prog α} (hO : Once P) (hJ : Contents J P)
    {d d' : Store} (h : Stopped P d d') (n : Name) : d' n = d n ∨ d' n = (P.run d).1 n ∨
      ∃ part rest, rest ≠ [] ∧ d' n = some part ∧ (P.run d).1 n = some (part ++ rest) ∧ J n (part ++ rest) := by
  induction h with
  | here => exact Or.inl rfl
  | read _ ih => exact ih (hO _) (hJ _)
  | @torn m bytes part next d hp =>
    by_cases hne : n = m
    · subst hne
      obtain ⟨rest, hrest⟩ := hp
      have hfin : (next.run (put d n bytes)).1 n = some bytes := by
        rw [run_other hO.1 _ (by simp), put_eq]
      by_cases hr : rest = []
      · subst hr
        rw [List.append_nil] at hrest
        subst hrest
        right; left
        rw [put_eq]
        exact hfin.symm
      · refine Or.inr (Or.inr ⟨part, rest, hr, put_eq _ _ _, ?_, ?_⟩)
        · rw [hrest]
          exact hfin
        · rw [hrest]
          exact hJ.1
    · exact Or.inl (put_ne _ hne _)
  | @write m bytes next d d' _ ih =>
    rcases ih hO.2 hJ.2 with h | h | h
    · by_cases hne : n = m
      · subst hne
        right; left
        rw [h, put_eq]
        show some bytes = (next.run (put d n bytes)).1 n
        rw [run_other hO.1 _ (by simp), put_eq]
      · left
        rw [h]
        exact put_ne _ hne _
    · exact Or.inr (Or.inl h)
    · exact Or.inr (Or.inr h)

/-! Building blocks -/

theorem writesIn_client {W : Name → Prop} (a : Except Client.CliFail α) : WritesIn W (client a) := by
  cases a <;> trivial

theorem readsIn_client {W : Name → Prop} (a : Except Client.CliFail α) : ReadsIn W (client a) := by
  cases a <;> trivial

theorem contents_client {J : Name → List Byte → Prop} (a : Except Client.CliFail α) :
    Contents J (client a) := by
  cases a <;> trivial

theorem writesIn_readJson {W : Name → Prop} [Serde α] (p : List Char) :
    WritesIn W (readJson p : Prog α) := by
  intro b
  cases b with
  | none => trivial
  | some bs =>
    dsimp only
    split <;> trivial

theorem readsIn_readJson {R : Name → Prop} [Serde α] {p : List Char} (h : R (resolve p)) :
    ReadsIn R (readJson p : Prog α) := by
  refine ⟨h, fun b => ?_⟩
  cases b with
  | none => trivial
  | some bs =>
    dsimp only
    split <;> trivial

theorem contents_readJson {J : Name → List Byte → Prop} [Serde α] (p : List Char) :
    Contents J (readJson p : Prog α) := by
  intro b
  cases b with
  | none => trivial
  | some bs =>
    dsimp only
    split <;> trivial

theorem writesIn_readBytes {W : Name → Prop} (p : List Char) : WritesIn W (readBytes p) := by
  intro b
  cases b <;> trivial

theorem readsIn_readBytes {R : Name → Prop} {p : List Char} (h : R (resolve p)) : ReadsIn R (readBytes p) := by
  refine ⟨h, fun b => ?_⟩
  cases b <;> trivial

theorem contents_readBytes {J : Name → List Byte → Prop} (p : List Char) : Contents J (readBytes p) := by
  intro b
  cases b <;> trivial

/-! Running the building blocks -/

theorem run_client_bind (a : Except Client.CliFail α) (f : α → Prog β) (d : Store) :
    ((client a).bind f).run d =
      match a with
      | .ok a => (f a).run d
      | .error e => (d, .error (.cli e)) := by
  cases a <;> rfl

theorem run_readJson_bind [Serde α] (p : List Char) (f : α → Prog β) (d : Store) :
    ((readJson p).bind f).run d =
      match d (resolve p) with
      | none => (d, .error .io)
      | some bs => match Serde.ofFile bs with
        | none => (d, .error .json)
        | some a => (f a).run d := by
  show (Prog.bind (match d (resolve p) with
    | none => fail .io
    | some bs => match Serde.ofFile bs with
      | none => fail .json
      | some a => done (.ok a)) f).run d = _
  cases d (resolve p) with
  | none => rfl
  | some bs =>
    dsimp only
    cases (Serde.ofFile bs : Option α) <;> rfl

theorem run_readBytes_bind (p : List Char) (f : List Byte → Prog β) (d : Store) :
    ((readBytes p).bind f).run d =
      match d (resolve p) with
      | none => (d, .error .io)
      | some bs => (f bs).run d := by
  show (Prog.bind (match d (resolve p) with
    | none => fail .io
    | some bs => done (.ok bs)) f).run d = _
  cases d (resolve p) <;> rfl

theorem run_write_bind (p : List Char) (bs : List Byte) (f : Unit → Prog β) (d : Store) :
    ((writeBytes p bs).bind f).run d = (f ()).run (put d (resolve p) bs) := rfl

end Prog

end Verif.Disk
