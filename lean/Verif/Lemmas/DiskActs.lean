import Verif.Lemmas.Disk

/-! What a program does to the files: which it reads, which it writes, each once, and with what result. -/

namespace Verif.Disk.Prog

variable {α β : Type}

/-- All reads are from `R`; the files `S` are each written once by a successful run, at most once by any
run, and nothing else is; all that is written satisfies `J`; results satisfy `Q`. -/
def Acts (R : Name → Prop) (J : Name → List Byte → Prop) (Q : α → Prop) : (Name → Prop) → Prog α → Prop
  | S, done (.ok a) => (∀ n, ¬ S n) ∧ Q a
  | _, done (.error _) => True
  | S, read n next => R n ∧ ∀ b, Acts R J Q S (next b)
  | S, write n bytes next => S n ∧ J n bytes ∧ Acts R J Q (fun m => S m ∧ m ≠ n) next

variable {R : Name → Prop} {J : Name → List Byte → Prop} {Q : α → Prop} {S : Name → Prop}

theorem Acts.congr {P : Prog α} (h : Acts R J Q S P) {S' : Name → Prop} (hS : ∀ n, S n ↔ S' n) :
    Acts R J Q S' P := by
  have : S = S' := funext (fun n => propext (hS n))
  exact this ▸ h

theorem Acts.imp {P : Prog α} (h : Acts R J Q S P) {Q' : α → Prop} (hQ : ∀ a, Q a → Q' a) :
    Acts R J Q' S P := by
  induction P generalizing S with
  | done res =>
    cases res with
    | ok a => exact ⟨h.1, hQ a h.2⟩
    | error e => trivial
  | read n next ih => exact ⟨h.1, fun b => ih b (h.2 b)⟩
  | write n bytes next ih => exact ⟨h.1, h.2.1, ih h.2.2⟩

theorem Acts.bind {S' : Name → Prop} {Q' : β → Prop} {P : Prog α} {f : α → Prog β} (hP : Acts R J Q S P)
    (hf : ∀ a, Q a → Acts R J Q' S' (f a)) (hd : ∀ n, S n → ¬ S' n) :
    Acts R J Q' (fun n => S n ∨ S' n) (P.bind f) := by
  induction P generalizing S with
  | done res =>
    cases res with
    | ok a =>
      refine (hf a hP.2).congr (fun n => ?_)
      have := hP.1 n
      simp [this]
    | error e => trivial
  | read n next ih => exact ⟨hP.1, fun b => ih b (hP.2 b) hd⟩
  | write n bytes next ih =>
    refine ⟨Or.inl hP.1, hP.2.1, ?_⟩
    refine (ih hP.2.2 (fun m hm => hd m hm.1)).congr (fun m => ?_)
    constructor
    · rintro (⟨h1, h2⟩ | h)
      · exact ⟨Or.inl h1, h2⟩
      · exact ⟨Or.inr h, by rintro rfl; exact hd m hP.1 h⟩
    · rintro ⟨h | h, h2⟩
      · exact Or.inl ⟨h, h2⟩
      · exact Or.inr h

/-- A program that writes nothing, followed by another. -/
theorem Acts.then {Q' : β → Prop} {P : Prog α} {f : α → Prog β} (hP : Acts R J Q (fun _ => False) P)
    (hf : ∀ a, Q a → Acts R J Q' S (f a)) : Acts R J Q' S (P.bind f) :=
  (hP.bind hf (fun _ h => h.elim)).congr (fun n => by simp)

theorem acts_fail (e : Stop) : Acts R J Q S (fail e : Prog α) := trivial

theorem acts_pure {a : α} (h : Q a) : Acts R J Q (fun _ => False) (done (.ok a)) := ⟨fun _ h => h, h⟩

theorem acts_client (x : Except Client.CliFail α) :
    Acts R J (fun a => x = .ok a) (fun _ => False) (client x) := by
  cases x with
  | ok a => exact ⟨fun _ h => h, rfl⟩
  | error e => trivial

theorem acts_lib (x : Res α) : Acts R J (fun a => x = .ok a) (fun _ => False) (lib x) := by
  cases x with
  | ok a => exact ⟨fun _ h => h, rfl⟩
  | error e => trivial

theorem acts_readJson [Serde α] {p : List Char} (h : R (resolve p)) :
    Acts R J (fun a : α => ∃ bs, Serde.ofFile bs = some a) (fun _ => False) (readJson p) := by
  refine ⟨h, fun b => ?_⟩
  cases b with
  | none => trivial
  | some bs =>
    dsimp only
    cases hb : (Serde.ofFile bs : Option α) with
    | none => trivial
    | some a => exact ⟨fun _ h => h, bs, hb⟩

theorem acts_readBytes {p : List Char} (h : R (resolve p)) :
    Acts R J (fun _ => True) (fun _ => False) (readBytes p) := by
  refine ⟨h, fun b => ?_⟩
  cases b with
  | none => trivial
  | some bs => exact ⟨fun _ h => h, trivial⟩

theorem acts_write {n : Name} {p : List Char} {bs : List Byte} (hn : resolve p = n) (h : J n bs) :
    Acts R J (fun _ => True) (fun m => m = n) (writeBytes p bs) := by
  refine ⟨hn, by rw [hn]; exact h, ?_, trivial⟩
  rintro m ⟨h1, h2⟩
  exact h2 (h1.trans hn.symm)

theorem acts_each {f : α → Prog β} {N : α → Name → Prop} {Q : β → Prop} : ∀ {l : List α},
    (∀ a ∈ l, Acts R J Q (N a) (f a)) → l.Pairwise (fun a b => ∀ n, N a n → ¬ N b n) →
      Acts R J (fun bs => ∀ b ∈ bs, Q b) (fun n => ∃ a ∈ l, N a n) (each f l)
  | [], _, _ => ⟨by simp, by simp⟩
  | a :: l, h, hp => by
    rw [List.pairwise_cons] at hp
    have ih := acts_each (fun b hb => h b (List.mem_cons_of_mem _ hb)) hp.2
    have h1 : Acts R J (fun bs => ∀ b ∈ bs, Q b) (fun n => N a n ∨ ∃ b ∈ l, N b n) (each f (a :: l)) := by
      refine Acts.bind (h a (by simp)) (S' := fun n => ∃ b ∈ l, N b n) (fun b hb => ?_) ?_
      · refine (Acts.bind ih (S' := fun _ => False) (Q' := fun bs => ∀ b ∈ bs, Q b) (fun bs hbs =>
          acts_pure ?_) (fun _ _ h => h)).congr (fun n => by simp)
        intro c hc
        rw [List.mem_cons] at hc
        rcases hc with rfl | hc
        · exact hb
        · exact hbs c hc
      · rintro n hn ⟨b, hb, hb'⟩
        exact hp.1 b hb n hn hb'
    exact h1.congr (fun n => by simp)

theorem Acts.writesIn {P : Prog α} (h : Acts R J Q S P) : WritesIn S P := by
  induction P generalizing S with
  | done res => trivial
  | read n next ih => exact fun b => ih b (h.2 b)
  | write n bytes next ih => exact ⟨h.1, (ih h.2.2).mono (fun m hm => hm.1)⟩

theorem Acts.readsIn {P : Prog α} (h : Acts R J Q S P) : ReadsIn R P := by
  induction P generalizing S with
  | done res => trivial
  | read n next ih => exact ⟨h.1, fun b => ih b (h.2 b)⟩
  | write n bytes next ih => exact ih h.2.2

theorem Acts.contents {P : Prog α} (h : Acts R J Q S P) : Contents J P := by
  induction P generalizing S with
  | done res => trivial
  | read n next ih => exact fun b => ih b (h.2 b)
  | write n bytes next ih => exact ⟨h.2.1, ih h.2.2⟩

theorem Acts.once {P : Prog α} (h : Acts R J Q S P) : Once P := by
  induction P generalizing S with
  | done res => trivial
  | read n next ih => exact fun b => ih b (h.2 b)
  | write n bytes next ih => exact ⟨h.2.2.writesIn.mono (fun m hm => hm.2), ih h.2.2⟩

theorem Acts.always {P : Prog α} (h : Acts R J Q S P) {n : Name} (hn : S n) : AlwaysWrites n P := by
  induction P generalizing S with
  | done res =>
    cases res with
    | ok a => exact h.1 n hn
    | error e => trivial
  | read m next ih => exact fun b => ih b (h.2 b) hn
  | write m bytes next ih =>
    by_cases e : m = n
    · exact Or.inl e
    · exact Or.inr (ih h.2.2 ⟨hn, fun e' => e e'.symm⟩)

/-- A successful run leaves in every file of `S` something that satisfies `J`. -/
theorem Acts.run_contents {P : Prog α} (h : Acts R J Q S P) {d : Store} {a : α} (ha : (P.run d).2 = .ok a)
    {n : Name} (hn : S n) : ∃ bs, (P.run d).1 n = some bs ∧ J n bs := by
  induction P generalizing S d with
  | done res =>
    cases res with
    | ok a => exact (h.1 n hn).elim
    | error e => cases ha
  | read m next ih => exact ih _ (h.2 _) ha hn
  | write m bytes next ih =>
    by_cases e : n = m
    · subst e
      refine ⟨bytes, ?_, h.2.1⟩
      show (next.run (put d n bytes)).1 n = some bytes
      rw [run_other (h.2.2.writesIn) _ (by simp), put_eq]
    · exact ih h.2.2 ha ⟨hn, e⟩

end Verif.Disk.Prog
