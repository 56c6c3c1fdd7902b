import Verif.Lemmas.Disk

/-! Programs that do the same as others but may fail earlier. -/

namespace Verif.Disk.Prog

/-- `P` does what `P'` does, but may end with an error where `P'` goes on. -/
inductive Early {α : Type} : Prog α → Prog α → Prop
  | fail (e : Stop) (P' : Prog α) : Early (.done (.error e)) P'
  | done (res : Except Stop α) : Early (.done res) (.done res)
  | read {n : Name} {next next' : Option (List Byte) → Prog α} (h : ∀ b, Early (next b) (next' b)) :
      Early (.read n next) (.read n next')
  | write {n : Name} {bytes : List Byte} {next next' : Prog α} (h : Early next next') :
      Early (.write n bytes next) (.write n bytes next')

variable {α β : Type}

theorem Early.refl : ∀ P : Prog α, Early P P
  | .done res => .done res
  | .read _ next => .read (fun b => Early.refl (next b))
  | .write _ _ next => .write (Early.refl next)

theorem Early.bind {P P' : Prog α} {f f' : α → Prog β} (h : Early P P') (hf : ∀ a, Early (f a) (f' a)) :
    Early (P.bind f) (P'.bind f') := by
  induction h with
  | fail e P' => exact .fail e _
  | done res =>
    cases res with
    | ok a => exact hf a
    | error e => exact .fail e _
  | read _ ih => exact .read ih
  | write _ ih => exact .write ih

theorem Early.seq (P : Prog α) {f f' : α → Prog β} (hf : ∀ a, Early (f a) (f' a)) : Early (P.bind f) (P.bind f') :=
  Early.bind (.refl P) hf

theorem Early.stopped {P P' : Prog α} (h : Early P P') {d d' : Store} (hs : Stopped P d d') : Stopped P' d d' := by
  induction hs generalizing P' with
  | here P d => exact .here _ _
  | read _ ih =>
    cases h with
    | read h => exact .read (ih (h _))
  | torn hp =>
    cases h with
    | write h => exact .torn hp
  | write _ ih =>
    cases h with
    | write h => exact .write (ih h)

theorem stopped_run (P : Prog α) (d : Store) : Stopped P d (P.run d).1 := by
  induction P generalizing d with
  | done res => exact .here _ _
  | read n next ih => exact .read (ih _ _)
  | write n bytes next ih => exact .write (ih _)

theorem Early.run {P P' : Prog α} (h : Early P P') (d : Store) :
    P.run d = P'.run d ∨ ∃ e, (P.run d).2 = .error e := by
  induction h generalizing d with
  | fail e P' => exact Or.inr ⟨e, rfl⟩
  | done res => exact Or.inl rfl
  | read _ ih => exact ih _ _
  | write _ ih => exact ih _

end Verif.Disk.Prog
