import Verif.Model.Lottery

/-! Vocabulary for statements about the lottery. -/

namespace Verif.Lottery

/-- Sum of the amounts in a list of ether movements. -/
def total (l : List (Address × ℕ)) : ℕ := (l.map Prod.snd).sum

/-- The round whose random decides the lottery has been opened. -/
def RoundOpened (w : World) : Prop := w.lot.randRoundNum ≤ w.zk.currentRoundNum

end Verif.Lottery

namespace Verif.Spec

/-- All sequences of swap partners for `n` positions: the `i`-th is at most `i`. -/
def SwapChoices (n : ℕ) : Type := (i : Fin n) → Fin (i.val + 1)

/-- The choice function behind a sequence of swap partners. -/
def SwapChoices.toFun {n : ℕ} (c : SwapChoices n) (i : ℕ) : ℕ := if h : i < n then (c ⟨i, h⟩).val else 0

end Verif.Spec
