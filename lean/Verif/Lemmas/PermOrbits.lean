import Mathlib.Data.ZMod.Basic
import Mathlib.Logic.Equiv.Basic
import Mathlib.GroupTheory.Perm.Cycle.Basic

/-! Every equivalence relation on a finite set is that of the cycles of a permutation. -/

namespace Verif

theorem exists_transitive (α : Type) [Fintype α] : ∃ σ : Equiv.Perm α, ∀ a b : α, σ.SameCycle a b := by
  by_cases h : Fintype.card α = 0
  · haveI := Fintype.card_eq_zero_iff.1 h
    exact ⟨1, fun a => isEmptyElim a⟩
  · haveI : NeZero (Fintype.card α) := ⟨h⟩
    let e : α ≃ ZMod (Fintype.card α) := Fintype.equivOfCardEq (by rw [ZMod.card])
    have hp : ∀ (n : ℕ) (x : ZMod (Fintype.card α)), ((Equiv.addRight (1 : ZMod (Fintype.card α)) : Equiv.Perm _) ^ n) x = x + n := by
      intro n
      induction n with
      | zero => intro x; simp
      | succ n ih =>
        intro x
        rw [pow_succ', Equiv.Perm.mul_apply, ih]
        simp [add_assoc]
    refine ⟨(e.trans (Equiv.addRight 1)).trans e.symm, fun a b => ⟨((e b - e a).val : ℕ), ?_⟩⟩
    have hq : ∀ (n : ℕ) (x : α), (((e.trans (Equiv.addRight 1)).trans e.symm : Equiv.Perm α) ^ n) x =
        e.symm (((Equiv.addRight (1 : ZMod (Fintype.card α)) : Equiv.Perm _) ^ n) (e x)) := by
      intro n
      induction n with
      | zero => intro x; simp
      | succ n ih =>
        intro x
        rw [pow_succ', Equiv.Perm.mul_apply, ih, pow_succ', Equiv.Perm.mul_apply]
        simp
    rw [zpow_natCast, hq, hp, ZMod.natCast_zmod_val]
    simp

theorem exists_orbits {α : Type} [Fintype α] (s : Setoid α) :
    ∃ σ : Equiv.Perm α, (∀ a, s (σ a) a) ∧ ∀ a b, s a b → σ.SameCycle a b := by
  classical
  choose τ hτ using fun c : Quotient s => exists_transitive {a : α // Quotient.mk s a = c}
  let F := Equiv.sigmaFiberEquiv (Quotient.mk s)
  let σ : Equiv.Perm α := (F.symm.trans (Equiv.sigmaCongrRight τ)).trans F
  have h1 : ∀ (c : Quotient s) (a : {a : α // Quotient.mk s a = c}), σ a.1 = (τ c a).1 := by
    rintro c ⟨a, rfl⟩
    rfl
  have h2 : ∀ (c : Quotient s) (n : ℕ) (a : {a : α // Quotient.mk s a = c}), (σ ^ n) a.1 = ((τ c ^ n) a).1 := by
    intro c n
    induction n with
    | zero => intro a; rfl
    | succ n ih =>
      intro a
      rw [pow_succ', Equiv.Perm.mul_apply, ih, h1, pow_succ', Equiv.Perm.mul_apply]
  refine ⟨σ, fun a => ?_, fun a b h => ?_⟩
  · rw [h1 _ ⟨a, rfl⟩]
    exact Quotient.exact (τ _ ⟨a, rfl⟩).2
  · obtain ⟨n, -, hn⟩ := ((hτ (Quotient.mk s a) ⟨a, rfl⟩ ⟨b, (Quotient.sound h).symm⟩)).exists_pow_eq'
    refine ⟨n, ?_⟩
    rw [zpow_natCast, h2 _ n ⟨a, rfl⟩, hn]

end Verif
