import Verif.Spec.LayoutKey
import Verif.Lemmas.LayoutDkg
import Verif.Props.Halo2

/-! Satisfied constraint systems of a key are satisfied layouts. -/

namespace Verif.Layout
open Verif Polynomial Spec.Halo2

variable {V : Key} {K : KeyPolys} {S : Shape} {start : ℕ → ℕ} {advice : Fin 5 → Fr[X]} {inst : List Fr}

theorem cellAt_place (c : Cell) : cellAt V K advice inst (place start c).1 (place start c).2 =
    (tableOf V K start advice inst).cell c := by
  obtain ⟨k, i, j⟩ := c
  fin_cases j <;> rfl

theorem linked_eq (hS : Satisfied V K advice inst) {a b : Fin 9 × ℕ} (h : Linked V K a b) :
    cellAt V K advice inst a.1 a.2 = cellAt V K advice inst b.1 b.2 := by
  induction h with
  | rel a b h => exact hS.copy a.2 h.1 b.2 h.2.1 a.1 b.1 h.2.2
  | refl a => rfl
  | symm a b _ ih => exact ih.symm
  | trans a b c _ _ ih1 ih2 => exact ih1.trans ih2

theorem usable_lt {i : ℕ} (h : i < V.usable) : i < V.n := lt_of_lt_of_le h (Nat.sub_le _ _)

theorem omega_prev (hω : V.omega ≠ 0) (i : ℕ) : V.omega ^ (i + 1) * V.omega⁻¹ = V.omega ^ i := by
  rw [pow_succ, mul_assoc, mul_inv_cancel₀ hω, mul_one]

theorem holds_of_satisfied (hω : V.omega ≠ 0) (hR : Realizes V K S start) (hS : Satisfied V K advice inst) :
    Holds S (tableOf V K start advice inst) where
  gates k i g hg := by
    obtain ⟨hlt, hp⟩ := hR.gates k i g hg
    cases g with
    | main m =>
      obtain ⟨⟨f0, f1, f2, f3, f4⟩, f5, f6, f7, f8⟩ := hp
      have h := hS.main _ (usable_lt hlt)
      unfold Gate.holds
      dsimp only
      rw [← f0, ← f1, ← f2, ← f3, ← f4, ← f5, ← f6, ← f7, ← f8]
      exact h
    | comp =>
      have hp : fixedAt V K 18 (start k + i) = 1 := hp
      have key : ∀ j : Fin 4, ∃ i' < V.usable, fixedAt V K 9 i' = 5 ∧
          fixedAt V K 10 i' = (tableOf V K start advice inst).cell ⟨k, i, j.castLE (by decide)⟩ := by
        intro j
        obtain ⟨i', h1, h2⟩ := hS.lookup (j.castLE (by decide)) _ hlt
        have e : lookupPair (gateRow V K advice (start k + i)) (j.castLE (by decide)) =
            (fixedAt V K 18 (start k + i) * 5, fixedAt V K 18 (start k + i) *
              (tableOf V K start advice inst).cell ⟨k, i, j.castLE (by decide)⟩) := by
          fin_cases j <;> rfl
        rw [e, hp, one_mul, one_mul] at h2
        exact ⟨i', h1, (congrArg Prod.fst h2).symm, (congrArg Prod.snd h2).symm⟩
      exact ⟨key 0, key 1, key 2, key 3⟩
    | tagged t =>
      obtain ⟨p1, p2⟩ := hp
      obtain ⟨i', h1, h2⟩ := hS.lookup 4 _ hlt
      have e : lookupPair (gateRow V K advice (start k + i)) 4 = (fixedAt V K 11 (start k + i),
          fixedAt V K 19 (start k + i) * (tableOf V K start advice inst).cell ⟨k, i, 0⟩) := rfl
      rw [e, p1, p2, one_mul] at h2
      exact ⟨i', h1, (congrArg Prod.fst h2).symm, (congrArg Prod.snd h2).symm⟩
    | full rc =>
      obtain ⟨p1, rfl⟩ := hp
      exact ((Props.C62_full_round (gateRow V K advice (start k + i))).2 p1).1 (hS.full _ (usable_lt hlt))
    | partials rcA rcB =>
      obtain ⟨p1, rfl, rfl⟩ := hp
      exact ((Props.C62_partial_rounds (gateRow V K advice (start k + i))).2 p1).1 (hS.partials _ (usable_lt hlt))
    | absorb =>
      intro p hip
      subst hip
      have h := (Props.C62_absorb (gateRow V K advice (start k + (p + 1))) hp).1 (hS.absorb _ (usable_lt hlt))
      have e : V.omega ^ (start k + (p + 1)) * V.omega⁻¹ = V.omega ^ (start k + p) := by
        rw [← Nat.add_assoc, omega_prev hω]
      have e' : (gateRow V K advice (start k + (p + 1))).aPrev = (tableOf V K start advice inst).state k p := by
        change (![(advice 0).eval (V.omega ^ (start k + (p + 1)) * V.omega⁻¹),
          (advice 1).eval (V.omega ^ (start k + (p + 1)) * V.omega⁻¹),
          (advice 2).eval (V.omega ^ (start k + (p + 1)) * V.omega⁻¹)] : Fin 3 → Fr) = _
        rw [e]
        rfl
      rw [e'] at h
      exact h
  copies c c' h := by
    rw [← cellAt_place, ← cellAt_place]
    exact linked_eq hS (hR.copies c c' h)
  constants c x h := by
    obtain ⟨i, hi, hl⟩ := hR.constants c x h
    rw [← cellAt_place, linked_eq hS hl]
    exact hi
  publics c j h := by
    rw [← cellAt_place, linked_eq hS (hR.publics c j h)]
    rfl

end Verif.Layout
