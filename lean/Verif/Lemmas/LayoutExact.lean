import Verif.Spec.LayoutExact
import Verif.Lemmas.LayoutKey
import Verif.Lemmas.Halo2Complete

/-! Satisfied layouts are satisfied constraint systems, if the key has nothing more than the layout. -/

namespace Verif.Layout
open Verif Polynomial Spec.Halo2

variable {V : Key} {K : KeyPolys} {S : Shape} {start : ℕ → ℕ} {advice : Fin 5 → Fr[X]} {inst : List Fr}

theorem ties_eq (hT : Holds S (tableOf V K start advice inst)) {a b : Fin 9 × ℕ}
    (h : Relation.EqvGen (S.Ties V K start) a b) :
    cellAt V K advice inst a.1 a.2 = cellAt V K advice inst b.1 b.2 := by
  induction h with
  | rel a b h =>
    cases h with
    | copy h =>
      rw [cellAt_place, cellAt_place]
      exact hT.copies _ _ h
    | constant h hx =>
      rw [cellAt_place, hT.constants _ _ h]
      exact hx.symm
    | publicInput h =>
      rw [cellAt_place, hT.publics _ _ h]
      rfl
  | refl a => rfl
  | symm a b _ ih => exact ih.symm
  | trans a b c _ _ ih1 ih2 => exact ih1.trans ih2

theorem mainGate_zero (e : Evals) (h : ∀ j : Fin 9, e.f (j.castLE (by decide)) = 0) : mainGate e = 0 := by
  have h0 : e.f 0 = 0 := h 0
  have h1 : e.f 1 = 0 := h 1
  have h2 : e.f 2 = 0 := h 2
  have h3 : e.f 3 = 0 := h 3
  have h4 : e.f 4 = 0 := h 4
  have h5 : e.f 5 = 0 := h 5
  have h6 : e.f 6 = 0 := h 6
  have h7 : e.f 7 = 0 := h 7
  have h8 : e.f 8 = 0 := h 8
  unfold mainGate
  rw [h0, h1, h2, h3, h4, h5, h6, h7, h8]
  simp only [mul_zero, zero_mul, add_zero]

theorem padAndAdd_zero (e : Evals) (h : e.f 22 = 0) : ∀ c ∈ padAndAdd e, c = 0 := by
  intro c hc
  simp only [padAndAdd, h, zero_mul, List.mem_cons, List.not_mem_nil, or_false, or_self] at hc
  exact hc

theorem aPrev_state (hω : V.omega ≠ 0) (k p : ℕ) : (gateRow V K advice (start k + (p + 1))).aPrev =
    (tableOf V K start advice inst).state k p := by
  have e : V.omega ^ (start k + (p + 1)) * V.omega⁻¹ = V.omega ^ (start k + p) := by
    rw [← Nat.add_assoc, omega_prev hω]
  change (![(advice 0).eval (V.omega ^ (start k + (p + 1)) * V.omega⁻¹),
    (advice 1).eval (V.omega ^ (start k + (p + 1)) * V.omega⁻¹),
    (advice 2).eval (V.omega ^ (start k + (p + 1)) * V.omega⁻¹)] : Fin 3 → Fr) = _
  rw [e]
  rfl

theorem satisfied_of_holds (hω : V.omega ≠ 0) (hR : RealizesExactly V K S start)
    (hT : Holds S (tableOf V K start advice inst)) : Satisfied V K advice inst where
  main i hi := by
    rcases hR.main i hi with h | ⟨k, o, m, hg, rfl⟩
    · exact mainGate_zero _ h
    · obtain ⟨_, ⟨f0, f1, f2, f3, f4⟩, f5, f6, f7, f8⟩ := hR.gates _ _ _ hg
      have h := hT.gates _ _ _ hg
      unfold Gate.holds at h
      dsimp only at h
      rw [← f0, ← f1, ← f2, ← f3, ← f4, ← f5, ← f6, ← f7, ← f8] at h
      exact h
  full i hi := by
    rcases hR.full i hi with h | ⟨k, o, rc, hg, rfl⟩
    · exact (Props.C62_full_round (gateRow V K advice i)).1 h
    · obtain ⟨_, p1, rfl⟩ := hR.gates _ _ _ hg
      exact ((Props.C62_full_round (gateRow V K advice (start k + o))).2 p1).2 (hT.gates _ _ _ hg)
  partials i hi := by
    rcases hR.partials i hi with h | ⟨k, o, rcA, rcB, hg, rfl⟩
    · exact (Props.C62_partial_rounds (gateRow V K advice i)).1 h
    · obtain ⟨_, p1, rfl, rfl⟩ := hR.gates _ _ _ hg
      exact ((Props.C62_partial_rounds (gateRow V K advice (start k + o))).2 p1).2 (hT.gates _ _ _ hg)
  absorb i hi := by
    rcases hR.absorb i hi with h | ⟨k, o, hg, rfl⟩
    · exact padAndAdd_zero _ h
    · obtain ⟨_, p1⟩ := hR.gates _ _ _ hg
      refine (Props.C62_absorb (gateRow V K advice (start k + (o + 1))) p1).2 ?_
      rw [aPrev_state (inst := inst) hω]
      exact hT.gates _ _ _ hg o rfl
  copy i hi i' hi' j j' h := ties_eq hT (a := (j, i)) (b := (j', i')) (hR.links _ _ ⟨hi, hi', h⟩)
  lookup l i hi := by
    obtain ⟨z, hz, hz9, hz10⟩ := hR.zero
    have comp : ∀ l : Fin 4, ∃ i' < V.usable, lookupPair (gateRow V K advice i) (l.castLE (by decide)) =
        (fixedAt V K 9 i', fixedAt V K 10 i') := by
      intro l
      have e : lookupPair (gateRow V K advice i) (l.castLE (by decide)) =
          (fixedAt V K 18 i * 5, fixedAt V K 18 i * (gateRow V K advice i).a (l.castLE (by decide))) := by
        fin_cases l <;> rfl
      rcases hR.comp i hi with h | ⟨k, o, hg, rfl⟩
      · refine ⟨z, hz, ?_⟩
        rw [e, h, zero_mul, zero_mul, hz9, hz10]
      · have hp : fixedAt V K 18 (start k + o) = 1 := (hR.gates _ _ _ hg).2
        obtain ⟨h0, h1, h2, h3⟩ := hT.gates _ _ _ hg
        rw [e, hp, one_mul, one_mul]
        have key : (tableOf V K start advice inst).range 5
            ((tableOf V K start advice inst).cell ⟨k, o, l.castLE (by decide)⟩) := by
          fin_cases l
          · exact h0
          · exact h1
          · exact h2
          · exact h3
        obtain ⟨i', hi', e9, e10⟩ := key
        exact ⟨i', hi', Prod.ext e9.symm e10.symm⟩
    have tag : ∃ i' < V.usable, lookupPair (gateRow V K advice i) 4 = (fixedAt V K 9 i', fixedAt V K 10 i') := by
      have e : lookupPair (gateRow V K advice i) 4 =
          (fixedAt V K 11 i, fixedAt V K 19 i * (gateRow V K advice i).a 0) := rfl
      rcases hR.tagged i hi with ⟨h, h'⟩ | ⟨k, o, t, hg, rfl⟩
      · refine ⟨z, hz, ?_⟩
        rw [e, h, h', zero_mul, hz9, hz10]
      · obtain ⟨p1, p2⟩ := (hR.gates _ _ _ hg).2
        obtain ⟨i', hi', e9, e10⟩ := hT.gates _ _ _ hg
        rw [e, p1, p2, one_mul]
        exact ⟨i', hi', Prod.ext e9.symm e10.symm⟩
    fin_cases l
    · exact comp 0
    · exact comp 1
    · exact comp 2
    · exact comp 3
    · exact tag

/-! ### Tables with the same values in the cells of the layout -/

theorem state_agree {T T' : Table} {k i : ℕ} (h : ∀ c : Cell, c.region = k → c.offset = i → (c.col : ℕ) < 3 →
    T'.cell c = T.cell c) : T'.state k i = T.state k i := by
  unfold Table.state
  rw [h ⟨k, i, 0⟩ rfl rfl (by decide : ((0 : Fin 5) : ℕ) < 3), h ⟨k, i, 1⟩ rfl rfl (by decide : ((1 : Fin 5) : ℕ) < 3), h ⟨k, i, 2⟩ rfl rfl (by decide : ((2 : Fin 5) : ℕ) < 3)]

theorem gate_agree {T T' : Table} {k i : ℕ} {g : Gate} (hr : ∀ t x, T.range t x → T'.range t x)
    (h : ∀ c, g.Reads k i c → T'.cell c = T.cell c) (hg : g.holds T k i) : g.holds T' k i := by
  cases g with
  | main m =>
    have h' : ∀ j, T'.cell ⟨k, i, j⟩ = T.cell ⟨k, i, j⟩ := fun j => h _ ⟨rfl, Or.inl rfl⟩
    have hn : m.next * T'.cell ⟨k, i + 1, 4⟩ = m.next * T.cell ⟨k, i + 1, 4⟩ := by
      rcases eq_or_ne m.next 0 with h0 | h0
      · rw [h0, zero_mul, zero_mul]
      · rw [h ⟨k, i + 1, 4⟩ ⟨rfl, Or.inr ⟨h0, rfl, rfl⟩⟩]
    unfold Gate.holds at hg ⊢
    dsimp only at hg ⊢
    rw [h' 0, h' 1, h' 2, h' 3, h' 4, hn]
    exact hg
  | comp =>
    obtain ⟨h0, h1, h2, h3⟩ := hg
    refine ⟨?_, ?_, ?_, ?_⟩
    · rw [h ⟨k, i, 0⟩ ⟨rfl, rfl, (by decide : (0 : Fin 5) ≠ 4)⟩]; exact hr _ _ h0
    · rw [h ⟨k, i, 1⟩ ⟨rfl, rfl, (by decide : (1 : Fin 5) ≠ 4)⟩]; exact hr _ _ h1
    · rw [h ⟨k, i, 2⟩ ⟨rfl, rfl, (by decide : (2 : Fin 5) ≠ 4)⟩]; exact hr _ _ h2
    · rw [h ⟨k, i, 3⟩ ⟨rfl, rfl, (by decide : (3 : Fin 5) ≠ 4)⟩]; exact hr _ _ h3
  | tagged t =>
    change T'.range t (T'.cell ⟨k, i, 0⟩)
    rw [h ⟨k, i, 0⟩ rfl]
    exact hr _ _ hg
  | full rc =>
    change Poseidon.FullGate rc (T'.state k i) (T'.state k (i + 1))
    rw [state_agree (T := T) fun c h1 h2 h3 => h c ⟨h1, Or.inl h2, h3⟩,
      state_agree (T := T) fun c h1 h2 h3 => h c ⟨h1, Or.inr h2, h3⟩]
    exact hg
  | partials rcA rcB =>
    change Poseidon.PartialGate rcA rcB (T'.state k i) (T'.cell ⟨k, i, 3⟩) (T'.state k (i + 1))
    rw [state_agree (T := T) fun c h1 h2 h3 => h c (Or.inl ⟨h1, Or.inl h2, h3⟩),
      state_agree (T := T) fun c h1 h2 h3 => h c (Or.inl ⟨h1, Or.inr h2, h3⟩), h ⟨k, i, 3⟩ (Or.inr rfl)]
    exact hg
  | absorb =>
    intro p hp
    rw [state_agree (T := T) (i := i + 1) fun c h1 h2 h3 => h c ⟨h1, Or.inr (Or.inr h2), h3⟩,
      state_agree (T := T) (i := i) fun c h1 h2 h3 => h c ⟨h1, Or.inr (Or.inl h2), h3⟩,
      state_agree (T := T) (i := p) fun c h1 h2 h3 => h c ⟨h1, Or.inl (by rw [h2, hp]), h3⟩]
    exact hg p hp

theorem holds_agree {T T' : Table} (hr : ∀ t x, T.range t x → T'.range t x) (hi : ∀ j, T'.inst j = T.inst j)
    (h : ∀ c, S.Reads c → T'.cell c = T.cell c) (hT : Holds S T) : Holds S T' where
  gates k i g hg := gate_agree hr (fun c hc => h c (Or.inl ⟨k, i, g, hg, hc⟩)) (hT.gates k i g hg)
  copies c c' hc := by
    rw [h c (Or.inr (Or.inl ⟨c', Or.inl hc⟩)), h c' (Or.inr (Or.inl ⟨c, Or.inr hc⟩))]
    exact hT.copies c c' hc
  constants c x hc := by
    rw [h c (Or.inr (Or.inr (Or.inl ⟨x, hc⟩)))]
    exact hT.constants c x hc
  publics c j hc := by
    rw [h c (Or.inr (Or.inr (Or.inr ⟨j, hc⟩))), hi j]
    exact hT.publics c j hc

open Classical in
/-- Values of a table in columns and rows; `rest` where the layout looks at no cell. -/
noncomputable def grid (S : Shape) (start : ℕ → ℕ) (T : Table) (rest : Fin 5 → ℕ → Fr) (j : Fin 5) (i : ℕ) : Fr :=
  if h : ∃ c, S.Reads c ∧ c.col = j ∧ start c.region + c.offset = i then T.cell h.choose else rest j i

theorem grid_reads (hR : RealizesExactly V K S start) (T : Table) (rest : Fin 5 → ℕ → Fr) {c : Cell} (hc : S.Reads c) :
    grid S start T rest c.col (start c.region + c.offset) = T.cell c := by
  have h : ∃ c', S.Reads c' ∧ c'.col = c.col ∧ start c'.region + c'.offset = start c.region + c.offset := ⟨c, hc, rfl, rfl⟩
  unfold grid
  rw [dif_pos h]
  obtain ⟨h1, h2, h3⟩ := h.choose_spec
  refine congrArg T.cell (hR.apart _ _ h1 hc ?_)
  unfold place
  rw [h2, h3]

theorem grid_rest (hR : RealizesExactly V K S start) (T : Table) (rest : Fin 5 → ℕ → Fr) (j : Fin 5) {i : ℕ}
    (hi : V.usable ≤ i) : grid S start T rest j i = rest j i := by
  unfold grid
  refine dif_neg ?_
  rintro ⟨c, hc, _, rfl⟩
  exact absurd (hR.rows c hc) (Nat.not_lt.2 hi)

end Verif.Layout
