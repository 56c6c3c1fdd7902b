import Verif.Lemmas.DiskActs

/-! Processes that run at the same time on one disk. -/

namespace Verif.Disk.Prog

variable {ι α : Type} [DecidableEq ι]

/-- What a run from this disk writes satisfies `J`. -/
def RunWrites (J : Name → List Byte → Prop) : Prog α → Store → Prop
  | done _, _ => True
  | read n next, d => RunWrites J (next (d n)) d
  | write n bytes next, d => J n bytes ∧ RunWrites J next (put d n bytes)

/-- Process `i` in the middle: alone it would now see the disk `e`. -/
def Alone (R W : Name → Prop) (Sh : Name → Prop) (J : Name → List Byte → Prop) (fin : Store × Except Stop α)
    (P : Prog α) (d : Store) : Prop :=
  ReadsIn R P ∧ WritesIn (fun n => W n ∨ Sh n) P ∧ ∃ e, P.run e = fin ∧ RunWrites J P e ∧
    ∀ n, R n ∨ W n → d n = e n ∨ ∃ bytes next, P = write n bytes next

variable {R W : ι → Name → Prop} {Sh : Name → Prop} {J : Name → List Byte → Prop}

theorem alone_step (hpriv : ∀ i j, i ≠ j → ∀ n, W i n → ¬ R j n ∧ ¬ W j n)
    (hsh : ∀ i n, Sh n → ¬ R i n ∧ ¬ W i n) (hrw : ∀ i n, R i n → ¬ W i n)
    {fin : ι → Store × Except Stop α} {s s' : (ι → Prog α) × Store} (hs : Step s s')
    (h : ∀ i, Alone (R i) (W i) Sh J (fin i) (s.1 i) s.2) :
    ∀ i, Alone (R i) (W i) Sh J (fin i) (s'.1 i) s'.2 := by
  -- a file of another process
  have other : ∀ {i j : ι}, i ≠ j → ∀ {n}, (W i n ∨ Sh n) → ∀ {m}, R j m ∨ W j m → m ≠ n := by
    rintro i j hij n hn m hm rfl
    rcases hn with hn | hn
    · exact hm.elim (hpriv i j hij _ hn).1 (hpriv i j hij _ hn).2
    · exact hm.elim (hsh j _ hn).1 (hsh j _ hn).2
  cases hs with
  | @read P d i n next hP =>
    intro j
    have hj := h j
    dsimp only at hj ⊢
    by_cases e : j = i
    · subst e
      rw [Function.update_self]
      rw [hP] at hj
      obtain ⟨h1, h2, st, h3, h4, h5⟩ := hj
      have hn : d n = st n := by
        rcases h5 n (Or.inl h1.1) with h | ⟨bytes, nx, h⟩
        · exact h
        · cases h
      rw [hn]
      refine ⟨h1.2 _, h2 _, st, h3, h4, fun m hm => ?_⟩
      rcases h5 m hm with h | ⟨bytes, nx, h⟩
      · exact Or.inl h
      · cases h
    · rw [Function.update_of_ne e]
      exact hj
  | @torn P d i n bytes part next hP hp =>
    intro j
    have hj := h j
    have hi := h i
    dsimp only at hj hi ⊢
    rw [hP] at hi
    obtain ⟨h1, h2, st, h3, h4, h5⟩ := hj
    refine ⟨h1, h2, st, h3, h4, fun m hm => ?_⟩
    by_cases e : j = i
    · subst e
      by_cases hmn : m = n
      · subst hmn
        exact Or.inr ⟨bytes, next, hP⟩
      · rw [put_ne _ hmn]
        exact h5 m hm
    · rw [put_ne _ (other (fun e' => e e'.symm) hi.2.1.1 hm)]
      exact h5 m hm
  | @write P d i n bytes next hP =>
    intro j
    have hj := h j
    have hi := h i
    dsimp only at hj hi ⊢
    rw [hP] at hi
    by_cases e : j = i
    · subst e
      rw [Function.update_self]
      obtain ⟨h1, h2, st, h3, h4, h5⟩ := hi
      refine ⟨h1, h2.2, put st n bytes, h3, h4.2, fun m hm => ?_⟩
      left
      by_cases hmn : m = n
      · subst hmn
        rw [put_eq, put_eq]
      · rw [put_ne _ hmn, put_ne _ hmn]
        rcases h5 m hm with h | ⟨b, nx, h⟩
        · exact h
        · injection h with h
          exact absurd h.symm hmn
    · rw [Function.update_of_ne e]
      obtain ⟨h1, h2, st, h3, h4, h5⟩ := hj
      refine ⟨h1, h2, st, h3, h4, fun m hm => ?_⟩
      rw [put_ne _ (other (fun e' => e e'.symm) hi.2.1.1 hm)]
      exact h5 m hm

theorem alone_steps (hpriv : ∀ i j, i ≠ j → ∀ n, W i n → ¬ R j n ∧ ¬ W j n)
    (hsh : ∀ i n, Sh n → ¬ R i n ∧ ¬ W i n) (hrw : ∀ i n, R i n → ¬ W i n)
    {P P' : ι → Prog α} {d d' : Store} (hs : Relation.ReflTransGen Step (P, d) (P', d'))
    (hr : ∀ i, ReadsIn (R i) (P i)) (hw : ∀ i, WritesIn (fun n => W i n ∨ Sh n) (P i))
    (hJ : ∀ i, RunWrites J (P i) d) (i : ι) : Alone (R i) (W i) Sh J ((P i).run d) (P' i) d' := by
  have h0 : ∀ i, Alone (R i) (W i) Sh J ((P i).run d) ((P, d).1 i) (P, d).2 :=
    fun i => ⟨hr i, hw i, d, rfl, hJ i, fun n _ => Or.inl rfl⟩
  have : ∀ s, Relation.ReflTransGen Step (P, d) s →
      ∀ i, Alone (R i) (W i) Sh J ((P i).run d) (s.1 i) s.2 := by
    intro s hs
    induction hs with
    | refl => exact h0
    | tail _ h ih => exact alone_step hpriv hsh hrw h ih
  exact this _ hs i

/-- A file that several processes write with the same contents. -/
theorem shared_steps {P P' : ι → Prog α} {d d' : Store} (hs : Relation.ReflTransGen Step (P, d) (P', d'))
    {n : Name} {K : List Byte}
    (hK : ∀ s, Relation.ReflTransGen Step (P, d) s → ∀ i bytes next, s.1 i = write n bytes next → bytes = K) (i : ι)
    (hi : AlwaysWrites n (P i)) :
    AlwaysWrites n (P' i) ∨ d' n = some K ∨ ∃ j bytes next, P' j = write n bytes next := by
  have : ∀ s, Relation.ReflTransGen Step (P, d) s →
      AlwaysWrites n (s.1 i) ∨ s.2 n = some K ∨ ∃ j bytes next, s.1 j = write n bytes next := by
    intro s hs
    induction hs with
    | refl => exact Or.inl hi
    | @tail s s' hr hstep ih =>
      cases hstep with
      | @read Q e j m next hQ =>
        dsimp only at ih ⊢
        rcases ih with h | h | ⟨k, bytes, nx, h⟩
        · left
          by_cases e' : i = j
          · subst e'
            rw [Function.update_self]
            rw [hQ] at h
            exact h _
          · rw [Function.update_of_ne e']
            exact h
        · exact Or.inr (Or.inl h)
        · refine Or.inr (Or.inr ⟨k, bytes, nx, ?_⟩)
          rw [Function.update_of_ne]
          · exact h
          · rintro rfl
            rw [hQ] at h
            cases h
      | @torn Q e j m bytes part next hQ hp =>
        dsimp only at ih ⊢
        rcases ih with h | h | h
        · exact Or.inl h
        · by_cases hm : n = m
          · subst hm
            exact Or.inr (Or.inr ⟨j, bytes, next, hQ⟩)
          · rw [put_ne _ hm]
            exact Or.inr (Or.inl h)
        · exact Or.inr (Or.inr h)
      | @write Q e j m bytes next hQ =>
        dsimp only at ih ⊢
        by_cases hm : n = m
        · subst hm
          right; left
          rw [put_eq, hK _ hr j bytes next hQ]
        · rw [put_ne _ hm]
          rcases ih with h | h | ⟨k, b, nx, h⟩
          · left
            by_cases e' : i = j
            · subst e'
              rw [Function.update_self]
              rw [hQ] at h
              rcases h with h | h
              · exact absurd h.symm hm
              · exact h
            · rw [Function.update_of_ne e']
              exact h
          · exact Or.inr (Or.inl h)
          · refine Or.inr (Or.inr ⟨k, b, nx, ?_⟩)
            rw [Function.update_of_ne]
            · exact h
            · rintro rfl
              rw [hQ] at h
              injection h with h
              exact hm h.symm
  exact this _ hs

/-- Files that no process writes do not change. -/
theorem other_steps {P P' : ι → Prog α} {d d' : Store} (hs : Relation.ReflTransGen Step (P, d) (P', d'))
    {V : Name → Prop} (hw : ∀ i, WritesIn V (P i)) {n : Name} (hn : ¬ V n) : d' n = d n := by
  have : ∀ s, Relation.ReflTransGen Step (P, d) s → (∀ i, WritesIn V (s.1 i)) ∧ s.2 n = d n := by
    intro s hs
    induction hs with
    | refl => exact ⟨hw, rfl⟩
    | @tail s s' _ hstep ih =>
      obtain ⟨h1, h2⟩ := ih
      cases hstep with
      | @read Q e j m next hQ =>
        refine ⟨fun i => ?_, h2⟩
        dsimp only at h1 ⊢
        by_cases e' : i = j
        · subst e'
          rw [Function.update_self]
          have := h1 i
          rw [hQ] at this
          exact this _
        · rw [Function.update_of_ne e']
          exact h1 i
      | @torn Q e j m bytes part next hQ hp =>
        refine ⟨h1, ?_⟩
        have := h1 j
        dsimp only at this h2 ⊢
        rw [hQ] at this
        rw [put_ne _ (by rintro rfl; exact hn this.1)]
        exact h2
      | @write Q e j m bytes next hQ =>
        have := h1 j
        dsimp only at this h2 h1 ⊢
        rw [hQ] at this
        refine ⟨fun i => ?_, ?_⟩
        · by_cases e' : i = j
          · subst e'
            rw [Function.update_self]
            exact this.2
          · rw [Function.update_of_ne e']
            exact h1 i
        · rw [put_ne _ (by rintro rfl; exact hn this.1)]
          exact h2
  exact (this _ hs).2

end Verif.Disk.Prog
