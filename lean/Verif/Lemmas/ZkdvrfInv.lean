import Mathlib.Data.Finset.Card
import Mathlib.Algebra.BigOperators.Group.Finset.Basic
import Verif.Lemmas.Zkdvrf

/-! Invariants of contracts/zkdvrf.sol. -/

namespace Verif.Zkdvrf

/-- Induction over histories. -/
theorem reach_induct {env : Env} (P : State → Prop)
    (hd : ∀ m t n a b c d s, m.sender ≠ 0 → constructor m t n a b c d = some s → P s)
    (hs : ∀ s m c s', Reachable env s → P s → m.sender ≠ 0 → exec env s m c = some s' → P s')
    (hf : ∀ s a, P s → P { s with balance := s.balance + a }) {s : State}
    (h : Reachable env s) : P s := by
  induction h with
  | deploy hm h => exact hd _ _ _ _ _ _ _ _ hm h
  | @step s tx hv h ih =>
    cases tx with
    | forceEther a => exact hf _ _ ih
    | call m c =>
      unfold step
      dsimp only
      cases he : exec env s m c with
      | none => exact ih
      | some s' => exact hs _ _ _ _ h ih hv he

/-! ### Registration -/

/-- Facts about node records and registration. -/
structure RegInv (s : State) : Prop where
  len : s.ppLength = 7 * s.memberCount + 14
  bound : 7 * s.memberCount + 14 < 2 ^ 32
  added : ∃ A : Finset Address, A.card = s.currentIndex ∧
    ∀ a, a ∈ A ↔ (s.addrToNode a).nodeAddress ≠ 0
  addr_self : ∀ a, (s.addrToNode a).nodeAddress ≠ 0 → (s.addrToNode a).nodeAddress = a
  empty : ∀ a, (s.addrToNode a).nodeAddress = 0 → s.addrToNode a = Node.empty
  idx_le : s.currentIndex ≤ s.memberCount
  pkIdx : s.pkListIndex = s.registeredCount
  pkLen : s.pkList.length = s.registeredCount
  order : s.pkListOrder = (List.range s.registeredCount).map s.nodes
  reg_node : ∀ i, i < s.registeredCount → (s.addrToNode (s.nodes i)).status = true ∧
    (s.addrToNode (s.nodes i)).pkIndex = i
  reg_idx : ∀ a, (s.addrToNode a).status = true → (s.addrToNode a).pkIndex < s.registeredCount ∧
    s.nodes (s.addrToNode a).pkIndex = a ∧ (s.addrToNode a).nodeAddress = a ∧
    s.minNodeDeposit ≤ (s.addrToNode a).deposit
  unreg : ∀ a, (s.addrToNode a).status = false → (s.addrToNode a).deposit = 0 ∧
    (s.addrToNode a).pkIndex = 0
  curve : ∀ k ∈ s.pkList, GrumpkinSol.isOnCurve k = true
  started : s.contractPhase ≠ .Unregistered → s.registeredCount = s.memberCount

theorem RegInv.reg_card {s : State} (h : RegInv s) : s.registeredCount ≤ s.currentIndex := by
  obtain ⟨A, hA, hm⟩ := h.added
  have hsub : (Finset.range s.registeredCount).image s.nodes ⊆ A := by
    intro a ha
    obtain ⟨i, hi, rfl⟩ := Finset.mem_image.1 ha
    have hi := Finset.mem_range.1 hi
    rw [hm]
    intro h0
    have h1 := (h.reg_node i hi).1
    rw [h.empty _ h0] at h1
    cases h1
  have hinj : Set.InjOn s.nodes (Finset.range s.registeredCount : Set ℕ) := by
    intro i hi j hj hij
    have hi := Finset.mem_range.1 (Finset.mem_coe.1 hi)
    have hj := Finset.mem_range.1 (Finset.mem_coe.1 hj)
    have h1 := (h.reg_node i hi).2
    have h2 := (h.reg_node j hj).2
    rw [hij] at h1
    omega
  have := Finset.card_le_card hsub
  rw [Finset.card_image_of_injOn hinj, Finset.card_range, hA] at this
  exact this

/-- When all members are registered, every added node is. -/
theorem RegInv.all_registered {s : State} (h : RegInv s) (hr : s.registeredCount = s.memberCount)
    (a : Address) (ha : (s.addrToNode a).nodeAddress ≠ 0) : (s.addrToNode a).status = true := by
  obtain ⟨A, hA, hm⟩ := h.added
  have hinj : Set.InjOn s.nodes (Finset.range s.registeredCount : Set ℕ) := by
    intro i hi j hj hij
    have hi := Finset.mem_range.1 (Finset.mem_coe.1 hi)
    have hj := Finset.mem_range.1 (Finset.mem_coe.1 hj)
    have h1 := (h.reg_node i hi).2
    have h2 := (h.reg_node j hj).2
    rw [hij] at h1
    omega
  have hsub : (Finset.range s.registeredCount).image s.nodes ⊆ A := by
    intro a ha
    obtain ⟨i, hi, rfl⟩ := Finset.mem_image.1 ha
    have hi := Finset.mem_range.1 hi
    rw [hm]
    intro h0
    have h1 := (h.reg_node i hi).1
    rw [h.empty _ h0] at h1
    cases h1
  have heq : (Finset.range s.registeredCount).image s.nodes = A := by
    apply Finset.eq_of_subset_of_card_le hsub
    rw [Finset.card_image_of_injOn hinj, Finset.card_range, hA, hr]
    exact h.idx_le
  have : a ∈ A := (hm a).2 ha
  rw [← heq] at this
  obtain ⟨i, hi, rfl⟩ := Finset.mem_image.1 this
  exact (h.reg_node i (Finset.mem_range.1 hi)).1

theorem regInv {env : Env} {s : State} (h : Reachable env s) : RegInv s := by
  refine reach_induct RegInv ?_ ?_ ?_ h
  · intro m t n a b c d s hm hc
    rw [constructor_some] at hc
    obtain ⟨_, _, _, _, _, _, hb, rfl⟩ := hc
    exact {
      len := rfl, bound := hb, added := ⟨∅, rfl, by simp [Node.empty]⟩
      addr_self := by intro a h; exact absurd rfl h
      empty := by intro a _; rfl
      idx_le := Nat.zero_le _, pkIdx := rfl, pkLen := rfl, order := rfl
      reg_node := by intro i hi; exact absurd hi (Nat.not_lt_zero _)
      reg_idx := by intro a h; cases h
      unreg := by intro a _; exact ⟨rfl, rfl⟩
      curve := by intro k hk; cases hk
      started := by intro h; exact absurd rfl h }
  · intro s m c s' hreach ih hm he
    cases c with
    | addPermissionedNodes a =>
      obtain ⟨_, _, h1, h2, h3, h4, rfl⟩ := addPermissionedNodes_some.1 he
      have hst : (s.addrToNode a).status = false := by rw [ih.empty a h3]; rfl
      have hne : ∀ b, (s.addrToNode b).status = true → b ≠ a := by
        rintro b hb rfl; rw [hst] at hb; cases hb
      exact {
        len := ih.len, bound := ih.bound
        added := by
          obtain ⟨A, hA, hm⟩ := ih.added
          refine ⟨insert a A, ?_, ?_⟩
          · rw [Finset.card_insert_of_notMem, hA]
            rw [hm]; simpa using h3
          · intro b
            by_cases hb : b = a
            · subst hb
              simp only [Function.update_self]
              exact ⟨fun _ => h2, fun _ => Finset.mem_insert_self _ _⟩
            · simp only [Function.update_of_ne hb, Finset.mem_insert, or_iff_right hb, hm]
        addr_self := by
          intro b
          by_cases hb : b = a
          · subst hb; simp
          · simp only [Function.update_of_ne hb]; exact ih.addr_self b
        empty := by
          intro b
          by_cases hb : b = a
          · subst hb
            simp only [Function.update_self]
            exact fun h => absurd h h2
          · simp only [Function.update_of_ne hb]; exact ih.empty b
        idx_le := h1, pkIdx := ih.pkIdx, pkLen := ih.pkLen, order := ih.order
        reg_node := by
          intro i hi
          have := ih.reg_node i hi
          simp only [Function.update_of_ne (hne _ this.1)]
          exact this
        reg_idx := by
          intro b hb
          by_cases hba : b = a
          · subst hba; simp at hb
          · simp only [Function.update_of_ne hba] at hb ⊢; exact ih.reg_idx b hb
        unreg := by
          intro b hb
          by_cases hba : b = a
          · subst hba; simp
          · simp only [Function.update_of_ne hba] at hb ⊢; exact ih.unreg b hb
        curve := ih.curve, started := ih.started }
    | registerNode pk =>
      obtain ⟨h1, h2, h3, h4, h5, h6, h7, rfl⟩ := registerNode_some.1 he
      have hn0 : (s.addrToNode m.sender).nodeAddress ≠ 0 := by rw [← h2]; exact hm
      have hne : ∀ i, i < s.registeredCount → s.nodes i ≠ m.sender := by
        intro i hi h
        have := (ih.reg_node i hi).1
        rw [h, h3] at this; cases this
      exact {
        len := ih.len, bound := ih.bound
        added := by
          obtain ⟨A, hA, hm'⟩ := ih.added
          refine ⟨A, hA, ?_⟩
          intro b
          by_cases hb : b = m.sender
          · subst hb; rw [hm']; simp
          · simp only [Function.update_of_ne hb]; exact hm' b
        addr_self := by
          intro b
          by_cases hb : b = m.sender
          · subst hb; simp [← h2]
          · simp only [Function.update_of_ne hb]; exact ih.addr_self b
        empty := by
          intro b
          by_cases hb : b = m.sender
          · subst hb
            simp only [Function.update_self]
            exact fun h => absurd h hn0
          · simp only [Function.update_of_ne hb]; exact ih.empty b
        idx_le := ih.idx_le
        pkIdx := by simp only [ih.pkIdx]
        pkLen := by simp [ih.pkLen]
        order := by
          simp only [ih.order, List.range_succ, List.map_append, List.map_cons, List.map_nil,
            Function.update_self]
          congr 1
          apply List.map_congr_left
          intro i hi
          rw [Function.update_of_ne]
          have := List.mem_range.1 hi
          omega
        reg_node := by
          intro i hi
          simp only at hi
          by_cases hi' : i = s.registeredCount
          · subst hi'; simp [ih.pkIdx]
          · have hlt : i < s.registeredCount := by omega
            simp only [Function.update_of_ne hi', Function.update_of_ne (hne i hlt)]
            exact ih.reg_node i hlt
        reg_idx := by
          intro b hb
          by_cases hba : b = m.sender
          · subst hba
            simp [ih.pkIdx, ← h2, h4]
          · simp only [Function.update_of_ne hba] at hb ⊢
            obtain ⟨a1, a2, a3⟩ := ih.reg_idx b hb
            refine ⟨by omega, ?_, a3⟩
            rw [Function.update_of_ne (by omega)]
            exact a2
        unreg := by
          intro b hb
          by_cases hba : b = m.sender
          · subst hba; simp at hb
          · simp only [Function.update_of_ne hba] at hb ⊢; exact ih.unreg b hb
        curve := by
          intro k hk
          rcases List.mem_append.1 hk with hk | hk
          · exact ih.curve k hk
          · rw [List.mem_singleton.1 hk]; exact h5
        started := by intro h; exact absurd h1 h }
    | startNidkg =>
      obtain ⟨_, _, _, h4, rfl⟩ := startNidkg_some.1 he
      exact { ih with started := fun _ => h4 }
    | submitPublicParams pp pr =>
      obtain ⟨_, h2, h3, h4, h5, h6, h7, rfl⟩ := submitPublicParams_some.1 he
      have e1 : ∀ b, (Function.update s.addrToNode m.sender
          { s.addrToNode m.sender with statusPP := true } b).nodeAddress =
          (s.addrToNode b).nodeAddress := by
        intro b; by_cases hb : b = m.sender
        · subst hb; simp
        · rw [Function.update_of_ne hb]
      have e2 : ∀ b, (Function.update s.addrToNode m.sender
          { s.addrToNode m.sender with statusPP := true } b).status =
          (s.addrToNode b).status := by
        intro b; by_cases hb : b = m.sender
        · subst hb; simp
        · rw [Function.update_of_ne hb]
      have e3 : ∀ b, (Function.update s.addrToNode m.sender
          { s.addrToNode m.sender with statusPP := true } b).pkIndex =
          (s.addrToNode b).pkIndex := by
        intro b; by_cases hb : b = m.sender
        · subst hb; simp
        · rw [Function.update_of_ne hb]
      have e4 : ∀ b, (Function.update s.addrToNode m.sender
          { s.addrToNode m.sender with statusPP := true } b).deposit =
          (s.addrToNode b).deposit := by
        intro b; by_cases hb : b = m.sender
        · subst hb; simp
        · rw [Function.update_of_ne hb]
      exact {
        len := ih.len, bound := ih.bound
        added := by simp only [e1]; exact ih.added
        addr_self := by simp only [e1]; exact ih.addr_self
        empty := by
          intro b hb
          simp only [e1] at hb
          have hne : b ≠ m.sender := by
            rintro rfl
            rw [← h2] at hb
            exact hm hb
          simp only [Function.update_of_ne hne]
          exact ih.empty b hb
        idx_le := ih.idx_le, pkIdx := ih.pkIdx, pkLen := ih.pkLen, order := ih.order
        reg_node := by simp only [e2, e3]; exact ih.reg_node
        reg_idx := by simp only [e1, e2, e3, e4]; exact ih.reg_idx
        unreg := by simp only [e2, e3, e4]; exact ih.unreg
        curve := ih.curve
        started := fun _ => ih.started (by rw [h3]; exact Phase.noConfusion) }
    | computeVk gpk =>
      obtain ⟨_, h2, out, _, rfl⟩ := computeVk_some.1 he
      exact { ih with started := fun _ => ih.started (by rw [h2]; exact Phase.noConfusion) }
    | initiateRandom =>
      obtain ⟨_, _, _, _, _, rfl⟩ := initiateRandom_some.1 he
      exact { ih with }
    | submitPartialEval pe =>
      obtain ⟨_, _, _, _, _, _, _, _, rfl⟩ := submitPartialEval_some.1 he
      exact { ih with }
    | submitRandom pr =>
      obtain ⟨_, _, _, _, _, rfl⟩ := submitRandom_some.1 he
      exact { ih with }
    | transferOwnership a =>
      obtain ⟨_, _, _, rfl⟩ := transferOwnership_some.1 he
      exact { ih with }
    | renounceOwnership =>
      obtain ⟨_, _, rfl⟩ := renounceOwnership_some.1 he
      exact { ih with }
  · intro s a ih
    exact { ih with }

end Verif.Zkdvrf
