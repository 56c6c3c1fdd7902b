import Verif.Props.ServicesLive

/-!
C58: the start of the admin service, services/admin.ts.
-/

namespace Verif.Props
open Verif.Services
open Verif.ZkdvrfPre

private noncomputable abbrev addAll (M : Machine) (admin : Address) (p : State) (ws : List Address) :
    Option State :=
  ws.foldlM (fun p a =>
    if (p.addrToNode a).nodeAddress = 0 then
      ZkdvrfPre.exec M.env p ⟨admin, 0⟩ (.addPermissionedNodes a)
    else some p) p

theorem ncard_added {env : Env} {p : State} (hr : Reachable env p) (ht : 1 ≤ p.threshold) :
    ∃ A : Finset Address, (∀ a, a ∈ A ↔ Added p a) ∧ A.card = p.currentIndex ∧
      p.currentIndex ≤ p.memberCount ∧ p.memberCount + 1 < 2 ^ 32 ∧ ¬ Added p 0 := by
  obtain ⟨_, o1, o2, hz⟩ := sim hr ht
  have h := Zkdvrf.regInv hz
  obtain ⟨A, hA, hm⟩ := h.added
  have hb : 7 * p.memberCount + 14 < 2 ^ 32 := h.bound
  exact ⟨A, hm, hA, h.idx_le, by omega, fun h0 => h0 (h.addr_self 0 h0)⟩

private theorem addAll_spec {M : Machine} {admin : Address} (ha : admin ≠ 0) :
    ∀ (ws : List Address) (p : State), Reachable M.env p → 1 ≤ p.threshold → p.owner = admin →
    ((∃ p', addAll M admin p ws = some p') ↔
      (0 ∉ ws ∧ {a | Added p a ∨ a ∈ ws}.ncard ≤ p.memberCount)) ∧
    ∀ p', addAll M admin p ws = some p' → Reachable M.env p' ∧
      (∀ a, Added p' a ↔ Added p a ∨ a ∈ ws) ∧ (∀ a, Added p a → p'.addrToNode a = p.addrToNode a) ∧
      (∀ a, ¬ Registered p a → ¬ Registered p' a) ∧
      p' = { p with addrToNode := p'.addrToNode, currentIndex := p'.currentIndex } := by
  intro ws
  induction ws with
  | nil =>
    intro p hr ht ho
    obtain ⟨A, hm, hA, hle, _, _⟩ := ncard_added hr ht
    refine ⟨⟨fun _ => ⟨List.not_mem_nil, ?_⟩, fun _ => ⟨p, rfl⟩⟩, ?_⟩
    · have : {a | Added p a ∨ a ∈ ([] : List Address)} = (A : Set Address) := by
        ext a; simp [hm]
      rw [this, Set.ncard_coe_finset, hA]
      exact hle
    · rintro p' h
      cases h
      exact ⟨hr, fun a => by simp, fun _ _ => rfl, fun _ h => h, rfl⟩
  | cons a ws ih =>
    intro p hr ht ho
    obtain ⟨A, hm, hA, hle, hb, h0⟩ := ncard_added hr ht
    have hset : {b | Added p b ∨ b ∈ a :: ws} = ((A ∪ (a :: ws).toFinset : Finset Address) : Set Address) := by
      ext b
      rw [Finset.mem_coe, Finset.mem_union, hm, List.mem_toFinset]
      rfl
    have hfold : addAll M admin p (a :: ws) =
        (if (p.addrToNode a).nodeAddress = 0 then
          ZkdvrfPre.exec M.env p ⟨admin, 0⟩ (.addPermissionedNodes a) else some p).bind
          (fun p => addAll M admin p ws) := rfl
    by_cases hadd : (p.addrToNode a).nodeAddress = 0
    · rw [hfold, if_pos hadd]
      cases he : exec M.env p ⟨admin, 0⟩ (.addPermissionedNodes a) with
      | none =>
        rw [Option.bind_none]
        refine ⟨⟨fun ⟨_, h⟩ => (by cases h), fun ⟨h1, h2⟩ => ?_⟩, fun _ h => (by cases h)⟩
        exfalso
        have hne : a ≠ 0 := fun h => h1 (by rw [h]; exact List.mem_cons_self)
        have hlt : ¬ p.currentIndex < p.memberCount := by
          intro hlt
          have : exec M.env p ⟨admin, 0⟩ (.addPermissionedNodes a) = some _ :=
            addPermissionedNodes_some.2 ⟨rfl, ho.symm, hlt, hne, hadd, by omega, rfl⟩
          rw [he] at this
          cases this
        rw [hset, Set.ncard_coe_finset] at h2
        have hsub : insert a A ⊆ A ∪ (a :: ws).toFinset := by
          intro b hb
          rcases Finset.mem_insert.1 hb with rfl | hb
          · exact Finset.mem_union_right _ (List.mem_toFinset.2 List.mem_cons_self)
          · exact Finset.mem_union_left _ hb
        have hc := Finset.card_le_card hsub
        rw [Finset.card_insert_of_notMem (fun h => (hm a).1 h hadd)] at hc
        omega
      | some p1 =>
        rw [Option.bind_some]
        have hr1 := reach_next hr ha he
        obtain ⟨_, _, hlt, hne, _, _, hp1⟩ := addPermissionedNodes_some.1 he
        have e1 : p1.owner = p.owner := by rw [← hp1]
        have e2 : p1.threshold = p.threshold := by rw [← hp1]
        have e3 : p1.memberCount = p.memberCount := by rw [← hp1]
        have e4 : p1.addrToNode = Function.update p.addrToNode a ⟨a, false, 0, false, 0⟩ := by rw [← hp1]
        have e5 : ∀ b, Added p1 b ↔ Added p b ∨ b = a := by
          intro b
          unfold Added
          rw [e4]
          by_cases hb : b = a
          · subst hb
            rw [Function.update_self]
            exact ⟨fun _ => Or.inr rfl, fun _ => hne⟩
          · rw [Function.update_of_ne hb]
            exact ⟨Or.inl, fun h => h.resolve_right hb⟩
        obtain ⟨i1, i2⟩ := ih p1 hr1 (by rw [e2]; exact ht) (e1.trans ho)
        have hs : {b | Added p1 b ∨ b ∈ ws} = {b | Added p b ∨ b ∈ a :: ws} := by
          ext b
          rw [Set.mem_ofPred_eq, Set.mem_ofPred_eq, e5, List.mem_cons, or_assoc]
        rw [i1, hs, e3]
        constructor
        · constructor
          · rintro ⟨h1, h2⟩
            refine ⟨fun h => ?_, h2⟩
            rcases List.mem_cons.1 h with h | h
            · exact hne h.symm
            · exact h1 h
          · rintro ⟨h1, h2⟩
            exact ⟨fun h => h1 (List.mem_cons_of_mem _ h), h2⟩
        · intro p' hp'
          obtain ⟨j1, j2, j3, j4, j5⟩ := i2 p' hp'
          refine ⟨j1, fun b => ?_, fun b hb => ?_, fun b hb => ?_, ?_⟩
          · rw [j2, e5, List.mem_cons, or_assoc]
          · have hba : b ≠ a := by rintro rfl; exact hb hadd
            rw [j3 b ((e5 b).2 (Or.inl hb)), e4, Function.update_of_ne hba]
          · refine j4 b ?_
            unfold Registered at hb ⊢
            rw [e4]
            by_cases hba : b = a
            · subst hba
              rw [Function.update_self]
              exact Bool.noConfusion
            · rwa [Function.update_of_ne hba]
          · rw [j5, ← hp1]
    · rw [hfold, if_neg hadd, Option.bind_some]
      obtain ⟨i1, i2⟩ := ih p hr ht ho
      have hs : {b | Added p b ∨ b ∈ a :: ws} = {b | Added p b ∨ b ∈ ws} := by
        ext b
        rw [Set.mem_ofPred_eq, Set.mem_ofPred_eq, List.mem_cons]
        constructor
        · rintro (h | rfl | h)
          · exact Or.inl h
          · exact Or.inl hadd
          · exact Or.inr h
        · rintro (h | h)
          · exact Or.inl h
          · exact Or.inr (Or.inr h)
      rw [i1, hs]
      constructor
      · constructor
        · rintro ⟨h1, h2⟩
          refine ⟨fun h => ?_, h2⟩
          rcases List.mem_cons.1 h with h | h
          · exact h0 (by rw [h]; exact hadd)
          · exact h1 h
        · rintro ⟨h1, h2⟩
          exact ⟨fun h => h1 (List.mem_cons_of_mem _ h), h2⟩
      · intro p' hp'
        obtain ⟨j1, j2, j3, j4, j5⟩ := i2 p' hp'
        refine ⟨j1, fun b => ?_, j3, j4, j5⟩
        rw [j2, List.mem_cons]
        constructor
        · rintro (h | h)
          · exact Or.inl h
          · exact Or.inr (Or.inr h)
        · rintro (h | rfl | h)
          · exact Or.inl h
          · exact Or.inl hadd
          · exact Or.inr h

/-- C58. The admin service gets past its start exactly if its wallet owns the contract and either all
places are taken already, or no configured address is zero and the configured nodes fit beside the
nodes added before. -/
theorem C58_startup_iff (M : Machine) {p : State} (hr : Reachable M.env p) (ht : 1 ≤ p.threshold)
    (admin : Address) (ha : admin ≠ 0) (wallets : List Address) :
    (∃ p', startup M p admin wallets = some p') ↔ p.owner = admin ∧
      ({a | Added p a}.ncard = p.memberCount ∨
        0 ∉ wallets ∧ {a | Added p a ∨ a ∈ wallets}.ncard ≤ p.memberCount) := by
  obtain ⟨A, hm, hA, _⟩ := ncard_added hr ht
  have hc : {a | Added p a}.ncard = p.currentIndex := by
    have : {a | Added p a} = (A : Set Address) := by ext a; simp [hm]
    rw [this, Set.ncard_coe_finset, hA]
  rw [hc]
  unfold startup
  by_cases ho : p.owner = admin
  · rw [if_neg (not_not.2 ho)]
    by_cases hf : p.currentIndex = p.memberCount
    · rw [if_pos hf]
      exact ⟨fun _ => ⟨ho, Or.inl hf⟩, fun _ => ⟨p, rfl⟩⟩
    · rw [if_neg hf, (addAll_spec ha wallets p hr ht ho).1]
      exact ⟨fun h => ⟨ho, Or.inr h⟩, fun h => h.2.resolve_left hf⟩
  · rw [if_pos ho]
    exact ⟨fun ⟨_, h⟩ => (by cases h), fun h => absurd h.1 ho⟩

/-- C58. If places are free, the start adds exactly the configured nodes that were missing and changes
nothing else: nodes added before keep their records, and nobody is registered by it. -/
theorem C58_startup_effect (M : Machine) {p p' : State} (hr : Reachable M.env p) (ht : 1 ≤ p.threshold)
    (admin : Address) (ha : admin ≠ 0) (wallets : List Address)
    (h : startup M p admin wallets = some p') :
    Reachable M.env p' ∧
    ({a | Added p a}.ncard = p.memberCount → p' = p) ∧
    ({a | Added p a}.ncard ≠ p.memberCount →
      (∀ a, Added p' a ↔ Added p a ∨ a ∈ wallets) ∧
      (∀ a, Added p a → p'.addrToNode a = p.addrToNode a) ∧
      (∀ a, ¬ Registered p a → ¬ Registered p' a) ∧
      p' = { p with addrToNode := p'.addrToNode, currentIndex := p'.currentIndex }) := by
  obtain ⟨A, hm, hA, _⟩ := ncard_added hr ht
  have hc : {a | Added p a}.ncard = p.currentIndex := by
    have : {a | Added p a} = (A : Set Address) := by ext a; simp [hm]
    rw [this, Set.ncard_coe_finset, hA]
  rw [hc]
  unfold startup at h
  by_cases ho : p.owner = admin
  · rw [if_neg (not_not.2 ho)] at h
    by_cases hf : p.currentIndex = p.memberCount
    · rw [if_pos hf] at h
      cases h
      exact ⟨hr, fun _ => rfl, fun h => absurd hf h⟩
    · rw [if_neg hf] at h
      obtain ⟨h1, h2⟩ := (addAll_spec ha wallets p hr ht ho).2 p' h
      exact ⟨h1, fun h => absurd h hf, fun _ => h2⟩
  · rw [if_pos ho] at h
    cases h

/-- C58, C55. The start on a newly deployed contract for as many members as there are configured
wallets, with a threshold between 1 and that number and no deposit, leads to the state in which honest
services succeed (`C55_completes`). -/
theorem C58_fresh (M : Machine) {m : Msg} {t n : ℕ} {admin : Address} {a b c : Bool} {p : State}
    (hd : constructor m t n admin a b c 0 = some p) (ws : List Address) (hnd : ws.Nodup)
    (hlen : ws.length = n) (hz : 0 ∉ ws) (ht : 1 ≤ t) (htn : t ≤ n) :
    ∃ p', startup M p admin ws = some p' ∧ Fresh M admin ws t n p' := by
  have hr := Reachable.deploy (env := M.env) hd
  obtain ⟨_, ha, _, _, _, _, _, hp⟩ := constructor_some.1 hd
  have hno : ∀ a, ¬ Added p a := by intro a; rw [← hp]; exact fun h => h rfl
  have e1 : p.threshold = t := by rw [← hp]
  have e2 : p.memberCount = n := by rw [← hp]
  have e3 : p.owner = admin := by rw [← hp]
  have hset : {a | Added p a ∨ a ∈ ws} = (ws.toFinset : Set Address) := by
    ext a
    rw [Finset.mem_coe, List.mem_toFinset]
    exact ⟨fun h => h.resolve_left (hno a), Or.inr⟩
  have hcard : {a | Added p a ∨ a ∈ ws}.ncard ≤ p.memberCount := by
    rw [hset, Set.ncard_coe_finset, List.toFinset_card_of_nodup hnd, hlen, e2]
  obtain ⟨p', h'⟩ := (C58_startup_iff M hr (by rw [e1]; exact ht) admin ha ws).2
    ⟨e3, Or.inr ⟨hz, hcard⟩⟩
  obtain ⟨r', _, s'⟩ := C58_startup_effect M hr (by rw [e1]; exact ht) admin ha ws h'
  have hne : {a | Added p a}.ncard ≠ p.memberCount := by
    have : {a | Added p a} = ∅ := by
      ext a; exact ⟨fun h => absurd h (hno a), fun h => h.elim⟩
    rw [this, Set.ncard_empty, e2]
    omega
  obtain ⟨s1, _, _, s4⟩ := s' hne
  refine ⟨p', h', r', ?_, ha, ?_, ?_, ht, htn, ?_, ?_, ?_, hnd, hlen, fun a => ?_⟩
  · rw [s4]; exact e3
  · rw [s4]; exact e1
  · rw [s4]; exact e2
  · rw [s4, ← hp]
  · rw [s4, ← hp]
  · rw [s4, ← hp]
  · rw [s1]; exact ⟨fun h => h.resolve_left (hno a), Or.inr⟩

/-- C58. If the contract has more places than nodes are configured (the service configures five), the
registration phase never ends, whatever the services and others do. -/
theorem C58_violation_more_members (M : Machine) {o : Address} {ws : List Address} {w w' : World}
    (h0 : Deployed M o ws w.p) (hp : w.p.contractPhase = .Unregistered)
    (hlt : ws.toFinset.card < w.p.memberCount) (hrun : Run M o ws w w') :
    w'.p.contractPhase = .Unregistered := by
  suffices h : Reachable M.env w'.p ∧ w'.p.owner = o ∧ (∀ a, Added w'.p a → a ∈ ws) ∧
      w'.p.threshold = w.p.threshold ∧ w'.p.memberCount = w.p.memberCount ∧
      w'.p.contractPhase = .Unregistered from h.2.2.2.2.2
  have key : ∀ (p : State) (a : Address) (c : Zkdvrf.Call), a ≠ 0 →
      (∃ pk, c = .registerNode pk) ∨ (∃ pp pr, c = .submitPublicParams pp pr) ∨
        (∃ w, c = .submitPartialEval w) →
      (Reachable M.env p ∧ p.owner = o ∧ (∀ a, Added p a → a ∈ ws) ∧ p.threshold = w.p.threshold ∧
        p.memberCount = w.p.memberCount ∧ p.contractPhase = .Unregistered) →
      Reachable M.env (mine M p a c) ∧ (mine M p a c).owner = o ∧
        (∀ b, Added (mine M p a c) b → b ∈ ws) ∧ (mine M p a c).threshold = w.p.threshold ∧
        (mine M p a c).memberCount = w.p.memberCount ∧
        (mine M p a c).contractPhase = .Unregistered := by
    rintro p a c ha hc ⟨h1, h2, h3, h4, h5, h6⟩
    unfold mine
    cases he : exec M.env p ⟨a, 0⟩ c with
    | none => rw [step_none he]; exact ⟨h1, h2, h3, h4, h5, h6⟩
    | some p' =>
      rw [step_some he]
      obtain ⟨i1, i2⟩ := exec_ids he (by
        rcases hc with h | h | h
        · exact Or.inl h
        · exact Or.inr (Or.inl h)
        · exact Or.inr (Or.inr (Or.inl h)))
      have hr' := reach_next h1 ha he
      have i3 := step_threshold M.env p (.call ⟨a, 0⟩ c)
      rw [step_some he] at i3
      have hadd' : ∀ b, Added p' b → b ∈ ws := fun b hb => h3 b (by
        unfold Added at hb ⊢; rwa [i2 b] at hb)
      refine ⟨hr', i1.trans h2, hadd', i3.1.trans h4, i3.2.trans h5, ?_⟩
      by_contra hne
      have ht' : 1 ≤ p'.threshold := by rw [i3.1, h4]; exact h0.threshold
      obtain ⟨c1, _, _, _, _, _, c7⟩ := C31_pre_registration M.env hr' ht'
      obtain ⟨c8, _⟩ := c7 hne
      obtain ⟨A, hm, hA, _⟩ := ncard_added hr' ht'
      have hsub : A ⊆ ws.toFinset := fun b hb => List.mem_toFinset.2 (hadd' b ((hm b).1 hb))
      have hcard := Finset.card_le_card hsub
      obtain ⟨_, o1, o2, hz⟩ := sim hr' ht'
      have r1 : p'.pkList.length = p'.registeredCount := (Zkdvrf.regInv hz).pkLen
      have r2 : p'.registeredCount ≤ p'.currentIndex := (Zkdvrf.regInv hz).reg_card
      have r3 := i3.2.trans h5
      omega
  induction hrun with
  | refl => exact ⟨h0.reachable, h0.owner, h0.added, rfl, rfl, hp⟩
  | @node v a d ha _ ih =>
    unfold World.nodeStep
    split
    · exact ih
    · exact ih
    · next f c hs =>
      exact key v.p a c (h0.nonzero a ha) (by
        rcases nodePass_send hs with h | h | h
        · exact Or.inl h
        · exact Or.inr (Or.inl h)
        · exact Or.inr (Or.inr h.1)) ih
  | @admin v b _ ih =>
    have e : adminPass M v.p v.admin b = .idle := by unfold adminPass; rw [ih.2.2.2.2.2]
    rw [e]
    exact ih
  | @tick v b e _ ih =>
    have e : adminTick v.p v.admin b e = .idle := by unfold adminTick; rw [ih.2.2.2.2.2]
    rw [e]
    exact ih
  | @other v m c hm ho hn _ ih =>
    change Reachable M.env (step M.env v.p (.call m c)) ∧ (step M.env v.p (.call m c)).owner = o ∧
      (∀ a, Added (step M.env v.p (.call m c)) a → a ∈ ws) ∧
      (step M.env v.p (.call m c)).threshold = w.p.threshold ∧
      (step M.env v.p (.call m c)).memberCount = w.p.memberCount ∧
      (step M.env v.p (.call m c)).contractPhase = .Unregistered
    rcases C39_pre_outsiders M.env v.p m c hm (by rw [ih.2.1]; exact ho)
      (fun h => hn (ih.2.2.1 _ h)) with h | ⟨_, _, _, h, _⟩
    · rw [h]; exact ih
    · rw [ih.2.2.2.2.2] at h; cases h

/-- Five wallets and a contract for five members; and the same wallets with a contract for seven. -/
example : (∃ p p', constructor ⟨7, 0⟩ 3 5 7 true true true 0 = some p ∧
      startup toyMachine p 7 [1, 2, 3, 4, 5] = some p' ∧ Fresh toyMachine 7 [1, 2, 3, 4, 5] 3 5 p') ∧
    (∃ p, constructor ⟨7, 0⟩ 3 4 7 true true true 0 = some p ∧ p.owner = 7 ∧
      startup toyMachine p 7 [1, 2, 3, 4, 5] = none) ∧
    ∃ p, Deployed toyMachine 7 [1, 2, 3, 4, 5] p ∧ p.contractPhase = .Unregistered ∧
      [(1 : Address), 2, 3, 4, 5].toFinset.card < p.memberCount := by
  have dep : ∀ n, n < 10 → ∃ p, constructor ⟨7, 0⟩ 3 n 7 true true true 0 = some p := by
    intro n hn
    exact ⟨_, constructor_some.2 ⟨rfl, by decide, rfl, by omega, by norm_num, by omega, by omega, rfl⟩⟩
  refine ⟨?_, ?_, ?_⟩
  · obtain ⟨p, hp⟩ := dep 5 (by norm_num)
    obtain ⟨p', h1, h2⟩ := C58_fresh toyMachine hp [1, 2, 3, 4, 5] (by decide) rfl (by decide)
      (by norm_num) (by norm_num)
    exact ⟨p, p', hp, h1, h2⟩
  · obtain ⟨p, hp⟩ := dep 4 (by norm_num)
    have hr := Reachable.deploy (env := toyMachine.env) hp
    obtain ⟨_, _, _, _, _, _, _, he⟩ := constructor_some.1 hp
    have hno : ∀ a, ¬ Added p a := by intro a; rw [← he]; exact fun h => h rfl
    refine ⟨p, hp, by rw [← he], ?_⟩
    by_contra hne
    obtain ⟨p', h'⟩ := Option.ne_none_iff_exists'.1 hne
    have hset : {a | Added p a ∨ a ∈ [(1 : Address), 2, 3, 4, 5]} =
        ([(1 : Address), 2, 3, 4, 5].toFinset : Set Address) := by
      ext a
      rw [Finset.mem_coe, List.mem_toFinset]
      exact ⟨fun h => h.resolve_left (hno a), Or.inr⟩
    have hempty : {a | Added p a} = ∅ := by
      ext a; exact ⟨fun h => absurd h (hno a), fun h => h.elim⟩
    have hm : p.memberCount = 4 := by rw [← he]
    rcases ((C58_startup_iff toyMachine hr (by rw [← he]; norm_num) 7 (by decide) _).1 ⟨p', h'⟩).2 with
      h | ⟨_, h⟩
    · rw [hempty, Set.ncard_empty, hm] at h
      cases h
    · rw [hset, Set.ncard_coe_finset, hm] at h
      revert h
      decide
  · obtain ⟨p, hp⟩ := dep 7 (by norm_num)
    have hr := Reachable.deploy (env := toyMachine.env) hp
    obtain ⟨_, _, _, _, _, _, _, he⟩ := constructor_some.1 hp
    refine ⟨p, ⟨hr, by rw [← he], by decide, by rw [← he]; norm_num, ?_, ?_, by rw [← he]⟩,
      by rw [← he], by rw [← he]; decide⟩
    · intro a ha
      rw [← he] at ha
      exact absurd rfl ha
    · intro a ha
      simp only [List.mem_cons, List.not_mem_nil, or_false] at ha
      rcases ha with rfl | rfl | rfl | rfl | rfl <;> decide

end Verif.Props
