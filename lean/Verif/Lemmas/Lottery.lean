import Verif.Lemmas.Shuffle
import Verif.Lemmas.ZkdvrfMono

/-! Invariants of contracts/lottery.sol. -/

namespace Verif.Lottery

theorem setup_some {s s' : State} {m : Msg} {r b : ℕ} : setup s m r b = some s' ↔
    m.value = 0 ∧ m.sender = s.owner ∧ s.contractPhase = .Setup ∧
    { s with randRoundNum := r, minBet := b, contractPhase := .Open } = s' := by
  unfold setup
  simp only [require_bind, decide_eq_true_eq, pure, Option.some.injEq]

theorem enter_some {z : Zkdvrf.State} {s s' : State} {m : Msg} : enter z s m = some s' ↔
    s.contractPhase = .Open ∧ z.currentRoundNum < s.randRoundNum ∧ s.hasEntered m.sender = false ∧
    s.minBet ≤ m.value ∧
    { s with
      players := s.players ++ [m.sender]
      hasEntered := Function.update s.hasEntered m.sender true
      balance := s.balance + m.value
      bets := s.bets ++ [(m.sender, m.value)] } = s' := by
  unfold enter roundReached
  simp only [require_bind, decide_eq_true_eq, pure, Option.some.injEq, Bool.not_eq_true',
    decide_eq_false_iff_not, not_le]

theorem transferOwnership_some {s s' : State} {m : Msg} {a : Address} :
    transferOwnership s m a = some s' ↔ m.value = 0 ∧ m.sender = s.owner ∧ a ≠ 0 ∧
    { s with owner := a } = s' := by
  unfold transferOwnership
  simp only [require_bind, decide_eq_true_eq, pure, Option.some.injEq]

theorem renounceOwnership_some {s s' : State} {m : Msg} :
    renounceOwnership s m = some s' ↔ m.value = 0 ∧ m.sender = s.owner ∧
    { s with owner := 0 } = s' := by
  unfold renounceOwnership
  simp only [require_bind, decide_eq_true_eq, pure, Option.some.injEq]

theorem random_bind {α : Type} {o : Option SolRandom} {f : SolRandom → Evm α} {x : α} :
    (o >>= f) = some x ↔ ∃ b, o = some b ∧ f b = some x := opt_bind
theorem players_bind {α : Type} {o : Option (List Address)} {f : List Address → Evm α} {x : α} :
    (o >>= f) = some x ↔ ∃ b, o = some b ∧ f b = some x := opt_bind
theorem addr_bind {α : Type} {o : Option Address} {f : Address → Evm α} {x : α} :
    (o >>= f) = some x ↔ ∃ b, o = some b ∧ f b = some x := opt_bind

theorem pickStart_some {k : Keccak} {z : Zkdvrf.State} {s s' : State} {m : Msg} :
    pickStart k z s m = some s' ↔ m.value = 0 ∧ m.sender = s.owner ∧ s.contractPhase = .Open ∧
    0 < s.players.length ∧ (z.roundToRandom s.randRoundNum).value ≠ 0 ∧
    ∃ players winner, shuffleLoop (choice k (z.roundToRandom s.randRoundNum).value)
        s.players.length 0 s.players = some players ∧ players[0]? = some winner ∧
      { s with
        randValue := (z.roundToRandom s.randRoundNum).value
        players := players
        balance := 0
        payments := s.payments ++ [(winner, s.balance)] } = s' := by
  unfold pickStart
  simp only [require_bind, random_bind, players_bind, addr_bind, decide_eq_true_eq, pure,
    Option.some.injEq]
  constructor
  · rintro ⟨h1, h2, h3, h4, r, hr, p, hp, w, hw, rfl⟩
    unfold Zkdvrf.getRandomAtRound at hr
    by_cases h : (z.roundToRandom s.randRoundNum).value ≠ 0
    · rw [if_pos h] at hr
      have hr := Option.some.inj hr
      subst hr
      unfold shuffle at hp
      simp only [require_bind] at hp
      exact ⟨h1, h2, h3, h4, h, p, w, hp.2, hw, rfl⟩
    · rw [if_neg h] at hr; cases hr
  · rintro ⟨h1, h2, h3, h4, h, p, w, hp, hw, rfl⟩
    refine ⟨h1, h2, h3, h4, _, by unfold Zkdvrf.getRandomAtRound; rw [if_pos h], p, ?_, w, hw, rfl⟩
    unfold shuffle
    simp only [require_bind, decide_eq_true_eq]
    exact ⟨h, hp⟩

/-- What holds at every moment, also while a recipient has control. -/
structure Inv (env : Env) (w : World) : Prop where
  zk : Zkdvrf.Reachable env w.zk
  fresh : w.lot.contractPhase = .Setup → w.lot.players = [] ∧ w.lot.bets = [] ∧ w.lot.payments = []
  nodup : w.lot.players.Nodup
  entered : ∀ a, a ∈ w.lot.players ↔ w.lot.hasEntered a = true
  betters : (w.lot.bets.map Prod.fst).Perm w.lot.players
  minBet : ∀ b ∈ w.lot.bets, w.lot.minBet ≤ b.2
  paid : ∀ p ∈ w.lot.payments, p.1 ∈ w.lot.players
  sums : w.lot.balance + total w.lot.payments = total w.lot.bets + w.lot.forced
  first : ∀ p rest, w.lot.payments = p :: rest → total w.lot.bets ≤ p.2
  known : w.lot.payments ≠ [] → w.lot.randRoundNum ≤ w.zk.currentRoundNum

theorem zk_round {env : Env} {z : Zkdvrf.State} (hr : Zkdvrf.Reachable env z) {k : ℕ}
    (h : (z.roundToRandom k).value ≠ 0) : k ≤ z.currentRoundNum := by
  by_contra hgt
  rw [(Zkdvrf.roundInv hr).future k (by omega)] at h
  exact h rfl

theorem total_append (a b : List (Address × ℕ)) : total (a ++ b) = total a + total b := by
  simp [total]

theorem total_single (a : Address) (n : ℕ) : total [(a, n)] = n := by simp [total]

theorem inv_exec {env : Env} {w : World} (hi : Inv env w) {m : Msg} {c : Call} {l : State}
    (he : exec w.zk w.lot m c = some l) : Inv env { w with lot := l } := by
  cases c with
  | setup r b =>
    obtain ⟨_, _, h3, rfl⟩ := setup_some.1 he
    obtain ⟨hp, hb, hy⟩ := hi.fresh h3
    exact {
      zk := hi.zk
      fresh := by intro h; cases h
      nodup := hi.nodup
      entered := hi.entered
      betters := hi.betters
      minBet := by
        intro x hx
        simp only [hb] at hx
        cases hx
      paid := hi.paid
      sums := hi.sums
      first := hi.first
      known := fun h => absurd hy h }
  | enter =>
    obtain ⟨h1, h2, h3, h4, rfl⟩ := enter_some.1 he
    have hnp : w.lot.payments = [] := by
      by_contra h
      have := hi.known h
      omega
    have hnot : m.sender ∉ w.lot.players := by rw [hi.entered, h3]; exact Bool.noConfusion
    exact {
      zk := hi.zk
      fresh := by intro h; rw [h1] at h; cases h
      nodup := by
        simp only
        rw [List.nodup_append]
        refine ⟨hi.nodup, List.nodup_singleton _, ?_⟩
        rintro a ha b hb rfl
        rw [List.mem_singleton.1 hb] at ha
        exact hnot ha
      entered := by
        intro a
        simp only [List.mem_append, List.mem_singleton]
        by_cases ha : a = m.sender
        · subst ha; simp
        · rw [Function.update_of_ne ha, hi.entered]; simp [ha]
      betters := by
        simp only [List.map_append, List.map_cons, List.map_nil]
        exact hi.betters.append_right _
      minBet := by
        intro b hb
        rcases List.mem_append.1 hb with hb | hb
        · exact hi.minBet b hb
        · rw [List.mem_singleton.1 hb]; exact h4
      paid := by intro p hp; simp only [hnp] at hp; cases hp
      sums := by
        have := hi.sums
        simp only [total_append, total_single]
        omega
      first := by intro p rest h; simp only [hnp] at h; cases h
      known := fun h => absurd hnp h }
  | transferOwnership a =>
    obtain ⟨_, _, _, rfl⟩ := transferOwnership_some.1 he
    exact { hi with }
  | renounceOwnership =>
    obtain ⟨_, _, rfl⟩ := renounceOwnership_some.1 he
    exact { hi with }

theorem inv_pickStart {env : Env} {w : World} (hi : Inv env w) {m : Msg} {l : State}
    (he : pickStart env.keccak w.zk w.lot m = some l) : Inv env { w with lot := l } := by
  obtain ⟨_, _, h3, h4, h5, ps, win, hs, hw, rfl⟩ := pickStart_some.1 he
  have hperm := loop_perm _ _ _ _ _ hs
  exact {
    zk := hi.zk
    fresh := by intro h; rw [h3] at h; cases h
    nodup := hperm.nodup_iff.2 hi.nodup
    entered := fun a => hperm.mem_iff.trans (hi.entered a)
    betters := hi.betters.trans hperm.symm
    minBet := hi.minBet
    paid := by
      intro p hp
      rcases List.mem_append.1 hp with hp | hp
      · exact hperm.mem_iff.2 (hi.paid p hp)
      · rw [List.mem_singleton.1 hp]
        exact List.mem_of_getElem? hw
    sums := by
      have := hi.sums
      simp only [total_append, total_single]
      omega
    first := by
      intro p rest h
      cases hpay : w.lot.payments with
      | nil =>
        simp only [hpay, List.nil_append, List.cons.injEq] at h
        rw [← h.1]
        have := hi.sums
        rw [hpay] at this
        simp only [total, List.map_nil, List.sum_nil] at this ⊢
        omega
      | cons q t =>
        simp only [hpay, List.cons_append, List.cons.injEq] at h
        rw [← h.1]
        exact hi.first q t hpay
    known := fun _ => zk_round hi.zk h5 }

theorem inv_steps {env : Env} {w w' : World} (h : Steps env w w') (hi : Inv env w) :
    Inv env w' := by
  induction h with
  | refl => exact hi
  | zkdvrf tx hv _ ih =>
    have ih := ih hi
    have hk := Zkdvrf.keeps_step ih.zk hv
    exact { ih with
      zk := .step tx hv ih.zk
      known := fun h => (ih.known h).trans hk.round }
  | call m c hm _ he ih => exact inv_exec (ih hi) he
  | force a _ ih =>
    have ih := ih hi
    exact { ih with
      sums := by
        have := ih.sums
        simp only
        omega }
  | pickWinner m hm _ he _ ih ih' =>
    have h2 := ih' (inv_pickStart (ih hi) he)
    exact { h2 with fresh := by intro h; cases h }

theorem inv {env : Env} {w : World} (h : Reachable env w) : Inv env w := by
  induction h with
  | @deploy z m l hz h =>
    unfold constructor at h
    simp only [require_bind, pure, Option.some.injEq] at h
    obtain ⟨_, _, rfl⟩ := h
    exact {
      zk := hz
      fresh := fun _ => ⟨rfl, rfl, rfl⟩
      nodup := List.nodup_nil
      entered := by intro a; simp
      betters := List.Perm.refl _
      minBet := by intro b hb; cases hb
      paid := by intro p hp; cases hp
      sums := rfl
      first := by intro p rest h; cases h
      known := fun h => absurd rfl h }
  | steps _ h ih => exact inv_steps h ih

/-- Between top-level events, payments exist exactly when the lottery is closed. -/
theorem open_unpaid {env : Env} {w w' : World} (h : Steps env w w')
    (hi : (w.lot.contractPhase ≠ .Close → w.lot.payments = []) ∧
      (w.lot.contractPhase = .Close → w.lot.payments ≠ [])) :
    (w'.lot.contractPhase ≠ .Close → w'.lot.payments = []) ∧
      (w'.lot.contractPhase = .Close → w'.lot.payments ≠ []) := by
  induction h with
  | refl => exact hi
  | zkdvrf tx hv _ ih => exact ih hi
  | call m c hm _ he ih =>
    have ih := ih hi
    cases c with
    | setup r b =>
      obtain ⟨_, _, h3, rfl⟩ := setup_some.1 he
      exact ⟨fun _ => ih.1 (by rw [h3]; exact Phase.noConfusion), fun h => by cases h⟩
    | enter =>
      obtain ⟨h1, h2, h3, h4, rfl⟩ := enter_some.1 he
      exact ih
    | transferOwnership a =>
      obtain ⟨_, _, _, rfl⟩ := transferOwnership_some.1 he
      exact ih
    | renounceOwnership =>
      obtain ⟨_, _, rfl⟩ := renounceOwnership_some.1 he
      exact ih
  | force a _ ih => exact ih hi
  | pickWinner m hm _ he h' ih ih' =>
    refine ⟨fun h => absurd rfl h, fun _ => ?_⟩
    have key : ∀ {u v : World}, Steps env u v → u.lot.payments ≠ [] → v.lot.payments ≠ [] := by
      intro u v h hu
      induction h with
      | refl => exact hu
      | zkdvrf tx hv _ ih => exact ih hu
      | call m c hm _ he ih =>
        have ih := ih hu
        cases c with
        | setup r b => obtain ⟨_, _, h3, rfl⟩ := setup_some.1 he; exact ih
        | enter => obtain ⟨h1, h2, h3, h4, rfl⟩ := enter_some.1 he; exact ih
        | transferOwnership a => obtain ⟨_, _, _, rfl⟩ := transferOwnership_some.1 he; exact ih
        | renounceOwnership => obtain ⟨_, _, rfl⟩ := renounceOwnership_some.1 he; exact ih
      | force a _ ih => exact ih hu
      | pickWinner m hm _ he _ ih ih' =>
        refine ih' ?_
        obtain ⟨_, _, _, _, _, ps, win, _, _, rfl⟩ := pickStart_some.1 he
        exact List.append_ne_nil_of_right_ne_nil _ (List.cons_ne_nil _ _)
    have := key h' (by
      obtain ⟨_, _, _, _, _, ps, win, _, _, rfl⟩ := pickStart_some.1 he
      exact List.append_ne_nil_of_right_ne_nil _ (List.cons_ne_nil _ _))
    exact this

/-- What a history cannot undo. -/
structure Keeps (w w' : World) : Prop where
  round : w.zk.currentRoundNum ≤ w'.zk.currentRoundNum
  settings : w.lot.contractPhase ≠ .Setup → w'.lot.contractPhase ≠ .Setup ∧
    w'.lot.randRoundNum = w.lot.randRoundNum ∧ w'.lot.minBet = w.lot.minBet
  bets : ∃ more, w'.lot.bets = w.lot.bets ++ more
  entries : w.lot.contractPhase ≠ .Setup → w.lot.randRoundNum ≤ w.zk.currentRoundNum →
    w'.lot.players.Perm w.lot.players ∧ w'.lot.bets = w.lot.bets ∧
    w'.lot.hasEntered = w.lot.hasEntered
  payments : ∃ more, w'.lot.payments = w.lot.payments ++ more
  closed : w.lot.contractPhase = .Close → ∃ owner extra, w'.lot =
    { w.lot with owner := owner, balance := w.lot.balance + extra, forced := w.lot.forced + extra }

theorem Keeps.refl (w : World) : Keeps w w where
  round := le_rfl
  settings h := ⟨h, rfl, rfl⟩
  bets := ⟨[], (List.append_nil _).symm⟩
  entries _ _ := ⟨List.Perm.refl _, rfl, rfl⟩
  payments := ⟨[], (List.append_nil _).symm⟩
  closed _ := ⟨w.lot.owner, 0, rfl⟩

theorem Keeps.trans {a b c : World} (h : Keeps a b) (h' : Keeps b c) : Keeps a c where
  round := h.round.trans h'.round
  settings hp := by
    obtain ⟨h1, h2, h3⟩ := h.settings hp
    obtain ⟨h1', h2', h3'⟩ := h'.settings h1
    exact ⟨h1', h2'.trans h2, h3'.trans h3⟩
  bets := by
    obtain ⟨m, hm⟩ := h.bets
    obtain ⟨m', hm'⟩ := h'.bets
    exact ⟨m ++ m', by rw [hm', hm, List.append_assoc]⟩
  entries hp hr := by
    obtain ⟨h1, h2, h3⟩ := h.settings hp
    obtain ⟨e1, e2, e3⟩ := h.entries hp hr
    obtain ⟨e1', e2', e3'⟩ := h'.entries h1 (by rw [h2]; exact hr.trans h.round)
    exact ⟨e1'.trans e1, e2'.trans e2, e3'.trans e3⟩
  payments := by
    obtain ⟨m, hm⟩ := h.payments
    obtain ⟨m', hm'⟩ := h'.payments
    exact ⟨m ++ m', by rw [hm', hm, List.append_assoc]⟩
  closed hc := by
    obtain ⟨o, e, he⟩ := h.closed hc
    obtain ⟨o', e', he'⟩ := h'.closed (by rw [he]; exact hc)
    exact ⟨o', e + e', by rw [he', he]; simp only [Nat.add_assoc]⟩

theorem keeps_exec {w : World} {m : Msg} {c : Call} {l : State}
    (he : exec w.zk w.lot m c = some l) : Keeps w { w with lot := l } := by
  cases c with
  | setup r b =>
    obtain ⟨_, _, h3, rfl⟩ := setup_some.1 he
    exact {
      round := le_rfl
      settings := fun h => absurd h3 h
      bets := ⟨[], (List.append_nil _).symm⟩
      entries := fun h => absurd h3 h
      payments := ⟨[], (List.append_nil _).symm⟩
      closed := fun h => by rw [h3] at h; cases h }
  | enter =>
    obtain ⟨h1, h2, h3, h4, rfl⟩ := enter_some.1 he
    exact {
      round := le_rfl
      settings := fun h => ⟨h, rfl, rfl⟩
      bets := ⟨_, rfl⟩
      entries := fun _ h => by omega
      payments := ⟨[], (List.append_nil _).symm⟩
      closed := fun h => by rw [h1] at h; cases h }
  | transferOwnership a =>
    obtain ⟨_, _, _, rfl⟩ := transferOwnership_some.1 he
    exact {
      round := le_rfl
      settings := fun h => ⟨h, rfl, rfl⟩
      bets := ⟨[], (List.append_nil _).symm⟩
      entries := fun _ h => ⟨List.Perm.refl _, rfl, rfl⟩
      payments := ⟨[], (List.append_nil _).symm⟩
      closed := fun h => ⟨a, 0, rfl⟩ }
  | renounceOwnership =>
    obtain ⟨_, _, rfl⟩ := renounceOwnership_some.1 he
    exact {
      round := le_rfl
      settings := fun h => ⟨h, rfl, rfl⟩
      bets := ⟨[], (List.append_nil _).symm⟩
      entries := fun _ h => ⟨List.Perm.refl _, rfl, rfl⟩
      payments := ⟨[], (List.append_nil _).symm⟩
      closed := fun h => ⟨0, 0, rfl⟩ }

theorem keeps_pickStart {k : Keccak} {w : World} {m : Msg} {l : State}
    (he : pickStart k w.zk w.lot m = some l) : Keeps w { w with lot := l } := by
  obtain ⟨_, _, h3, h4, h5, ps, win, hs, hw, rfl⟩ := pickStart_some.1 he
  exact {
    round := le_rfl
    settings := fun h => ⟨h, rfl, rfl⟩
    bets := ⟨[], (List.append_nil _).symm⟩
    entries := fun _ _ => ⟨loop_perm _ _ _ _ _ hs, rfl, rfl⟩
    payments := ⟨_, rfl⟩
    closed := fun h => by rw [h3] at h; cases h }

theorem steps_keeps {env : Env} {w w' : World} (h : Steps env w w') (hi : Inv env w) :
    Keeps w w' := by
  induction h with
  | refl => exact Keeps.refl _
  | @zkdvrf w w1 tx hv h1 ih =>
    have hk := Zkdvrf.keeps_step (inv_steps h1 hi).zk hv
    refine (ih hi).trans ?_
    exact { Keeps.refl w1 with round := hk.round }
  | call m c hm _ he ih => exact (ih hi).trans (keeps_exec he)
  | @force w w1 a _ ih =>
    refine (ih hi).trans ?_
    exact {
      round := le_rfl
      settings := fun h => ⟨h, rfl, rfl⟩
      bets := ⟨[], (List.append_nil _).symm⟩
      entries := fun _ _ => ⟨List.Perm.refl _, rfl, rfl⟩
      payments := ⟨[], (List.append_nil _).symm⟩
      closed := fun _ => ⟨w1.lot.owner, a, rfl⟩ }
  | @pickWinner w w1 w2 m hm l h1 he h2 ih ih' =>
    have hi1 := inv_steps h1 hi
    have k2 := ih' (inv_pickStart hi1 he)
    refine ((ih hi).trans ((keeps_pickStart he).trans k2)).trans ?_
    obtain ⟨_, _, h3, _⟩ := pickStart_some.1 he
    exact {
      round := le_rfl
      settings := fun h => ⟨Phase.noConfusion, rfl, rfl⟩
      bets := ⟨[], (List.append_nil _).symm⟩
      entries := fun _ _ => ⟨List.Perm.refl _, rfl, rfl⟩
      payments := ⟨[], (List.append_nil _).symm⟩
      closed := fun h => ⟨w2.lot.owner, 0, by
        change pickEnd w2.lot = _
        unfold pickEnd
        rw [← h]
        rfl⟩ }

end Verif.Lottery
