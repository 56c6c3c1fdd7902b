import Verif.Lemmas.Lottery
import Verif.Props.Liveness

/-! C42, C43: the lottery. -/

namespace Verif.Props
open Verif.Lottery

/-! ### C42 -/

/-- C42. In every state of the lottery, also in the middle of a payment, the players are exactly the
addresses that placed a bet, each of them once, and every bet is at least the minimum. -/
theorem C42_players (env : Env) {w w' : World} (hr : Reachable env w) (h : Steps env w w') :
    w'.lot.players.Nodup ∧
    (∀ a, a ∈ w'.lot.players ↔ ∃ v, (a, v) ∈ w'.lot.bets) ∧
    (w'.lot.bets.map Prod.fst).Nodup ∧
    ∀ a v, (a, v) ∈ w'.lot.bets → w'.lot.minBet ≤ v := by
  have hi := inv_steps h (inv hr)
  refine ⟨hi.nodup, fun a => ?_, hi.betters.nodup_iff.2 hi.nodup, fun a v hb => hi.minBet _ hb⟩
  rw [← hi.betters.mem_iff, List.mem_map]
  constructor
  · rintro ⟨b, hb, rfl⟩; exact ⟨b.2, hb⟩
  · rintro ⟨v, hv⟩; exact ⟨_, hv, rfl⟩

/-- C42. A bet is accepted only while the chosen round has not been opened; at that time no random
is stored for it, nor any partial evaluation. -/
theorem C42_enter_before_random (env : Env) {w w' : World} (hr : Reachable env w)
    (h : Steps env w w') (m : Msg) (l : State)
    (he : exec w'.zk w'.lot m .enter = some l) :
    ¬ RoundOpened w' ∧ ¬ Zkdvrf.Completed w'.zk w'.lot.randRoundNum ∧
    (∀ i, ¬ Zkdvrf.Submitted w'.zk w'.lot.randRoundNum i) ∧
    w'.lot.minBet ≤ m.value ∧ m.sender ∉ w'.lot.players ∧
    l.players = w'.lot.players ++ [m.sender] ∧ l.balance = w'.lot.balance + m.value := by
  have hi := inv_steps h (inv hr)
  obtain ⟨h1, h2, h3, h4, rfl⟩ := enter_some.1 he
  refine ⟨by unfold RoundOpened; omega, ?_, ?_, h4, ?_, rfl, rfl⟩
  · intro hc
    have := zk_round hi.zk hc
    omega
  · intro i hs
    have := ((Zkdvrf.evalInv hi.zk).stored _ i hs).1.2
    omega
  · rw [hi.entered, h3]; exact Bool.noConfusion

/-- C42. Once the chosen round has been opened nobody enters: from then on, whatever happens, the
players are only reordered and the bets stay. -/
theorem C42_entries_closed (env : Env) {w w' : World} (hr : Reachable env w)
    (hs : w.lot.contractPhase ≠ .Setup) (ho : RoundOpened w) (h : Steps env w w') :
    w'.lot.players.Perm w.lot.players ∧ w'.lot.bets = w.lot.bets := by
  obtain ⟨h1, h2, _⟩ := (steps_keeps h (inv hr)).entries hs ho
  exact ⟨h1, h2⟩

/-- C42. The setting is chosen once: after `setup` neither the round nor the minimum bet changes. -/
theorem C42_settings_fixed (env : Env) {w w' : World} (hr : Reachable env w)
    (hs : w.lot.contractPhase ≠ .Setup) (h : Steps env w w') :
    w'.lot.randRoundNum = w.lot.randRoundNum ∧ w'.lot.minBet = w.lot.minBet :=
  ((steps_keeps h (inv hr)).settings hs).2

/-- C42. `pickWinner` is the owner's, needs the random of the chosen round, reorders the players and
hands the whole balance to the player now in the first place. -/
theorem C42_pickWinner (env : Env) (w : World) (m : Msg) (l : State)
    (he : pickStart env.keccak w.zk w.lot m = some l) :
    m.sender = w.lot.owner ∧ w.lot.contractPhase = .Open ∧
    Zkdvrf.Completed w.zk w.lot.randRoundNum ∧ l.players.Perm w.lot.players ∧
    ∃ winner, winner ∈ w.lot.players ∧ l.players[0]? = some winner ∧
      l.payments = w.lot.payments ++ [(winner, w.lot.balance)] ∧ l.balance = 0 := by
  obtain ⟨_, h2, h3, _, h5, ps, win, hs, hw, rfl⟩ := pickStart_some.1 he
  have hp := loop_perm _ _ _ _ _ hs
  exact ⟨h2, h3, h5, hp, win, hp.mem_iff.1 (List.mem_of_getElem? hw), hw, rfl, rfl⟩

/-- C42. The prize is paid once.  While the lottery is not closed nothing has been paid.  When it is
closed, one player has received all the bets; if no ether was forced into the contract, that is
exactly the sum of the bets, whatever the recipient did while it had control, and nothing else was
paid to anybody. -/
theorem C42_paid_once (env : Env) {w : World} (hr : Reachable env w) :
    (w.lot.contractPhase ≠ .Close → w.lot.payments = []) ∧
    (w.lot.contractPhase = .Close → ∃ winner amount rest,
      w.lot.payments = (winner, amount) :: rest ∧ winner ∈ w.lot.players ∧
      total w.lot.bets ≤ amount ∧ (∀ p ∈ rest, p.1 ∈ w.lot.players) ∧
      amount + total rest ≤ total w.lot.bets + w.lot.forced ∧
      (w.lot.forced = 0 → amount = total w.lot.bets ∧ (∀ p ∈ rest, p.2 = 0) ∧
        w.lot.balance = 0)) := by
  have hi := inv hr
  have key : (w.lot.contractPhase ≠ .Close → w.lot.payments = []) ∧
      (w.lot.contractPhase = .Close → w.lot.payments ≠ []) := by
    clear hi
    induction hr with
    | @deploy z m l hz h =>
      unfold Lottery.constructor at h
      simp only [require_bind, pure, Option.some.injEq] at h
      obtain ⟨_, _, rfl⟩ := h
      exact ⟨fun _ => rfl, fun h => by cases h⟩
    | steps _ h ih => exact open_unpaid h ih
  refine ⟨key.1, fun hc => ?_⟩
  obtain ⟨⟨win, amount⟩, rest, hp⟩ := List.exists_cons_of_ne_nil (key.2 hc)
  have hfirst := hi.first _ _ hp
  have hsum := hi.sums
  rw [hp] at hsum
  simp only [total, List.map_cons, List.sum_cons] at hsum hfirst ⊢
  refine ⟨win, amount, rest, hp, hi.paid _ (by rw [hp]; exact List.mem_cons_self), hfirst,
    fun p hpr => hi.paid p (by rw [hp]; exact List.mem_cons_of_mem _ hpr), by omega, ?_⟩
  intro hf
  refine ⟨by omega, ?_, by omega⟩
  intro p hpr
  have : p.2 ≤ (rest.map Prod.snd).sum := List.single_le_sum (by simp) _ (List.mem_map_of_mem hpr)
  omega

/-- C42. A closed lottery stays as it is: no entry, no payment, no new order. -/
theorem C42_closed_final (env : Env) {w w' : World} (hr : Reachable env w)
    (hc : w.lot.contractPhase = .Close) (h : Steps env w w') :
    w'.lot.contractPhase = .Close ∧ w'.lot.players = w.lot.players ∧ w'.lot.bets = w.lot.bets ∧
    w'.lot.payments = w.lot.payments ∧ w.lot.balance ≤ w'.lot.balance := by
  obtain ⟨o, e, he⟩ := (steps_keeps h (inv hr)).closed hc
  rw [he]
  exact ⟨hc, rfl, rfl, rfl, Nat.le_add_right _ _⟩

/-- C42. The draw cannot be blocked: with at least one player and the random of the chosen round,
the owner's `pickWinner` gets as far as paying the winner. -/
theorem C42_pick_possible (env : Env) (w : World) (ho : w.lot.contractPhase = .Open)
    (hp : w.lot.players ≠ []) (hc : Zkdvrf.Completed w.zk w.lot.randRoundNum) :
    ∃ l, pickStart env.keccak w.zk w.lot ⟨w.lot.owner, 0⟩ = some l := by
  obtain ⟨ps, hs⟩ := loop_total (choice env.keccak (w.zk.roundToRandom w.lot.randRoundNum).value)
    w.lot.players.length 0 w.lot.players (choice_le _ _) (by omega)
  have hlen := (loop_perm _ _ _ _ _ hs).length_eq
  have hpos := List.length_pos_iff.2 hp
  exact ⟨_, pickStart_some.2 ⟨rfl, rfl, ho, hpos, hc, ps, ps[0], hs,
    List.getElem?_eq_getElem (by omega), rfl⟩⟩

/-! ### C43 -/

/-- C43. For the swap partners `c` (the `i`-th at most `i`) the loop never reverts, and the map from
swap partners to resulting orders is a bijection onto all orders of the players. -/
theorem C43_bijection {α : Type} (l : List α) (hl : l.Nodup) :
    (∀ c : Spec.SwapChoices l.length, ∃ l', shuffleLoop c.toFun l.length 0 l = some l' ∧
      l'.Perm l) ∧
    ∀ l' : List α, l'.Perm l →
      ∃! c : Spec.SwapChoices l.length, shuffleLoop c.toFun l.length 0 l = some l' := by
  have hle : ∀ (c : Spec.SwapChoices l.length) k, c.toFun k ≤ k := by
    intro c k
    unfold Spec.SwapChoices.toFun
    split
    · exact Nat.le_of_lt_succ (c _).isLt
    · exact Nat.zero_le _
  constructor
  · intro c
    obtain ⟨l', h⟩ := loop_total c.toFun l.length 0 l (hle c) (by omega)
    exact ⟨l', h, loop_perm _ _ _ _ _ h⟩
  · intro l' hp
    obtain ⟨f, hf, hs⟩ := loop_exists l hl l.length l' le_rfl hp (by
      intro j hj
      rw [List.getElem?_eq_none hj, List.getElem?_eq_none (by rw [hp.length_eq]; exact hj)])
    let c : Spec.SwapChoices l.length := fun i => ⟨f i.val, Nat.lt_succ_of_le (hf i.val)⟩
    have hc : shuffleLoop c.toFun l.length 0 l = some l' := by
      rw [← hs]
      apply loop_congr
      intro k _ hk
      rw [Nat.zero_add] at hk
      unfold Spec.SwapChoices.toFun
      rw [dif_pos hk]
    refine ⟨c, hc, ?_⟩
    intro c' hc'
    funext i
    apply Fin.ext
    have := loop_unique l hl (hle c') (hle c) l.length l' hc' hc i.val i.isLt
    unfold Spec.SwapChoices.toFun at this
    rw [dif_pos i.isLt, dif_pos i.isLt] at this
    exact this

/-- C43. The contract's shuffle is this loop with swap partners read off the hashes of the random
with the position, modulo `i + 1`. -/
theorem C43_contract_shuffle (k : Keccak) (v : Word) (players : List Address) (hv : v ≠ 0) :
    ∃ c : Spec.SwapChoices players.length,
      shuffle k v players = shuffleLoop c.toFun players.length 0 players ∧
      ∀ i : Fin players.length, (c i).val =
        (k (Word.bytes v ++ Word.bytes (BitVec.ofNat 256 i.val))).toNat % (i.val + 1) := by
  refine ⟨fun i => ⟨choice k v i.val, Nat.lt_succ_of_le (choice_le k v i.val)⟩, ?_, fun i => rfl⟩
  unfold shuffle
  rw [show require (decide (v ≠ 0)) = some () by rw [decide_eq_true hv]; rfl]
  simp only [Option.bind_eq_bind, Option.bind_some]
  apply loop_congr
  intro i _ hi
  rw [Nat.zero_add] at hi
  unfold Spec.SwapChoices.toFun
  rw [dif_pos hi]

/-! ### Non-vacuity -/

/-- Events at the zkdvrf contract are events of the world. -/
theorem steps_later {env : Env} {l : State} {z z' : Zkdvrf.State} (h : Zkdvrf.Later env z z') :
    Steps env ⟨l, z⟩ ⟨l, z'⟩ := by
  induction h with
  | refl => exact .refl _
  | step tx hv _ ih => exact .zkdvrf tx hv ih

/-- Every reachable zkdvrf state comes after a deployment. -/
theorem after_deploy {env : Env} {s : Zkdvrf.State} (h : Zkdvrf.Reachable env s) :
    ∃ s0, Zkdvrf.Reachable env s0 ∧ s0.currentRoundNum = 0 ∧ Zkdvrf.Later env s0 s := by
  induction h with
  | @deploy m t n a b c d s hm h =>
    refine ⟨s, .deploy hm h, ?_, .refl⟩
    obtain ⟨_, _, _, _, _, _, _, rfl⟩ := Zkdvrf.constructor_some.1 h
    rfl
  | step tx hv _ ih =>
    obtain ⟨s0, h1, h2, h3⟩ := ih
    exact ⟨s0, h1, h2, .step tx hv h3⟩

/-- A lottery of two players over round 1, with the random of round 1 produced after the entries:
the worlds before the second player enters, after that, and when the winner can be picked. -/
theorem toy_lottery_bets : ∃ w1 l w, Reachable (toyEnv 1 2) w1 ∧ exec w1.zk w1.lot ⟨12, 8⟩ .enter = some l ∧
    Steps (toyEnv 1 2) w1 ⟨l, w1.zk⟩ ∧ Steps (toyEnv 1 2) ⟨l, w1.zk⟩ w ∧ w.lot = l ∧ l.contractPhase = .Open ∧
    l.players = [11, 12] ∧ l.bets = [(11, 3), (12, 8)] ∧ l.balance = 11 ∧ l.forced = 0 ∧ l.minBet = 3 ∧
    RoundOpened w ∧ Zkdvrf.Completed w.zk l.randRoundNum ∧ l.owner = 5 := by
  obtain ⟨z, hz, _, _, _, _, hcur, hdone, _⟩ := toy_done
  obtain ⟨z0, h0, hr0, hl⟩ := after_deploy hz
  let l0 : State := ⟨5, [], fun _ => false, 0, 0, 0, .Setup, 0, [], [], 0⟩
  let l1 : State := { l0 with randRoundNum := 1, minBet := 3, contractPhase := .Open }
  let l2 : State := { l1 with
    players := l1.players ++ [11], hasEntered := Function.update l1.hasEntered 11 true
    balance := l1.balance + 3, bets := l1.bets ++ [(11, 3)] }
  let l3 : State := { l2 with
    players := l2.players ++ [12], hasEntered := Function.update l2.hasEntered 12 true
    balance := l2.balance + 8, bets := l2.bets ++ [(12, 8)] }
  have hc : Lottery.constructor ⟨5, 0⟩ = some l0 := rfl
  have r0 : Reachable (toyEnv 1 2) ⟨l0, z0⟩ := .deploy h0 hc
  have e1 : exec z0 l0 ⟨5, 0⟩ (.setup 1 3) = some l1 := setup_some.2 ⟨rfl, rfl, rfl, rfl⟩
  have e2 : exec z0 l1 ⟨11, 3⟩ .enter = some l2 :=
    enter_some.2 ⟨rfl, by rw [hr0]; exact Nat.one_pos, rfl, by decide, rfl⟩
  have e3 : exec z0 l2 ⟨12, 8⟩ .enter = some l3 :=
    enter_some.2 ⟨rfl, by rw [hr0]; exact Nat.one_pos, by decide, by decide, rfl⟩
  have s1 : Steps (toyEnv 1 2) ⟨l0, z0⟩ ⟨l1, z0⟩ := .call ⟨5, 0⟩ _ (by decide) (.refl _) e1
  have s2 : Steps (toyEnv 1 2) ⟨l0, z0⟩ ⟨l2, z0⟩ := .call ⟨11, 3⟩ _ (by decide) s1 e2
  have s3 : Steps (toyEnv 1 2) ⟨l2, z0⟩ ⟨l3, z0⟩ := .call ⟨12, 8⟩ _ (by decide) (.refl _) e3
  exact ⟨⟨l2, z0⟩, l3, ⟨l3, z⟩, .steps r0 s2, e3, s3, steps_later hl, rfl, rfl, rfl, rfl, rfl, rfl, rfl,
    hcur.ge, hdone, rfl⟩

theorem toy_lottery : ∃ w, Reachable (toyEnv 1 2) w ∧ w.lot.contractPhase = .Open ∧
    w.lot.players = [11, 12] ∧ RoundOpened w ∧ Zkdvrf.Completed w.zk w.lot.randRoundNum ∧
    w.lot.owner = 5 := by
  obtain ⟨w1, l, w, h1, _, h3, h4, rfl, h5, h6, _, _, _, _, h7, h8, h9⟩ := toy_lottery_bets
  exact ⟨w, .steps (.steps h1 h3) h4, h5, h6, h7, h8, h9⟩

/-- `C42_enter_before_random`, `C42_players`: player 12 enters with 8 wei while the round is not opened, and is in
the list with its bet. -/
example : ∃ w l, Reachable (toyEnv 1 2) w ∧ exec w.zk w.lot ⟨12, 8⟩ .enter = some l ∧ ¬ RoundOpened w ∧
    12 ∉ w.lot.players ∧ l.players = w.lot.players ++ [12] ∧ (12, 8) ∈ l.bets := by
  obtain ⟨w1, l, w, h1, h2, h3, _, _, _, h6, h7, _⟩ := toy_lottery_bets
  obtain ⟨a, _, _, _, b, c, _⟩ := C42_enter_before_random (toyEnv 1 2) h1 (.refl _) ⟨12, 8⟩ l h2
  exact ⟨w1, l, h1, h2, a, b, c, by rw [h7]; decide⟩

/-- `C42_entries_closed`, `C42_settings_fixed`: the round is opened; whatever happens, the players stay 11 and 12
and the round stays the same. -/
example : ∃ w, Reachable (toyEnv 1 2) w ∧ w.lot.contractPhase ≠ .Setup ∧ RoundOpened w ∧
    ∀ w', Steps (toyEnv 1 2) w w' → w'.lot.players.Perm [11, 12] ∧ w'.lot.bets = [(11, 3), (12, 8)] ∧
      w'.lot.minBet = 3 := by
  obtain ⟨w1, l, w, h1, _, h3, h4, rfl, h5, h6, h7, _, _, h10, h8, _⟩ := toy_lottery_bets
  have hr : Reachable (toyEnv 1 2) w := .steps (.steps h1 h3) h4
  have hs : w.lot.contractPhase ≠ .Setup := by rw [h5]; exact Phase.noConfusion
  refine ⟨w, hr, hs, h8, fun w' h => ?_⟩
  obtain ⟨a, b⟩ := C42_entries_closed (toyEnv 1 2) hr hs h8 h
  rw [h6] at a
  exact ⟨a, b.trans h7, (C42_settings_fixed (toyEnv 1 2) hr hs h).2.trans h10⟩

/-- `C42_pickWinner`, `C42_paid_once`, `C42_closed_final`: the owner 5 picks the winner, who gets both bets, 11 wei;
after that nothing changes. -/
example : ∃ w w', Reachable (toyEnv 1 2) w ∧ w.lot.contractPhase = .Open ∧ Steps (toyEnv 1 2) w w' ∧
    w'.lot.contractPhase = .Close ∧ (∃ winner ∈ [(11 : Address), 12], w'.lot.payments = [(winner, 11)]) ∧
    ∀ w'', Steps (toyEnv 1 2) w' w'' → w''.lot.payments = w'.lot.payments := by
  obtain ⟨w1, l, w, h1, _, h3, h4, rfl, h5, h6, h7, h8, _, _, _, h9, h10⟩ := toy_lottery_bets
  have hr : Reachable (toyEnv 1 2) w := .steps (.steps h1 h3) h4
  obtain ⟨l, hl⟩ := C42_pick_possible (toyEnv 1 2) w h5 (by rw [h6]; simp) h9
  have hst : Steps (toyEnv 1 2) w ⟨pickEnd l, w.zk⟩ :=
    .pickWinner ⟨w.lot.owner, 0⟩ (by change w.lot.owner ≠ 0; rw [h10]; decide) (.refl w) hl (.refl _)
  obtain ⟨_, _, _, _, win, a, _, b, _⟩ := C42_pickWinner (toyEnv 1 2) w _ l hl
  have hp := (C42_paid_once (toyEnv 1 2) hr).1 (by rw [h5]; exact Phase.noConfusion)
  refine ⟨w, _, hr, h5, hst, rfl, ⟨win, by rw [← h6]; exact a, ?_⟩, fun w'' h => ?_⟩
  · change l.payments = _
    rw [b, hp, h8]
    rfl
  · exact (C42_closed_final (toyEnv 1 2) (.steps hr hst) rfl h).2.2.2.1

/-- `C43_bijection`, `C43_contract_shuffle`: the two swap sequences for two players give the two orders. -/
example : shuffleLoop (fun i => [0, 1].getD i 0) 2 0 ['a', 'b'] = some ['a', 'b'] ∧
    shuffleLoop (fun i => [0, 0].getD i 0) 2 0 ['a', 'b'] = some ['b', 'a'] := by decide

end Verif.Props
