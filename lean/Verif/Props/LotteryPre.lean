import Verif.Model.LotteryPre
import Verif.Props.Lottery
import Verif.Props.ContractPre
import Verif.Props.Witnesses
import Verif.Spec.ContractPre

/-! C42 for the contract that is deployed: the lottery next to zkdvrf_pre. -/

namespace Verif.LotteryPre

/-- The events next to zkdvrf_pre are events next to the plain contract. -/
theorem sim_steps {env : Env} {w w' : World} (h : Steps env w w') :
    ∀ (o1 o2 : List Address), Zkdvrf.Reachable env (w.zk.toZk o1 o2) → ZkdvrfPre.Extra env w.zk →
      1 ≤ w.zk.threshold → ∃ o1' o2', Lottery.Steps env ⟨w.lot, w.zk.toZk o1 o2⟩
        ⟨w'.lot, w'.zk.toZk o1' o2'⟩ ∧ Zkdvrf.Reachable env (w'.zk.toZk o1' o2') ∧
        ZkdvrfPre.Extra env w'.zk ∧ w'.zk.threshold = w.zk.threshold := by
  induction h with
  | refl w => exact fun o1 o2 hr hx _ => ⟨o1, o2, .refl _, hr, hx, rfl⟩
  | @zkdvrf w w' tx hv _ ih =>
    intro o1 o2 hr hx ht
    obtain ⟨a1, a2, hs, hr', hx', ht'⟩ := ih o1 o2 hr hx ht
    obtain ⟨e1, e2, e3⟩ := ZkdvrfPre.sim_step tx hr' hx' (by rw [ht']; exact ht)
    rcases e3 with e3 | ⟨b1, b2, e3⟩
    · dsimp only
      rw [e3]
      exact ⟨a1, a2, hs, hr', hx', ht'⟩
    · have hs' := Lottery.Steps.zkdvrf tx hv hs
      have hr'' := Zkdvrf.Reachable.step tx hv hr'
      dsimp only at hs'
      rw [e3] at hs' hr''
      exact ⟨b1, b2, hs', hr'', e1, e2.trans ht'⟩
  | @call w w' m c hm l _ he ih =>
    intro o1 o2 hr hx ht
    obtain ⟨a1, a2, hs, hr', hx', ht'⟩ := ih o1 o2 hr hx ht
    refine ⟨a1, a2, .call m c hm hs ?_, hr', hx', ht'⟩
    cases c <;> exact he
  | force a _ ih =>
    intro o1 o2 hr hx ht
    obtain ⟨a1, a2, hs, hr', hx', ht'⟩ := ih o1 o2 hr hx ht
    exact ⟨a1, a2, .force a hs, hr', hx', ht'⟩
  | @pickWinner w w1 w2 m hm l _ he _ ih ih' =>
    intro o1 o2 hr hx ht
    obtain ⟨a1, a2, hs, hr', hx', ht'⟩ := ih o1 o2 hr hx ht
    obtain ⟨b1, b2, hs2, hr2, hx2, ht2⟩ := ih' a1 a2 hr' hx' (by dsimp only; rw [ht']; exact ht)
    exact ⟨b1, b2, .pickWinner m hm hs he hs2, hr2, hx2, ht2.trans ht'⟩

theorem Steps.threshold {env : Env} {w w' : World} (h : Steps env w w') :
    w'.zk.threshold = w.zk.threshold := by
  induction h with
  | refl w => rfl
  | zkdvrf tx hv _ ih => exact (ZkdvrfPre.step_threshold env _ tx).1.trans ih
  | call m c hm _ he ih => exact ih
  | force a _ ih => exact ih
  | pickWinner m hm _ he _ ih ih' => exact ih'.trans ih

/-- Every state is, but for two order lists nobody reads, a state next to the plain contract. -/
theorem sim {env : Env} {w : World} (h : Reachable env w) (ht : 1 ≤ w.zk.threshold) :
    ∃ o1 o2, Lottery.Reachable env ⟨w.lot, w.zk.toZk o1 o2⟩ ∧
      Zkdvrf.Reachable env (w.zk.toZk o1 o2) ∧ ZkdvrfPre.Extra env w.zk := by
  induction h with
  | @deploy z m l hz h =>
    obtain ⟨hx, o1, o2, hr⟩ := ZkdvrfPre.sim hz ht
    exact ⟨o1, o2, .deploy hr h, hr, hx⟩
  | @steps w w' hr h ih =>
    rw [h.threshold] at ht
    obtain ⟨o1, o2, hl, hz, hx⟩ := ih ht
    obtain ⟨a1, a2, hs, hz', hx', _⟩ := sim_steps h o1 o2 hz hx ht
    exact ⟨a1, a2, .steps hl hs, hz', hx'⟩

theorem Steps.zk_reachable {env : Env} {w w' : World} (h : Steps env w w')
    (hr : ZkdvrfPre.Reachable env w.zk) : ZkdvrfPre.Reachable env w'.zk := by
  induction h with
  | refl w => exact hr
  | zkdvrf tx hv _ ih => exact .step tx hv (ih hr)
  | call m c hm _ he ih => exact ih hr
  | force a _ ih => exact ih hr
  | pickWinner m hm _ he _ ih ih' => exact ih' (ih hr)

theorem Reachable.zk {env : Env} {w : World} (h : Reachable env w) :
    ZkdvrfPre.Reachable env w.zk := by
  induction h with
  | deploy hz _ => exact hz
  | steps _ h ih => exact h.zk_reachable ih

end Verif.LotteryPre

namespace Verif.Props
open Verif.LotteryPre

/-- C42, next to zkdvrf_pre. The players are exactly the addresses that placed a bet, each once, and
every bet is at least the minimum. -/
theorem C42_pre_players (env : Env) {w w' : World} (hr : Reachable env w) (h : Steps env w w')
    (ht : 1 ≤ w.zk.threshold) :
    w'.lot.players.Nodup ∧
    (∀ a, a ∈ w'.lot.players ↔ ∃ v, (a, v) ∈ w'.lot.bets) ∧
    (w'.lot.bets.map Prod.fst).Nodup ∧
    ∀ a v, (a, v) ∈ w'.lot.bets → w'.lot.minBet ≤ v := by
  obtain ⟨o1, o2, hl, hz, hx⟩ := LotteryPre.sim hr ht
  obtain ⟨a1, a2, hs, _⟩ := sim_steps h o1 o2 hz hx ht
  exact C42_players env hl hs

/-- C42, next to zkdvrf_pre. A bet is accepted only while the chosen round has not been opened; at
that time there is neither a random nor any partial evaluation for it. -/
theorem C42_pre_enter_before_random (env : Env) {w w' : World} (hr : Reachable env w)
    (h : Steps env w w') (ht : 1 ≤ w.zk.threshold) (m : Msg) (l : Lottery.State)
    (he : exec w'.zk w'.lot m .enter = some l) :
    w'.zk.currentRoundNum < w'.lot.randRoundNum ∧
    ¬ ZkdvrfPre.Completed w'.zk w'.lot.randRoundNum ∧
    (∀ i, ¬ ZkdvrfPre.Submitted w'.zk w'.lot.randRoundNum i) ∧
    w'.lot.minBet ≤ m.value ∧ m.sender ∉ w'.lot.players ∧
    l.players = w'.lot.players ++ [m.sender] ∧ l.balance = w'.lot.balance + m.value := by
  obtain ⟨o1, o2, hl, hz, hx⟩ := LotteryPre.sim hr ht
  obtain ⟨a1, a2, hs, _⟩ := sim_steps h o1 o2 hz hx ht
  obtain ⟨h1, h2⟩ := C42_enter_before_random env hl hs m l he
  exact ⟨Nat.lt_of_not_le h1, h2⟩

/-- C42, next to zkdvrf_pre. Once the chosen round has been opened the players are only reordered and
the bets stay. -/
theorem C42_pre_entries_closed (env : Env) {w w' : World} (hr : Reachable env w)
    (ht : 1 ≤ w.zk.threshold) (hs : w.lot.contractPhase ≠ .Setup)
    (ho : w.lot.randRoundNum ≤ w.zk.currentRoundNum) (h : Steps env w w') :
    w'.lot.players.Perm w.lot.players ∧ w'.lot.bets = w.lot.bets := by
  obtain ⟨o1, o2, hl, hz, hx⟩ := LotteryPre.sim hr ht
  obtain ⟨a1, a2, hs', _⟩ := sim_steps h o1 o2 hz hx ht
  exact C42_entries_closed env hl hs ho hs'

/-- C42, next to zkdvrf_pre. After `setup` neither the round nor the minimum bet changes. -/
theorem C42_pre_settings_fixed (env : Env) {w w' : World} (hr : Reachable env w)
    (ht : 1 ≤ w.zk.threshold) (hs : w.lot.contractPhase ≠ .Setup) (h : Steps env w w') :
    w'.lot.randRoundNum = w.lot.randRoundNum ∧ w'.lot.minBet = w.lot.minBet := by
  obtain ⟨o1, o2, hl, hz, hx⟩ := LotteryPre.sim hr ht
  obtain ⟨a1, a2, hs', _⟩ := sim_steps h o1 o2 hz hx ht
  exact C42_settings_fixed env hl hs hs'

/-- C42, next to zkdvrf_pre. `pickWinner` is the owner's, needs the random of the chosen round, and
hands the whole balance to a player; unlike next to the plain contract, that random cannot have been
published before at least `threshold` members of the committee submitted their evaluations, and the
round is a proper one (not round 0). -/
theorem C42_pre_pickWinner (env : Env) {w w' : World} (hr : Reachable env w)
    (h : Steps env w w') (ht : 1 ≤ w.zk.threshold) (m : Msg) (l : Lottery.State)
    (he : pickStart env.keccak w'.zk w'.lot m = some l) :
    m.sender = w'.lot.owner ∧ w'.lot.contractPhase = .Open ∧
    ZkdvrfPre.Completed w'.zk w'.lot.randRoundNum ∧ 1 ≤ w'.lot.randRoundNum ∧
    w'.zk.threshold ≤ w'.zk.roundSubmissionCount w'.lot.randRoundNum ∧
    l.players.Perm w'.lot.players ∧
    ∃ winner, winner ∈ w'.lot.players ∧ l.players[0]? = some winner ∧
      l.payments = w'.lot.payments ++ [(winner, w'.lot.balance)] ∧ l.balance = 0 := by
  obtain ⟨h1, h2, h3, h4⟩ := C42_pickWinner env ⟨w'.lot, w'.zk.toZk [] []⟩ m l he
  obtain ⟨q1, q2⟩ := ZkdvrfPre.quorum (h.zk_reachable hr.zk) (by rw [h.threshold]; exact ht) _ h3
  exact ⟨h1, h2, h3, q1, q2, h4⟩

/-- C42, next to zkdvrf_pre. The prize is paid once. -/
theorem C42_pre_paid_once (env : Env) {w : World} (hr : Reachable env w)
    (ht : 1 ≤ w.zk.threshold) :
    (w.lot.contractPhase ≠ .Close → w.lot.payments = []) ∧
    (w.lot.contractPhase = .Close → ∃ winner amount rest,
      w.lot.payments = (winner, amount) :: rest ∧ winner ∈ w.lot.players ∧
      Lottery.total w.lot.bets ≤ amount ∧ (∀ p ∈ rest, p.1 ∈ w.lot.players) ∧
      amount + Lottery.total rest ≤ Lottery.total w.lot.bets + w.lot.forced ∧
      (w.lot.forced = 0 → amount = Lottery.total w.lot.bets ∧ (∀ p ∈ rest, p.2 = 0) ∧
        w.lot.balance = 0)) := by
  obtain ⟨o1, o2, hl, _⟩ := LotteryPre.sim hr ht
  exact C42_paid_once env hl

/-- C42, next to zkdvrf_pre. A closed lottery stays as it is. -/
theorem C42_pre_closed_final (env : Env) {w w' : World} (hr : Reachable env w)
    (ht : 1 ≤ w.zk.threshold) (hc : w.lot.contractPhase = .Close) (h : Steps env w w') :
    w'.lot.contractPhase = .Close ∧ w'.lot.players = w.lot.players ∧ w'.lot.bets = w.lot.bets ∧
    w'.lot.payments = w.lot.payments ∧ w.lot.balance ≤ w'.lot.balance := by
  obtain ⟨o1, o2, hl, hz, hx⟩ := LotteryPre.sim hr ht
  obtain ⟨a1, a2, hs', _⟩ := sim_steps h o1 o2 hz hx ht
  exact C42_closed_final env hl hc hs'

/-- C42, next to zkdvrf_pre. With at least one player and the random of the chosen round, the owner's
`pickWinner` gets as far as paying the winner. -/
theorem C42_pre_pick_possible (env : Env) (w : World) (ho : w.lot.contractPhase = .Open)
    (hp : w.lot.players ≠ []) (hc : ZkdvrfPre.Completed w.zk w.lot.randRoundNum) :
    ∃ l, pickStart env.keccak w.zk w.lot ⟨w.lot.owner, 0⟩ = some l :=
  C42_pick_possible env ⟨w.lot, w.zk.toZk [] []⟩ ho hp hc

/-! ### Concrete cases -/

/-- Events at zkdvrf_pre are events of the world. -/
theorem pre_steps_later {env : Env} {l : Lottery.State} {z z' : ZkdvrfPre.State}
    (h : ZkdvrfPre.Later env z z') : Steps env ⟨l, z⟩ ⟨l, z'⟩ := by
  induction h with
  | refl => exact .refl _
  | step tx hv _ ih => exact .zkdvrf tx hv ih

/-- Every reachable zkdvrf_pre state comes after a deployment. -/
theorem pre_after_deploy {env : Env} {s : ZkdvrfPre.State} (h : ZkdvrfPre.Reachable env s) :
    ∃ s0, ZkdvrfPre.Reachable env s0 ∧ s0.currentRoundNum = 0 ∧ ZkdvrfPre.Later env s0 s := by
  induction h with
  | @deploy m t n o a b c d s h =>
    refine ⟨s, .deploy h, ?_, .refl⟩
    obtain ⟨_, _, _, _, _, _, _, rfl⟩ := ZkdvrfPre.constructor_some.1 h
    rfl
  | step tx hv _ ih =>
    obtain ⟨s0, h1, h2, h3⟩ := ih
    exact ⟨s0, h1, h2, .step tx hv h3⟩

/-- A lottery of two players over round 1 of a committee of three with threshold 2; the random of
round 1 is published after the entries. -/
theorem toy_lottery_pre_bets : ∃ w1 l w, Reachable toyMachine.env w1 ∧ exec w1.zk w1.lot ⟨12, 8⟩ .enter = some l ∧
    Steps toyMachine.env w1 ⟨l, w1.zk⟩ ∧ Steps toyMachine.env ⟨l, w1.zk⟩ w ∧ w.lot = l ∧ l.contractPhase = .Open ∧
    l.players = [11, 12] ∧ l.bets = [(11, 3), (12, 8)] ∧ l.balance = 11 ∧ l.forced = 0 ∧ l.minBet = 3 ∧
    l.randRoundNum ≤ w.zk.currentRoundNum ∧
    ZkdvrfPre.Completed w.zk l.randRoundNum ∧ l.owner = 5 ∧ 1 ≤ w1.zk.threshold ∧ 1 ≤ w.zk.threshold := by
  obtain ⟨z, hz, ht, hdone, hcur⟩ := toy_pre_done
  obtain ⟨z0, h0, hr0, hl⟩ := pre_after_deploy hz
  let l0 : Lottery.State := ⟨5, [], fun _ => false, 0, 0, 0, .Setup, 0, [], [], 0⟩
  let l1 : Lottery.State := { l0 with randRoundNum := 1, minBet := 3, contractPhase := .Open }
  let l2 : Lottery.State := { l1 with
    players := l1.players ++ [11], hasEntered := Function.update l1.hasEntered 11 true
    balance := l1.balance + 3, bets := l1.bets ++ [(11, 3)] }
  let l3 : Lottery.State := { l2 with
    players := l2.players ++ [12], hasEntered := Function.update l2.hasEntered 12 true
    balance := l2.balance + 8, bets := l2.bets ++ [(12, 8)] }
  have r0 : Reachable toyMachine.env ⟨l0, z0⟩ := .deploy (m := ⟨5, 0⟩) h0 rfl
  have e1 : exec z0 l0 ⟨5, 0⟩ (.setup 1 3) = some l1 := Lottery.setup_some.2 ⟨rfl, rfl, rfl, rfl⟩
  have hlt : z0.currentRoundNum < 1 := by rw [hr0]; exact Nat.one_pos
  have e2 : exec z0 l1 ⟨11, 3⟩ .enter = some l2 :=
    Lottery.enter_some.2 ⟨rfl, hlt, rfl, by decide, rfl⟩
  have e3 : exec z0 l2 ⟨12, 8⟩ .enter = some l3 :=
    Lottery.enter_some.2 ⟨rfl, hlt, by decide, by decide, rfl⟩
  have s1 : Steps toyMachine.env ⟨l0, z0⟩ ⟨l1, z0⟩ := .call ⟨5, 0⟩ _ (by decide) (.refl _) e1
  have s2 : Steps toyMachine.env ⟨l0, z0⟩ ⟨l2, z0⟩ := .call ⟨11, 3⟩ _ (by decide) s1 e2
  have s3 : Steps toyMachine.env ⟨l2, z0⟩ ⟨l3, z0⟩ := .call ⟨12, 8⟩ _ (by decide) (.refl _) e3
  exact ⟨⟨l2, z0⟩, l3, ⟨l3, z⟩, .steps r0 s2, e3, s3, pre_steps_later hl, rfl, rfl, rfl, rfl, rfl, rfl, rfl,
    hcur.ge, hdone, rfl, by rw [← hl.threshold.1]; exact ht, ht⟩

theorem toy_lottery_pre : ∃ w, Reachable toyMachine.env w ∧ w.lot.contractPhase = .Open ∧
    w.lot.players = [11, 12] ∧ w.lot.randRoundNum ≤ w.zk.currentRoundNum ∧
    ZkdvrfPre.Completed w.zk w.lot.randRoundNum ∧ w.lot.owner = 5 ∧ 1 ≤ w.zk.threshold := by
  obtain ⟨w1, l, w, h1, _, h3, h4, rfl, h5, h6, _, _, _, _, h7, h8, h9, _, h10⟩ := toy_lottery_pre_bets
  exact ⟨w, .steps (.steps h1 h3) h4, h5, h6, h7, h8, h9, h10⟩

/-- `C42_pre_enter_before_random`, `C42_pre_players`: player 12 enters with 8 wei while the round is not opened. -/
example : ∃ w l, Reachable toyMachine.env w ∧ 1 ≤ w.zk.threshold ∧ exec w.zk w.lot ⟨12, 8⟩ .enter = some l ∧
    w.zk.currentRoundNum < w.lot.randRoundNum ∧
    12 ∉ w.lot.players ∧ l.players = w.lot.players ++ [12] ∧ (12, 8) ∈ l.bets := by
  obtain ⟨w1, l, w, h1, h2, h3, _, _, _, h6, h7, _, _, _, _, _, _, ht, _⟩ := toy_lottery_pre_bets
  obtain ⟨a, _, _, _, b, c, _⟩ := C42_pre_enter_before_random toyMachine.env h1 (.refl _) ht ⟨12, 8⟩ l h2
  exact ⟨w1, l, h1, ht, h2, a, b, c, by rw [h7]; decide⟩

/-- `C42_pre_entries_closed`, `C42_pre_settings_fixed`: the round is opened; whatever happens, the players stay. -/
example : ∃ w, Reachable toyMachine.env w ∧ w.lot.contractPhase ≠ .Setup ∧
    w.lot.randRoundNum ≤ w.zk.currentRoundNum ∧
    ∀ w', Steps toyMachine.env w w' → w'.lot.players.Perm [11, 12] ∧ w'.lot.bets = [(11, 3), (12, 8)] ∧
      w'.lot.minBet = 3 := by
  obtain ⟨w1, l, w, h1, _, h3, h4, rfl, h5, h6, h7, _, _, h10, h8, _, _, _, ht⟩ := toy_lottery_pre_bets
  have hr : Reachable toyMachine.env w := .steps (.steps h1 h3) h4
  have hs : w.lot.contractPhase ≠ .Setup := by rw [h5]; exact Lottery.Phase.noConfusion
  refine ⟨w, hr, hs, h8, fun w' h => ?_⟩
  obtain ⟨a, b⟩ := C42_pre_entries_closed toyMachine.env hr ht hs h8 h
  rw [h6] at a
  exact ⟨a, b.trans h7, (C42_pre_settings_fixed toyMachine.env hr ht hs h).2.trans h10⟩

/-- `C42_pre_pickWinner`, `C42_pre_paid_once`, `C42_pre_closed_final`: the owner 5 picks the winner, who gets both
bets, 11 wei; after that nothing changes. -/
example : ∃ w w', Reachable toyMachine.env w ∧ w.lot.contractPhase = .Open ∧ Steps toyMachine.env w w' ∧
    w'.lot.contractPhase = .Close ∧ (∃ winner ∈ [(11 : Address), 12], w'.lot.payments = [(winner, 11)]) ∧
    ∀ w'', Steps toyMachine.env w' w'' → w''.lot.payments = w'.lot.payments := by
  obtain ⟨w1, l, w, h1, _, h3, h4, rfl, h5, h6, h7, h8, _, _, _, h9, h10, _, ht⟩ := toy_lottery_pre_bets
  have hr : Reachable toyMachine.env w := .steps (.steps h1 h3) h4
  obtain ⟨l, hl⟩ := C42_pre_pick_possible toyMachine.env w h5 (by rw [h6]; simp) h9
  have hst : Steps toyMachine.env w ⟨Lottery.pickEnd l, w.zk⟩ :=
    .pickWinner ⟨w.lot.owner, 0⟩ (by change w.lot.owner ≠ 0; rw [h10]; decide) (.refl w) hl (.refl _)
  obtain ⟨_, _, _, _, _, _, win, a, _, b, _⟩ := C42_pre_pickWinner toyMachine.env hr (.refl w) ht _ l hl
  have hp := (C42_pre_paid_once toyMachine.env hr ht).1 (by rw [h5]; exact Lottery.Phase.noConfusion)
  refine ⟨w, _, hr, h5, hst, rfl, ⟨win, by rw [← h6]; exact a, ?_⟩, fun w'' h => ?_⟩
  · change l.payments = _
    rw [b, hp, h8]
    rfl
  · exact (C42_pre_closed_final toyMachine.env (.steps hr hst) ht rfl h).2.2.2.1

end Verif.Props
