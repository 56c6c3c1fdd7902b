import Verif.Lemmas.OverlapKill
import Verif.Lemmas.ServicesProofsSim
import Verif.Props.OverlapKill

/-! Overlapping and killed services with any proof system: simulation by services with an ideal one. -/

namespace Verif.Overlap
open Verif.Services
open Verif.ZkdvrfPre (State Completed Phase Registered Added indexOf getIndexPlus Reachable)
open Verif.ServicesFiles (ideal ideal_faithful ideal_fresh exec_ideal exec_outside exec_both Sane)
open Zkdvrf (Call)

/-- The services `s` with any proof system and `s'` with an ideal one: a node that has failed in a dealing, or whose
dealing the contract has rejected, has its dealing on its way in `s'`, and more may be left in `s'`. -/
structure Like (ws : List Address) (s s' : Survivors) : Prop where
  state : s'.w.p = s.w.p
  adminFiles : s'.w.admin = s.w.admin
  files : s'.w.node = s.w.node
  adminAt : s'.w.adminAt = s.w.adminAt
  nodes : ∀ a, s'.w.nodeAt a = s.w.nodeAt a ∨ a ∈ ws ∧ s.w.nodeAt a = .stopped ∧
    ∃ pp pr k, s'.w.nodeAt a = .sent (.submitPublicParams pp pr) k
  left : s.left.Sublist s'.left

section
variable {M : Machine} {o : Address} {ws : List Address} {t n : ℕ} {aux1 : G1} {aux2 : G2}

/-- `x` fails, or it is `y`. -/
def Below {e α : Type} (x y : Except e α) : Prop := x = y ∨ ∃ err, x = .error err

theorem Below.bind {e α β : Type} (x : Except e α) {f g : α → Except e β} (h : ∀ a, Below (f a) (g a)) :
    Below (x >>= f) (x >>= g) := by
  cases x with
  | error err => exact Or.inl rfl
  | ok a => exact h a

theorem prove_below (i : ℕ) (cfg : DkgConfig) (f : List PointSerde) (st : ℕ → Fr) :
    Below (Client.prove M.prover M.infPanics cfg i f st)
      (Client.prove (ideal M t n aux1 aux2).prover (ideal M t n aux1 aux2).infPanics cfg i f st) := by
  unfold Client.prove
  refine Below.bind _ (fun ins => ?_)
  show Below (match M.prover ins with | none => _ | some proof => _) (pure ((M.prover ins).getD [], _))
  cases hm : M.prover ins with
  | none => exact Or.inr ⟨_, rfl⟩
  | some pr => exact Or.inl rfl

theorem dkgVerify_below (i : ℕ) (cfg : DkgConfig) (pr : List Byte) (file : List (List Char)) (f : List PointSerde) :
    Below (Client.dkgVerify M.verifier cfg i pr file f)
      (Client.dkgVerify (ideal M t n aux1 aux2).verifier cfg i pr file f) := by
  unfold Client.dkgVerify
  refine Below.bind _ (fun _ => Below.bind _ (fun ins => Below.bind _ (fun pks => Below.bind _ (fun keys => ?_))))
  split
  · exact Or.inl rfl
  · show Below (if M.verifier pr ins then Except.ok () else _) (Except.ok ())
    split
    · exact Or.inl rfl
    · exact Or.inr ⟨_, rfl⟩

/-- Only the prover and the verifiers matter for a dealing: without them it fails, or it is the same. -/
theorem submitPP_ideal (p : State) (a : Address) (f : Files) (d : Draw) :
    submitPP M p a f d = .failed f ∨ submitPP M p a f d = submitPP (ideal M t n aux1 aux2) p a f d := by
  unfold submitPP
  dsimp only
  cases hi : getIndexPlus p a with
  | none => exact Or.inl rfl
  | some i =>
    dsimp only
    rcases prove_below (M := M) (t := t) (n := n) (aux1 := aux1) (aux2 := aux2) i (config p)
      (Client.mpksFile p.pkList) d.stream with h | ⟨e, h⟩
    · rw [← h]
      cases hp : Client.prove M.prover M.infPanics (config p) i (Client.mpksFile p.pkList) d.stream with
      | error e => exact Or.inl rfl
      | ok x =>
        obtain ⟨pr, file⟩ := x
        dsimp only
        rcases dkgVerify_below (M := M) (t := t) (n := n) (aux1 := aux1) (aux2 := aux2) i (config p) pr file
          (Client.mpksFile p.pkList) with h | ⟨e, h⟩
        · rw [← h]
          exact Or.inr rfl
        · rw [h]
          exact Or.inl rfl
    · rw [h]
      exact Or.inl rfl

theorem nodeRun_ideal (p : State) (a : Address) (f : Files) (d : Draw) (j : Job) :
    nodeRun M p a f d j = nodeRun (ideal M t n aux1 aux2) p a f d j ∨
    j = .deal ∧ nodeRun M p a f d j = .failed f ∧
      ∃ pp pr, nodeRun (ideal M t n aux1 aux2) p a f d j = .send f (.submitPublicParams pp pr) := by
  cases j with
  | register => exact Or.inl rfl
  | eval b => exact Or.inl rfl
  | deal =>
    show submitPP M p a f d = submitPP (ideal M t n aux1 aux2) p a f d ∨ _ ∧ submitPP M p a f d = _ ∧
      ∃ pp pr, submitPP (ideal M t n aux1 aux2) p a f d = _
    rcases submitPP_ideal (M := M) (t := t) (n := n) (aux1 := aux1) (aux2 := aux2) p a f d with h | h
    · rcases submitPP_files (ideal M t n aux1 aux2) p a f d with h' | ⟨pp, pr, h'⟩
      · exact Or.inl (h.trans h'.symm)
      · exact Or.inr ⟨rfl, h, pp, pr, h'⟩
    · exact Or.inl h

/-- A transaction that the contract accepts with any verifier is accepted with the ideal one, if it was in order
when it was sent. -/
theorem exec_like {p p' : State} {ad : Files} {nd : Address → Files} (hc : Core (ideal M t n aux1 aux2) o ws t n p ad nd) {a : Address}
    (ha : a ∈ ws) {k : ℕ} {c : Call} (hs : SentWas (ideal M t n aux1 aux2) t n p (nd a) a k c)
    (he : ZkdvrfPre.exec M.env p ⟨a, 0⟩ c = some p') :
    ZkdvrfPre.exec (ideal M t n aux1 aux2).env p ⟨a, 0⟩ c = some p' := by
  by_cases hpp : ∃ pp pr, c = .submitPublicParams pp pr
  · obtain ⟨pp, pr, rfl⟩ := hpp
    have hst := (ZkdvrfPre.submitPublicParams_some.1 he).2.2.2.1
    obtain ⟨p'', h1, _⟩ := land_deal (k := k) hc ha (hs.2 hst)
    rw [h1, exec_both h1 he]
  · push Not at hpp
    rw [exec_ideal hpp]
    exact he

theorem noLuck_ideal {p : State} {a : Address} {k : ℕ} {c : Call} (h : NoLuck M p a k c) :
    NoLuck (ideal M t n aux1 aux2) p a k c := by
  intro e he hk hx
  refine h e he hk ?_
  subst he
  exact hx

theorem noLuck_pp {M : Machine} {p : State} {a : Address} {k : ℕ} {pp : List Word} {pr : List Byte} :
    NoLuck M p a k (.submitPublicParams pp pr) := fun e he => by cases he

theorem sublist_erase {α : Type} {l l' : List α} (h : l.Sublist l') : ∀ {i : ℕ} {x : α}, l[i]? = some x →
    ∃ j, l'[j]? = some x ∧ (l.eraseIdx i).Sublist (l'.eraseIdx j) := by
  induction h with
  | slnil => intro i x hx; cases hx
  | cons b _ ih =>
    intro i x hx
    obtain ⟨j, h1, h2⟩ := ih hx
    exact ⟨j + 1, h1, h2.cons b⟩
  | @cons_cons l₁ l₂ b hs ih =>
    intro i x hx
    cases i with
    | zero => exact ⟨0, hx, hs⟩
    | succ i =>
      obtain ⟨j, h1, h2⟩ := ih hx
      exact ⟨j + 1, h1, h2.cons_cons b⟩

/-- The stages of the nodes in both. -/
def LikeNodes (ws : List Address) (na na' : Address → Stage Job) : Prop :=
  ∀ a, na' a = na a ∨ a ∈ ws ∧ na a = .stopped ∧ ∃ pp pr k, na' a = .sent (.submitPublicParams pp pr) k

theorem LikeNodes.update {na na' : Address → Stage Job} (h : LikeNodes ws na na') (a : Address) (st : Stage Job) :
    LikeNodes ws (Function.update na a st) (Function.update na' a st) := by
  intro b
  by_cases hb : b = a
  · subst hb; left; rw [Function.update_self, Function.update_self]
  · rw [Function.update_of_ne hb, Function.update_of_ne hb]; exact h b

theorem LikeNodes.stop {na na' : Address → Stage Job} (h : LikeNodes ws na na') {a : Address} (ha : a ∈ ws)
    {pp : List Word} {pr : List Byte} {k : ℕ} (hs : na' a = .sent (.submitPublicParams pp pr) k) :
    LikeNodes ws (Function.update na a .stopped) na' := by
  intro b
  by_cases hb : b = a
  · subst hb; right; rw [Function.update_self]; exact ⟨ha, rfl, pp, pr, k, hs⟩
  · rw [Function.update_of_ne hb]; exact h b

theorem LikeNodes.stop_update {na na' : Address → Stage Job} (h : LikeNodes ws na na') {a : Address} (ha : a ∈ ws)
    (pp : List Word) (pr : List Byte) (k : ℕ) :
    LikeNodes ws (Function.update na a .stopped) (Function.update na' a (.sent (.submitPublicParams pp pr) k)) := by
  intro b
  by_cases hb : b = a
  · subst hb; right; rw [Function.update_self, Function.update_self]; exact ⟨ha, rfl, pp, pr, k, rfl⟩
  · rw [Function.update_of_ne hb, Function.update_of_ne hb]; exact h b

/-- A step with any proof system is a step with the ideal one, or none. -/
theorem like_step {s s' s1 : Survivors} (hK : KInv (ideal M t n aux1 aux2) o ws t n s') (hl : Like ws s s')
    (h : SurvivorStep M o ws t n aux1 aux2 s s1) :
    ∃ s1', (s1' = s' ∨ SurvivorStep (ideal M t n aux1 aux2) o ws t n aux1 aux2 s' s1') ∧ Like ws s1 s1' := by
  obtain ⟨⟨p, ad, nd, aa, na⟩, l⟩ := s
  obtain ⟨⟨p', ad', nd', aa', na'⟩, l'⟩ := s'
  obtain ⟨e1, e2, e3, e4, hna, hleft⟩ := hl
  dsimp only at e1 e2 e3 e4 hna hleft
  subst e1 e2 e3 e4
  cases h with
  | run w' hw =>
    dsimp only at hw ⊢
    cases hw with
    | look a ha =>
      refine ⟨_, Or.inr (.run _ (.look a ha)), ?_⟩
      unfold Overlap.look
      dsimp only
      rcases hna a with h | ⟨_, h1, pp, pr, k, h2⟩
      · rw [h]
        split
        · split
          · exact ⟨rfl, rfl, rfl, rfl, hna, hleft⟩
          · exact ⟨rfl, rfl, rfl, rfl, LikeNodes.update hna a _, hleft⟩
        · exact ⟨rfl, rfl, rfl, rfl, hna, hleft⟩
      · rw [h1, h2]
        exact ⟨rfl, rfl, rfl, rfl, hna, hleft⟩
    | fetch a d ha hd =>
      refine ⟨_, Or.inr (.run _ (.fetch a d ha hd)), ?_⟩
      unfold Overlap.fetch
      dsimp only
      rcases hna a with h | ⟨_, h1, pp, pr, k, h2⟩
      · rw [h]
        cases hst : na a with
        | decided j =>
          dsimp only
          rcases nodeRun_ideal (M := M) (t := t) (n := n) (aux1 := aux1) (aux2 := aux2) p' a (nd' a) d j with
            hr | ⟨_, hr1, pp, pr, hr2⟩
          · rw [← hr]
            split
            · exact ⟨rfl, rfl, rfl, rfl, LikeNodes.update hna a _, hleft⟩
            · exact ⟨rfl, rfl, rfl, rfl, LikeNodes.update hna a _, hleft⟩
            · exact ⟨rfl, rfl, rfl, rfl, LikeNodes.update hna a _, hleft⟩
          · rw [hr1, hr2]
            exact ⟨rfl, rfl, rfl, rfl, LikeNodes.stop_update hna ha _ _ _, hleft⟩
        | _ => exact ⟨rfl, rfl, rfl, rfl, hna, hleft⟩
      · rw [h1, h2]
        exact ⟨rfl, rfl, rfl, rfl, hna, hleft⟩
    | land a ha hl =>
      rcases hna a with h | ⟨_, h1, pp, pr, k, h2⟩
      · cases hst : na a with
        | sent c k =>
          rw [hst] at h
          have hn := hK.nodes a ha
          dsimp only at hn
          rw [h] at hn
          cases he : ZkdvrfPre.exec M.env p' ⟨a, 0⟩ c with
          | some p1 =>
            have he' := exec_like hK.core ha hn he
            refine ⟨_, Or.inr (.run _ (.land a ha (fun c' k' hs => ?_))), ?_⟩
            · dsimp only at hs ⊢
              exact noLuck_ideal (hl c' k' (hst.trans (h.symm.trans hs)))
            · unfold Overlap.land
              dsimp only
              rw [hst, h]
              dsimp only
              rw [he, he']
              exact ⟨rfl, rfl, rfl, rfl, LikeNodes.update hna a _, hleft⟩
          | none =>
            by_cases hpp : ∃ pp pr, c = .submitPublicParams pp pr
            · obtain ⟨pp, pr, rfl⟩ := hpp
              refine ⟨_, Or.inl rfl, ?_⟩
              unfold Overlap.land
              dsimp only
              rw [hst]
              dsimp only
              rw [he]
              exact ⟨rfl, rfl, rfl, rfl, LikeNodes.stop hna ha h, hleft⟩
            · push Not at hpp
              have he' : ZkdvrfPre.exec (ideal M t n aux1 aux2).env p' ⟨a, 0⟩ c = none := by
                rw [exec_ideal hpp]; exact he
              refine ⟨_, Or.inr (.run _ (.land a ha (fun c' k' hs => ?_))), ?_⟩
              · dsimp only at hs ⊢
                exact noLuck_ideal (hl c' k' (hst.trans (h.symm.trans hs)))
              · unfold Overlap.land
                dsimp only
                rw [hst, h]
                dsimp only
                rw [he, he']
                exact ⟨rfl, rfl, rfl, rfl, LikeNodes.update hna a _, hleft⟩
        | _ =>
          refine ⟨_, Or.inl rfl, ?_⟩
          unfold Overlap.land
          dsimp only
          rw [hst]
          exact ⟨rfl, rfl, rfl, rfl, hna, hleft⟩
      · refine ⟨_, Or.inl rfl, ?_⟩
        unfold Overlap.land
        dsimp only
        rw [h1]
        exact ⟨rfl, rfl, rfl, rfl, hna, hleft⟩
    | adminLook b =>
      refine ⟨_, Or.inr (.run _ (.adminLook b)), ?_⟩
      unfold Overlap.adminDecide
      dsimp only
      split <;> exact ⟨rfl, rfl, rfl, rfl, hna, hleft⟩
    | adminTick b e he =>
      refine ⟨_, Or.inr (.run _ (.adminTick b e he)), ?_⟩
      unfold Overlap.adminDecide
      dsimp only
      split <;> exact ⟨rfl, rfl, rfl, rfl, hna, hleft⟩
    | adminFetch =>
      refine ⟨_, Or.inr (.run _ .adminFetch), ?_⟩
      unfold Overlap.adminFetch
      dsimp only
      cases aa' with
      | decided j =>
        dsimp only
        have : adminRun (ideal M t n aux1 aux2) p' ad' j = adminRun M p' ad' j := by cases j <;> rfl
        rw [this]
        split <;> exact ⟨rfl, rfl, rfl, rfl, hna, hleft⟩
      | _ => exact ⟨rfl, rfl, rfl, rfl, hna, hleft⟩
    | adminLand =>
      refine ⟨_, Or.inr (.run _ .adminLand), ?_⟩
      unfold Overlap.adminLand
      dsimp only
      cases aa' with
      | sent c k =>
        dsimp only
        have hn := hK.admin
        dsimp only at hn
        have : ZkdvrfPre.exec (ideal M t n aux1 aux2).env p' ⟨o, 0⟩ c = ZkdvrfPre.exec M.env p' ⟨o, 0⟩ c := by
          refine exec_ideal (fun pp pr hc => ?_)
          subst hc
          exact hn
        rw [this]
        split <;> exact ⟨rfl, rfl, rfl, rfl, hna, hleft⟩
      | _ => exact ⟨rfl, rfl, rfl, rfl, hna, hleft⟩
  | mine i hl =>
    unfold Survivors.mine
    dsimp only at hl ⊢
    cases hi : l[i]? with
    | none => exact ⟨_, Or.inl rfl, rfl, rfl, rfl, rfl, hna, hleft⟩
    | some g =>
      obtain ⟨a, c, k⟩ := g
      obtain ⟨j, hj1, hj2⟩ := sublist_erase hleft hi
      have hlj : ∀ a c k, l'[j]? = some (a, c, k) → NoLuck (ideal M t n aux1 aux2) p' a k c := by
        intro a' c' k' hh
        exact noLuck_ideal (hl a' c' k' (hi.trans (hj1.symm.trans hh)))
      have hLO := hK.left _ (List.mem_of_getElem? hj1)
      dsimp only
      cases he : ZkdvrfPre.exec M.env p' ⟨a, 0⟩ c with
      | some p1 =>
        have he' : ZkdvrfPre.exec (ideal M t n aux1 aux2).env p' ⟨a, 0⟩ c = some p1 := by
          rcases hLO with ⟨q1, _, q3⟩ | ⟨_, q⟩
          · exact exec_like hK.core q1 q3 he
          · refine (exec_ideal (fun pp pr hc => ?_)).trans he
            subst hc
            exact q
        refine ⟨_, Or.inr (.mine j hlj), ?_⟩
        unfold Survivors.mine
        dsimp only
        rw [hj1]
        dsimp only
        rw [he']
        exact ⟨rfl, rfl, rfl, rfl, hna, hj2⟩
      | none =>
        refine ⟨_, Or.inl rfl, rfl, rfl, rfl, rfl, hna, ?_⟩
        exact (List.eraseIdx_sublist ..).trans hleft

/-- A restart with any proof system is one with the ideal one. -/
theorem like_restart {s s' s1 : Survivors} (hl : Like ws s s') (h : Restart o ws s s1) :
    ∃ s1', Restart o ws s' s1' ∧ Like ws s1 s1' := by
  obtain ⟨⟨p, ad, nd, aa, na⟩, l⟩ := s
  obtain ⟨⟨p', ad', nd', aa', na'⟩, l'⟩ := s'
  obtain ⟨e1, e2, e3, e4, hna, hleft⟩ := hl
  dsimp only at e1 e2 e3 e4 hna hleft
  subst e1 e2 e3 e4
  cases h with
  | node a lost ha hr =>
    dsimp only at hr
    rcases hna a with h | ⟨_, h1, pp, pr, k, h2⟩
    · refine ⟨_, .node a lost ha (fun pk k hs => hr pk k (h.symm.trans hs)), rfl, rfl, rfl, rfl,
        LikeNodes.update hna a _, ?_⟩
      unfold Survivors.restart
      dsimp only
      rw [h]
      exact (List.Sublist.refl _).append hleft
    · refine ⟨_, .node a true ha (fun _ _ _ => rfl), rfl, rfl, rfl, rfl, LikeNodes.update hna a _, ?_⟩
      unfold Survivors.restart
      dsimp only
      rw [h1, h2]
      exact hleft
  | admin lost =>
    refine ⟨_, .admin lost, rfl, rfl, rfl, rfl, hna, ?_⟩
    unfold Survivors.restartAdmin
    dsimp only
    exact (List.Sublist.refl _).append hleft

/-- Every history of the services with any proof system is one with an ideal proof system, up to dealings that
have not been mined. -/
theorem surviving_ideal (hM : Sane M aux1 aux2) {w0 : World} (h0 : Fresh M o ws t n w0.p) {s : Survivors}
    (h : Surviving M o ws t n aux1 aux2 (.begin w0) s) :
    ∃ s', Surviving (ideal M t n aux1 aux2) o ws t n aux1 aux2 (.begin w0) s' ∧ Like ws s s' := by
  induction h with
  | refl => exact ⟨_, .refl, rfl, rfl, rfl, rfl, fun _ => Or.inl rfl, .refl _⟩
  | tail _ hs ih =>
    obtain ⟨s', h1, h2⟩ := ih
    rcases hs with hs | hs
    · obtain ⟨s1', h3 | h3, h4⟩ := like_step (surviving_inv (ideal_faithful hM) (ideal_fresh h0) h1) h2 hs
      · subst h3; exact ⟨_, h1, h4⟩
      · exact ⟨_, h1.tail (Or.inl h3), h4⟩
    · obtain ⟨s1', h3, h4⟩ := like_restart h2 hs
      exact ⟨_, h1.tail (Or.inr h3), h4⟩

/-! ### After the dealings the proof system does not matter -/

theorem late_step {p p' : State} {a : Address} {c : Call} {env : Env} (hr : Reachable env p)
    (ht : 1 ≤ p.threshold) (ha : a ≠ 0)
    (hp : 3 ≤ p.contractPhase.rank) (he : ZkdvrfPre.exec env p ⟨a, 0⟩ c = some p') : 3 ≤ p'.contractPhase.rank := by
  have e : ZkdvrfPre.step env p (.call ⟨a, 0⟩ c) = p' := by
    show (ZkdvrfPre.exec env p ⟨a, 0⟩ c).getD p = p'
    rw [he]
    rfl
  have hh := Props.C30_pre_phase_step env hr ht (.call ⟨a, 0⟩ c) ha
  rw [e] at hh
  rcases hh with h | ⟨h, _⟩ | ⟨h, _⟩ | ⟨h, _⟩ | ⟨_, h, _⟩
  · rw [h]; exact hp
  · rw [h] at hp; exact absurd hp (by decide)
  · rw [h] at hp; exact absurd hp (by decide)
  · rw [h] at hp; exact absurd hp (by decide)
  · rw [h]; decide

theorem not_dealing {p : State} (hp : 3 ≤ p.contractPhase.rank) : p.contractPhase ≠ .Nidkg := by
  intro h; rw [h] at hp; exact absurd hp (by decide)

theorem noLuck_of_ideal {p : State} {a : Address} {k : ℕ} {c : Call} (h : NoLuck (ideal M t n aux1 aux2) p a k c) :
    NoLuck M p a k c := by
  intro e he hk hx
  refine h e he hk ?_
  subst he
  exact hx

theorem late_fetch {w : Overlap} (hi : OInv (ideal M t n aux1 aux2) o ws t n w) (hp : w.p.contractPhase ≠ .Nidkg)
    {a : Address} (ha : a ∈ ws) (d : Draw) : w.fetch (ideal M t n aux1 aux2) a d = w.fetch M a d := by
  unfold Overlap.fetch
  split
  · rename_i j hj
    have hn := hi.nodes a ha
    rw [hj] at hn
    have : nodeRun (ideal M t n aux1 aux2) w.p a (w.node a) d j = nodeRun M w.p a (w.node a) d j := by
      cases j with
      | register => rfl
      | eval b => rfl
      | deal => exact absurd (hi.core.dealing ha hn.1 hn.2) hp
    rw [this]
  · rfl

theorem late_land {w : Overlap} (hp : w.p.contractPhase ≠ .Nidkg) (a : Address) :
    w.land (ideal M t n aux1 aux2) a = w.land M a := by
  unfold Overlap.land
  split
  · rw [exec_outside _ hp]
  · rfl

theorem late_adminFetch (w : Overlap) : w.adminFetch (ideal M t n aux1 aux2) = w.adminFetch M := by
  unfold Overlap.adminFetch
  split
  · rename_i j _
    have : adminRun (ideal M t n aux1 aux2) w.p w.admin j = adminRun M w.p w.admin j := by cases j <;> rfl
    rw [this]
  · rfl

theorem late_adminLand {w : Overlap} (hp : w.p.contractPhase ≠ .Nidkg) :
    w.adminLand (ideal M t n aux1 aux2) o = w.adminLand M o := by
  unfold Overlap.adminLand
  split
  · rw [exec_outside _ hp]
  · rfl

/-- Outside the DKG, a step is the same with any proof system. -/
theorem late_overlap_step {w w' : Overlap} (hi : OInv (ideal M t n aux1 aux2) o ws t n w)
    (hp : w.p.contractPhase ≠ .Nidkg) :
    OverlapStep (ideal M t n aux1 aux2) o ws t n aux1 aux2 w w' ↔ OverlapStep M o ws t n aux1 aux2 w w' := by
  constructor
  · intro h
    cases h with
    | look a ha => exact .look a ha
    | fetch a d ha hd => rw [late_fetch hi hp ha]; exact .fetch a d ha hd
    | land a ha hl => rw [late_land hp]; exact .land a ha (fun c k hs => noLuck_of_ideal (hl c k hs))
    | adminLook b => exact .adminLook b
    | adminTick b e he => exact .adminTick b e he
    | adminFetch => rw [late_adminFetch]; exact .adminFetch
    | adminLand => rw [late_adminLand hp]; exact .adminLand
  · intro h
    cases h with
    | look a ha => exact .look a ha
    | fetch a d ha hd => rw [← late_fetch hi hp ha]; exact .fetch a d ha hd
    | land a ha hl =>
      rw [← late_land (t := t) (n := n) (aux1 := aux1) (aux2 := aux2) hp]
      exact .land a ha (fun c k hs => noLuck_ideal (hl c k hs))
    | adminLook b => exact .adminLook b
    | adminTick b e he => exact .adminTick b e he
    | adminFetch => rw [← late_adminFetch (t := t) (n := n) (aux1 := aux1) (aux2 := aux2)]; exact .adminFetch
    | adminLand => rw [← late_adminLand (t := t) (n := n) (aux1 := aux1) (aux2 := aux2) hp]; exact .adminLand

theorem late_rank {M : Machine} {w w' : Overlap} (hi : OInv M o ws t n w) (hp : 3 ≤ w.p.contractPhase.rank)
    (h : OverlapStep M o ws t n aux1 aux2 w w') : 3 ≤ w'.p.contractPhase.rank := by
  cases h with
  | look a ha =>
    unfold Overlap.look
    split
    · split <;> exact hp
    · exact hp
  | fetch a d ha hd =>
    unfold Overlap.fetch
    split
    · split <;> exact hp
    · exact hp
  | land a ha hl =>
    unfold Overlap.land
    split
    · split
      · exact hp
      · rename_i he
        exact late_step hi.core.reach hi.core.ht (hi.core.self ha).2 hp he
    · exact hp
  | adminLook b => unfold Overlap.adminDecide; split <;> exact hp
  | adminTick b e he => unfold Overlap.adminDecide; split <;> exact hp
  | adminFetch =>
    unfold Overlap.adminFetch
    split
    · split <;> exact hp
    · exact hp
  | adminLand =>
    unfold Overlap.adminLand
    split
    · split
      · exact hp
      · rename_i he
        exact late_step hi.core.reach hi.core.ht hi.core.o_ne hp he
    · exact hp

/-- After the dealings, services with any proof system do what services with an ideal one do. -/
theorem late_overlapping (hM : Sane M aux1 aux2) {w w' : Overlap} (hi : OInv (ideal M t n aux1 aux2) o ws t n w)
    (hp : 3 ≤ w.p.contractPhase.rank) :
    (Overlapping (ideal M t n aux1 aux2) o ws t n aux1 aux2 w w' ↔ Overlapping M o ws t n aux1 aux2 w w') := by
  have hF := ideal_faithful (t := t) (n := n) hM
  rw [Props.C96_steps, Props.C96_steps]
  constructor
  · intro h
    have : Relation.ReflTransGen (OverlapStep M o ws t n aux1 aux2) w w' ∧
        Overlapping (ideal M t n aux1 aux2) o ws t n aux1 aux2 w w' ∧ 3 ≤ w'.p.contractPhase.rank := by
      induction h with
      | refl => exact ⟨.refl, .refl, hp⟩
      | tail _ hs ih =>
        obtain ⟨h1, h2, h3⟩ := ih
        have hi' := Props.again_inv hF hi h2
        exact ⟨h1.tail ((late_overlap_step hi' (not_dealing h3)).1 hs),
          Props.C96_steps.2 ((Props.C96_steps.1 h2).tail hs), late_rank hi' h3 hs⟩
    exact this.1
  · intro h
    have : Overlapping (ideal M t n aux1 aux2) o ws t n aux1 aux2 w w' ∧ 3 ≤ w'.p.contractPhase.rank := by
      induction h with
      | refl => exact ⟨.refl, hp⟩
      | tail _ hs ih =>
        obtain ⟨h2, h3⟩ := ih
        have hi' := Props.again_inv hF hi h2
        have hs' := (late_overlap_step hi' (not_dealing h3)).2 hs
        exact ⟨Props.C96_steps.2 ((Props.C96_steps.1 h2).tail hs'), late_rank hi' h3 hs'⟩
    exact Props.C96_steps.1 this.1

theorem late_overlapping_rank (hM : Sane M aux1 aux2) {w w' : Overlap}
    (hi : OInv (ideal M t n aux1 aux2) o ws t n w) (hp : 3 ≤ w.p.contractPhase.rank)
    (h : Overlapping (ideal M t n aux1 aux2) o ws t n aux1 aux2 w w') : 3 ≤ w'.p.contractPhase.rank := by
  have h' := Props.C96_steps.1 h
  clear h
  have : Overlapping (ideal M t n aux1 aux2) o ws t n aux1 aux2 w w' ∧ 3 ≤ w'.p.contractPhase.rank := by
    induction h' with
    | refl => exact ⟨.refl, hp⟩
    | tail _ hs ih =>
      exact ⟨Props.C96_steps.2 ((Props.C96_steps.1 ih.1).tail hs),
        late_rank (Props.again_inv (ideal_faithful hM) hi ih.1) ih.2 hs⟩
  exact this.2

theorem early_exec {p p' : State} {a : Address} {c : Call} {env : Env} (hr : Reachable env p)
    (ht : 1 ≤ p.threshold) (ha : a ≠ 0) (hp : p.contractPhase.rank ≤ 1)
    (he : ZkdvrfPre.exec env p ⟨a, 0⟩ c = some p') :
    p'.contractPhase.rank ≤ 1 ∨ p'.contractPhase = .Nidkg ∧ p'.ppList = [] := by
  have e : ZkdvrfPre.step env p (.call ⟨a, 0⟩ c) = p' := by
    show (ZkdvrfPre.exec env p ⟨a, 0⟩ c).getD p = p'
    rw [he]
    rfl
  have hh := Props.C30_pre_phase_step env hr ht (.call ⟨a, 0⟩ c) ha
  rw [e] at hh
  rcases hh with h | ⟨_, h, _⟩ | ⟨h, h1, _, m, h2, _⟩ | ⟨h, _⟩ | ⟨h, _⟩
  · rw [h]; exact Or.inl hp
  · rw [h]; exact Or.inl (by decide)
  · refine Or.inr ⟨h1, ?_⟩
    cases h2
    obtain ⟨_, o1, o2, hz⟩ := ZkdvrfPre.sim hr ht
    have h3 : p.ppList = [] := (Zkdvrf.dkgInv hz).unreg (ZkdvrfPre.toZk_unreg.2 (Or.inr h))
    have he' : ZkdvrfPre.startNidkg p ⟨a, 0⟩ = some p' := he
    obtain ⟨_, _, _, h4⟩ := ZkdvrfPre.startNidkg_some.1 he'
    rw [← h4]
    exact h3
  · rw [h] at hp; exact absurd hp (by decide)
  · rw [h] at hp; exact absurd hp (by decide)

theorem early_step {M : Machine} {w w' : Overlap} (hi : OInv M o ws t n w) (hp : w.p.contractPhase.rank ≤ 1)
    (h : OverlapStep M o ws t n aux1 aux2 w w') :
    w'.p.contractPhase.rank ≤ 1 ∨ w'.p.contractPhase = .Nidkg ∧ w'.p.ppList = [] := by
  cases h with
  | look a ha =>
    unfold Overlap.look
    split
    · split <;> exact Or.inl hp
    · exact Or.inl hp
  | fetch a d ha hd =>
    unfold Overlap.fetch
    split
    · split <;> exact Or.inl hp
    · exact Or.inl hp
  | land a ha hl =>
    unfold Overlap.land
    split
    · split
      · exact Or.inl hp
      · rename_i he
        exact early_exec hi.core.reach hi.core.ht (hi.core.self ha).2 hp he
    · exact Or.inl hp
  | adminLook b => unfold Overlap.adminDecide; split <;> exact Or.inl hp
  | adminTick b e he => unfold Overlap.adminDecide; split <;> exact Or.inl hp
  | adminFetch =>
    unfold Overlap.adminFetch
    split
    · split <;> exact Or.inl hp
    · exact Or.inl hp
  | adminLand =>
    unfold Overlap.adminLand
    split
    · split
      · exact Or.inl hp
      · rename_i he
        exact early_exec hi.core.reach hi.core.ht hi.core.o_ne hp he
    · exact Or.inl hp

/-- What the services do with an ideal proof system before the DKG, they do with any. -/
theorem early_overlapping (hM : Sane M aux1 aux2) {w w' : Overlap} (hi : OInv (ideal M t n aux1 aux2) o ws t n w)
    (hp : w.p.contractPhase.rank ≤ 1) (h : Overlapping (ideal M t n aux1 aux2) o ws t n aux1 aux2 w w') :
    (w'.p.contractPhase.rank ≤ 1 ∧ Overlapping M o ws t n aux1 aux2 w w') ∨
      ∃ w1, Overlapping M o ws t n aux1 aux2 w w1 ∧ w1.p.contractPhase = .Nidkg ∧ w1.p.ppList = [] := by
  have h' := Props.C96_steps.1 h
  clear h
  have : Overlapping (ideal M t n aux1 aux2) o ws t n aux1 aux2 w w' ∧
      ((w'.p.contractPhase.rank ≤ 1 ∧ Overlapping M o ws t n aux1 aux2 w w') ∨
      ∃ w1, Overlapping M o ws t n aux1 aux2 w w1 ∧ w1.p.contractPhase = .Nidkg ∧ w1.p.ppList = []) := by
    induction h' with
    | refl => exact ⟨.refl, Or.inl ⟨hp, .refl⟩⟩
    | tail _ hs ih =>
      obtain ⟨h1, h2⟩ := ih
      refine ⟨Props.C96_steps.2 ((Props.C96_steps.1 h1).tail hs), ?_⟩
      rcases h2 with ⟨h2, h3⟩ | h2
      · have hi' := Props.again_inv (ideal_faithful hM) hi h1
        have hs' := (late_overlap_step hi' (fun he => by rw [he] at h2; exact absurd h2 (by decide))).1 hs
        have h4 := Props.C96_steps.2 ((Props.C96_steps.1 h3).tail hs')
        rcases early_step hi' h2 hs with h5 | h5
        · exact Or.inl ⟨h5, h4⟩
        · exact Or.inr ⟨_, h4, h5⟩
      · exact Or.inr h2
  exact this.2

/-- The instance that is proved is the one of the node's dealing. -/
theorem deals_of_instance {p : State} {d : Draw} {ins : List Fr} {i : ℕ}
    (g5 : Client.proveInstance M.infPanics (config p) i (Client.mpksFile p.pkList) d.stream = .ok ins) :
    ServicesFiles.Deals M p d ins := by
  unfold Client.proveInstance at g5
  cases k1 : Client.checkIndex (config p) i with
  | error e => rw [k1] at g5; cases g5
  | ok u =>
    cases k2 : (Client.mpksFile p.pkList).mapM PointSerde.toGk with
    | error e => rw [k1, k2] at g5; cases g5
    | ok pks =>
      cases k3 : DkgMemberParams.new Poseidon.hash2 (config p) pks d.stream with
      | error e => rw [k1, k2] at g5; change (Client.lift _ >>= _) = _ at g5; rw [k3] at g5; cases g5
      | ok mp =>
        refine ⟨pks, mp, (Props.C54_keys_file (ZkdvrfPre.State.toZk p [] []) pks).1 k2, k3, ?_⟩
        rw [k1, k2] at g5
        change (Client.lift _ >>= _) = _ at g5
        rw [k3] at g5
        change Client.lift (mp.publicParams.toInstance M.infPanics mp.publicKeys) = _ at g5
        cases k4 : mp.publicParams.toInstance M.infPanics mp.publicKeys with
        | error e => rw [k4] at g5; cases g5
        | ok ins' => rw [k4] at g5; exact congrArg _ (Except.ok.inj g5)

open Classical in
/-- The dealing of a node: what can go wrong is the proof. -/
theorem run_deal_ideal (hM : Sane M aux1 aux2) {p : State} {ad : Files} {nd : Address → Files}
    (h : Core (ideal M t n aux1 aux2) o ws t n p ad nd) {a : Address} (ha : a ∈ ws)
    (hk : 2 ≤ p.contractPhase.rank) (hst : (p.addrToNode a).statusPP = false) (d : Draw)
    (hd : GoodDraw t n aux1 aux2 d) :
    ∃ ins, ServicesFiles.Deals M p d ins ∧ DkgCircuit.synthesize ⟨t, n⟩ aux1 aux2 ins ∧
      ∀ f c, nodeRun M p a (nd a) d .deal = .send f c ↔
        ∃ pr, M.prover ins = some pr ∧ M.verifier pr ins = true ∧ f = nd a ∧
          c = .submitPublicParams (wordsOf ins) pr := by
  obtain ⟨f, c, h1, h2, -⟩ := run_deal (ideal_faithful hM) h ha hk hst d hd 0
  obtain ⟨i, proof, file, pp, g1, g2, g3, g4, rfl, rfl⟩ := ServicesFiles.deal_values h1
  obtain ⟨ins, g5, g6, rfl⟩ := ServicesFiles.prove_ins.1 g2
  have g5 : Client.proveInstance M.infPanics (config p) i (Client.mpksFile p.pkList) d.stream = .ok ins := g5
  rw [ServicesFiles.pp_of_instance] at g4
  obtain rfl := Option.some.inj g4
  obtain ⟨_, _, _, _, hv⟩ := h2
  have hsyn : DkgCircuit.synthesize ⟨t, n⟩ aux1 aux2 ins := by
    obtain ⟨ins', e, hs⟩ := of_decide_eq_true (Option.some.inj hv)
    rw [Props.wordsOf_inj e]
    exact hs
  refine ⟨ins, ?_, hsyn, fun f c => ⟨fun hs => ?_, ?_⟩⟩
  · exact deals_of_instance (M := M) g5
  · obtain ⟨i', proof', file', pp', j1, j2, j3, j4, rfl, rfl⟩ := ServicesFiles.deal_values (show submitPP M p a (nd a) d = _ from hs)
    rw [g1] at j1
    obtain rfl := Option.some.inj j1
    obtain ⟨ins', j5, j6, rfl⟩ := ServicesFiles.prove_ins.1 j2
    obtain rfl : ins = ins' := Except.ok.inj (g5.symm.trans j5)
    rw [ServicesFiles.pp_of_instance] at j4
    obtain rfl := Option.some.inj j4
    exact ⟨proof', j6, (ServicesFiles.dkgVerify_last g3).1 j3, rfl, rfl⟩
  · rintro ⟨pr, j1, j2, rfl, rfl⟩
    show submitPP M p a (nd a) d = _
    unfold submitPP
    dsimp only
    rw [g1]
    dsimp only
    rw [ServicesFiles.prove_ins.2 ⟨ins, g5, j1, rfl⟩]
    dsimp only
    rw [(ServicesFiles.dkgVerify_last g3).2 j2]
    dsimp only
    rw [ServicesFiles.pp_of_instance]

/-! ### Without soundness -/

open Classical in
/-- The same services with a contract that checks, besides the proof, that the circuit can be satisfied. -/
noncomputable def guarded (M : Machine) (t n : ℕ) (aux1 : G1) (aux2 : G2) : Machine :=
  { M with
    env := { M.env with
      verifyProof := fun pr pp =>
        if ∃ ins, pp = wordsOf ins ∧ DkgCircuit.synthesize ⟨t, n⟩ aux1 aux2 ins then M.env.verifyProof pr pp
        else some false } }

open Classical in
theorem guarded_faithful (hM : Sane M aux1 aux2)
    (hc : ∀ ins, DkgCircuit.synthesize ⟨t, n⟩ aux1 aux2 ins → ServicesFiles.ProofAccepted M ins) :
    Faithful (guarded M t n aux1 aux2) t n aux1 aux2 where
  sound := ⟨aux1, aux2, fun pr pp h _ => by
    by_contra hn
    have h' : (if ∃ ins, pp = wordsOf ins ∧ DkgCircuit.synthesize ⟨t, n⟩ aux1 aux2 ins then M.env.verifyProof pr pp
      else some false) = some true := h
    rw [if_neg hn] at h'
    cases h'⟩
  table1 := hM.table1
  order2 := hM.order2
  table2 := hM.table2
  proves := fun ins h => by
    obtain ⟨pr, h1, h2, h3⟩ := hc ins h
    exact ⟨pr, h1, h2, (if_pos ⟨ins, rfl, h⟩).trans h3⟩
  hash := hM.hash

theorem guarded_fresh {p : State} (h : Fresh M o ws t n p) : Fresh (guarded M t n aux1 aux2) o ws t n p :=
  { h with reachable := ServicesFiles.reachable_verifier _ h.reachable (by rw [h.threshold]; exact h.t_pos) h.phase }

open Classical in
/-- Whatever the services send is accepted with the check or without it. -/
theorem exec_guarded {p : State} {ad : Files} {nd : Address → Files}
    (hc : Core (guarded M t n aux1 aux2) o ws t n p ad nd) {a : Address} (ha : a ∈ ws) {k : ℕ} {c : Call}
    (hs : SentWas (guarded M t n aux1 aux2) t n p (nd a) a k c) :
    ZkdvrfPre.exec (guarded M t n aux1 aux2).env p ⟨a, 0⟩ c = ZkdvrfPre.exec M.env p ⟨a, 0⟩ c := by
  cases c with
  | submitPublicParams pp pr =>
    cases hst : (p.addrToNode a).statusPP with
    | true =>
      have hno : ∀ env : Env, ZkdvrfPre.exec env p ⟨a, 0⟩ (.submitPublicParams pp pr) = none := by
        intro env
        cases e : ZkdvrfPre.exec env p ⟨a, 0⟩ (.submitPublicParams pp pr) with
        | none => rfl
        | some p' =>
          have := (ZkdvrfPre.submitPublicParams_some.1 e).2.2.2.1
          rw [show (p.addrToNode a).statusPP = _ from hst] at this
          cases this
      rw [hno, hno]
    | false =>
      obtain ⟨p', h1, _⟩ := land_deal (k := k) hc ha (hs.2 hst)
      rw [h1]
      obtain ⟨q1, q2, q3, q4, q5, q6, q7, q8⟩ := ZkdvrfPre.submitPublicParams_some.1 h1
      refine (ZkdvrfPre.submitPublicParams_some.2 ⟨q1, q2, q3, q4, q5, ?_, q7, q8⟩).symm
      have h' : (if ∃ ins, pp = wordsOf ins ∧ DkgCircuit.synthesize ⟨t, n⟩ aux1 aux2 ins then M.env.verifyProof pr pp
        else some false) = some true := q6
      split at h'
      · exact h'
      · cases h'
  | _ => rfl

theorem exec_guarded_admin {p : State} {a : Address} {f : Files} {c : Call} (hs : AdminSentWas t n p f c) :
    ZkdvrfPre.exec (guarded M t n aux1 aux2).env p ⟨a, 0⟩ c = ZkdvrfPre.exec M.env p ⟨a, 0⟩ c := by
  cases c with
  | submitPublicParams pp pr => exact hs.elim
  | _ => rfl

theorem noLuck_guarded {p : State} {a : Address} {k : ℕ} {c : Call} :
    NoLuck (guarded M t n aux1 aux2) p a k c ↔ NoLuck M p a k c := by
  constructor
  · intro h e he hk hx
    refine h e he hk ?_
    subst he
    exact hx
  · intro h e he hk hx
    refine h e he hk ?_
    subst he
    exact hx

theorem guarded_fetch (w : Overlap) (a : Address) (d : Draw) :
    w.fetch (guarded M t n aux1 aux2) a d = w.fetch M a d := by
  unfold Overlap.fetch
  split
  · rename_i j _
    have : nodeRun (guarded M t n aux1 aux2) w.p a (w.node a) d j = nodeRun M w.p a (w.node a) d j := by
      cases j <;> rfl
    rw [this]
  · rfl

theorem guarded_land {s : Survivors} (hK : KInv (guarded M t n aux1 aux2) o ws t n s) {a : Address} (ha : a ∈ ws) :
    s.w.land (guarded M t n aux1 aux2) a = s.w.land M a := by
  unfold Overlap.land
  split
  · rename_i c k hk
    have hn := hK.nodes a ha
    rw [hk] at hn
    rw [exec_guarded hK.core ha hn]
  · rfl

theorem guarded_adminFetch (w : Overlap) : w.adminFetch (guarded M t n aux1 aux2) = w.adminFetch M := by
  unfold Overlap.adminFetch
  split
  · rename_i j _
    have : adminRun (guarded M t n aux1 aux2) w.p w.admin j = adminRun M w.p w.admin j := by cases j <;> rfl
    rw [this]
  · rfl

theorem guarded_adminLand {s : Survivors} (hK : KInv (guarded M t n aux1 aux2) o ws t n s) :
    s.w.adminLand (guarded M t n aux1 aux2) o = s.w.adminLand M o := by
  unfold Overlap.adminLand
  split
  · rename_i c k hk
    have hn := hK.admin
    rw [hk] at hn
    rw [exec_guarded_admin hn]
  · rfl

theorem guarded_mine {s : Survivors} (hK : KInv (guarded M t n aux1 aux2) o ws t n s) (i : ℕ) :
    s.mine (guarded M t n aux1 aux2) i = s.mine M i := by
  unfold Survivors.mine
  split
  · rfl
  · rename_i a c k hk
    rcases hK.left _ (List.mem_of_getElem? hk) with ⟨q1, _, q3⟩ | ⟨_, q⟩
    · rw [exec_guarded hK.core q1 q3]
    · rw [exec_guarded_admin q]

theorem guarded_overlap_step {s : Survivors} (hK : KInv (guarded M t n aux1 aux2) o ws t n s) {w' : Overlap} :
    OverlapStep (guarded M t n aux1 aux2) o ws t n aux1 aux2 s.w w' ↔ OverlapStep M o ws t n aux1 aux2 s.w w' := by
  constructor
  · intro h
    cases h with
    | look a ha => exact .look a ha
    | fetch a d ha hd => rw [guarded_fetch]; exact .fetch a d ha hd
    | land a ha hl => rw [guarded_land hK ha]; exact .land a ha (fun c k hs => noLuck_guarded.1 (hl c k hs))
    | adminLook b => exact .adminLook b
    | adminTick b e he => exact .adminTick b e he
    | adminFetch => rw [guarded_adminFetch]; exact .adminFetch
    | adminLand => rw [guarded_adminLand hK]; exact .adminLand
  · intro h
    cases h with
    | look a ha => exact .look a ha
    | fetch a d ha hd =>
      rw [← guarded_fetch (t := t) (n := n) (aux1 := aux1) (aux2 := aux2)]; exact .fetch a d ha hd
    | land a ha hl => rw [← guarded_land hK ha]; exact .land a ha (fun c k hs => noLuck_guarded.2 (hl c k hs))
    | adminLook b => exact .adminLook b
    | adminTick b e he => exact .adminTick b e he
    | adminFetch =>
      rw [← guarded_adminFetch (t := t) (n := n) (aux1 := aux1) (aux2 := aux2)]; exact .adminFetch
    | adminLand => rw [← guarded_adminLand hK]; exact .adminLand

/-- A step with the check is one without it. -/
theorem guarded_step {s s' : Survivors} (hK : KInv (guarded M t n aux1 aux2) o ws t n s) :
    SurvivorStep (guarded M t n aux1 aux2) o ws t n aux1 aux2 s s' ↔
      SurvivorStep M o ws t n aux1 aux2 s s' := by
  constructor
  · intro h
    cases h with
    | run w' hw => exact .run w' ((guarded_overlap_step hK).1 hw)
    | mine i hl => rw [guarded_mine hK]; exact .mine i (fun a c k hs => noLuck_guarded.1 (hl a c k hs))
  · intro h
    cases h with
    | run w' hw => exact .run w' ((guarded_overlap_step hK).2 hw)
    | mine i hl => rw [← guarded_mine hK]; exact .mine i (fun a c k hs => noLuck_guarded.2 (hl a c k hs))

/-- If every satisfiable instance is proved and accepted, the check makes no difference. -/
theorem surviving_guarded (hM : Sane M aux1 aux2)
    (hc : ∀ ins, DkgCircuit.synthesize ⟨t, n⟩ aux1 aux2 ins → ServicesFiles.ProofAccepted M ins) {w0 : World}
    (h0 : Fresh M o ws t n w0.p) {s : Survivors} :
    Surviving (guarded M t n aux1 aux2) o ws t n aux1 aux2 (.begin w0) s ↔
      Surviving M o ws t n aux1 aux2 (.begin w0) s := by
  have hF := guarded_faithful hM hc
  constructor
  · intro h
    induction h with
    | refl => exact .refl
    | tail h hs ih => exact ih.tail (hs.imp_left (guarded_step (surviving_inv hF (guarded_fresh h0) h)).1)
  · intro h
    induction h with
    | refl => exact .refl
    | tail _ hs ih => exact ih.tail (hs.imp_left (guarded_step (surviving_inv hF (guarded_fresh h0) ih)).2)

theorem surviving_unguard (hM : Sane M aux1 aux2)
    (hc : ∀ ins, DkgCircuit.synthesize ⟨t, n⟩ aux1 aux2 ins → ServicesFiles.ProofAccepted M ins) {w0 : World}
    (h0 : Fresh M o ws t n w0.p) {s s' : Survivors}
    (hs : Surviving (guarded M t n aux1 aux2) o ws t n aux1 aux2 (.begin w0) s)
    (h : Surviving (guarded M t n aux1 aux2) o ws t n aux1 aux2 s s') :
    Surviving M o ws t n aux1 aux2 s s' := by
  induction h with
  | refl => exact .refl
  | tail h1 hh ih =>
    exact ih.tail (hh.imp_left (guarded_step (surviving_inv (guarded_faithful hM hc) (guarded_fresh h0)
      (Relation.ReflTransGen.trans hs h1))).1)

end
end Verif.Overlap
