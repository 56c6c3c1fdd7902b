import Verif.Lemmas.OverlapOthers
import Verif.Lemmas.OverlapProofs
import Verif.Spec.OverlapOthersAny

/-! Honest node services among others with any proof system: simulation with an ideal one. -/

namespace Verif.Overlap
open Verif.Services
open Verif.ZkdvrfPre (State Completed Phase Registered Added indexOf getIndexPlus Reachable GuardedHistory)
open Verif.ServicesFiles (ideal ideal_faithful exec_ideal exec_both Sane)
open Zkdvrf (Call)

/-- The services `s` with any proof system and `s'` with an ideal one, as in `Like`. -/
structure Alike (s s' : Survivors) : Prop where
  state : s'.w.p = s.w.p
  adminFiles : s'.w.admin = s.w.admin
  files : s'.w.node = s.w.node
  adminAt : s'.w.adminAt = s.w.adminAt
  nodes : ∀ a, s'.w.nodeAt a = s.w.nodeAt a ∨ s.w.nodeAt a = .stopped ∧
    ∃ pp pr k, s'.w.nodeAt a = .sent (.submitPublicParams pp pr) k
  left : s.left.Sublist s'.left

/-- The stages of the nodes in both. -/
def AlikeNodes (na na' : Address → Stage Job) : Prop :=
  ∀ a, na' a = na a ∨ na a = .stopped ∧ ∃ pp pr k, na' a = .sent (.submitPublicParams pp pr) k

theorem AlikeNodes.update {na na' : Address → Stage Job} (h : AlikeNodes na na') (a : Address) (st : Stage Job) :
    AlikeNodes (Function.update na a st) (Function.update na' a st) := by
  intro b
  by_cases hb : b = a
  · subst hb; left; rw [Function.update_self, Function.update_self]
  · rw [Function.update_of_ne hb, Function.update_of_ne hb]; exact h b

theorem AlikeNodes.stop {na na' : Address → Stage Job} (h : AlikeNodes na na') {a : Address}
    {pp : List Word} {pr : List Byte} {k : ℕ} (hs : na' a = .sent (.submitPublicParams pp pr) k) :
    AlikeNodes (Function.update na a .stopped) na' := by
  intro b
  by_cases hb : b = a
  · subst hb; right; rw [Function.update_self]; exact ⟨rfl, pp, pr, k, hs⟩
  · rw [Function.update_of_ne hb]; exact h b

theorem AlikeNodes.stop_update {na na' : Address → Stage Job} (h : AlikeNodes na na') {a : Address}
    (pp : List Word) (pr : List Byte) (k : ℕ) :
    AlikeNodes (Function.update na a .stopped) (Function.update na' a (.sent (.submitPublicParams pp pr) k)) := by
  intro b
  by_cases hb : b = a
  · subst hb; right; rw [Function.update_self, Function.update_self]; exact ⟨rfl, pp, pr, k, rfl⟩
  · rw [Function.update_of_ne hb, Function.update_of_ne hb]; exact h b

section
variable {M : Machine} {H : Set Address} {t n : ℕ} {aux1 : G1} {aux2 : G2}

open Classical in
/-- An accepted submission that is satisfiable is accepted by the ideal verifier. -/
theorem exec_satisfiable {p p' : State} {m : Msg} {c : Call}
    (hc : ∀ pp pr, c = .submitPublicParams pp pr → Satisfiable t n aux1 aux2 pr pp)
    (he : ZkdvrfPre.exec M.env p m c = some p') : ZkdvrfPre.exec (ideal M t n aux1 aux2).env p m c = some p' := by
  by_cases hpp : ∃ pp pr, c = .submitPublicParams pp pr
  · obtain ⟨pp, pr, rfl⟩ := hpp
    obtain ⟨q1, q2, q3, q4, q5, q6, q7, q8⟩ := ZkdvrfPre.submitPublicParams_some.1 he
    exact ZkdvrfPre.submitPublicParams_some.2 ⟨q1, q2, q3, q4, q5, congrArg some (decide_eq_true (hc pp pr rfl)), q7, q8⟩
  · push Not at hpp
    rw [exec_ideal hpp]
    exact he

open Classical in
/-- What a node has sent is satisfiable, if it is a dealing that the contract may accept. -/
theorem sent_satisfiable {p p' : State} {f : Files} {a : Address} {k : ℕ} {c : Call}
    (hs : SentOne (ideal M t n aux1 aux2) t n aux1 aux2 p f a k c) (he : ZkdvrfPre.exec M.env p ⟨a, 0⟩ c = some p') :
    ∀ pp pr, c = .submitPublicParams pp pr → Satisfiable t n aux1 aux2 pr pp := by
  rintro pp pr rfl
  have hst := (ZkdvrfPre.submitPublicParams_some.1 he).2.2.2.1
  exact of_decide_eq_true (Option.some.inj (hs.2.2 hst).2)

theorem exec_alike {p p' : State} {f : Files} {a : Address} {k : ℕ} {c : Call}
    (hs : SentOne (ideal M t n aux1 aux2) t n aux1 aux2 p f a k c) (he : ZkdvrfPre.exec M.env p ⟨a, 0⟩ c = some p') :
    ZkdvrfPre.exec (ideal M t n aux1 aux2).env p ⟨a, 0⟩ c = some p' := exec_satisfiable (sent_satisfiable hs he) he

/-- A step with any proof system is a step with the ideal one, or none. -/
theorem alike_step {s s' s1 : Survivors} (hK : MInv (ideal M t n aux1 aux2) H t n aux1 aux2 s') (hl : Alike s s')
    (h : MixedGuardedStep M (Satisfiable t n aux1 aux2) H t n aux1 aux2 s s1) :
    ∃ s1', (s1' = s' ∨ MixedStep (ideal M t n aux1 aux2) H t n aux1 aux2 s' s1') ∧ Alike s1 s1' := by
  obtain ⟨⟨p, ad, nd, aa, na⟩, l⟩ := s
  obtain ⟨⟨p', ad', nd', aa', na'⟩, l'⟩ := s'
  obtain ⟨e1, e2, e3, e4, hna, hleft⟩ := hl
  dsimp only at e1 e2 e3 e4 hna hleft
  subst e1 e2 e3 e4
  cases h with
  | look a ha =>
    refine ⟨_, Or.inr (.look a ha), ?_⟩
    unfold Overlap.look
    dsimp only
    rcases hna a with h | ⟨h1, pp, pr, k, h2⟩
    · rw [h]
      split
      · split
        · exact ⟨rfl, rfl, rfl, rfl, hna, hleft⟩
        · exact ⟨rfl, rfl, rfl, rfl, AlikeNodes.update hna a _, hleft⟩
      · exact ⟨rfl, rfl, rfl, rfl, hna, hleft⟩
    · rw [h1, h2]
      exact ⟨rfl, rfl, rfl, rfl, hna, hleft⟩
  | fetch a d ha hd =>
    refine ⟨_, Or.inr (.fetch a d ha hd), ?_⟩
    unfold Overlap.fetch
    dsimp only
    rcases hna a with h | ⟨h1, pp, pr, k, h2⟩
    · rw [h]
      cases hst : na a with
      | decided j =>
        dsimp only
        rcases nodeRun_ideal (M := M) (t := t) (n := n) (aux1 := aux1) (aux2 := aux2) p' a (nd' a) d j with
          hr | ⟨_, hr1, pp, pr, hr2⟩
        · rw [← hr]
          split
          · exact ⟨rfl, rfl, rfl, rfl, AlikeNodes.update hna a _, hleft⟩
          · exact ⟨rfl, rfl, rfl, rfl, AlikeNodes.update hna a _, hleft⟩
          · exact ⟨rfl, rfl, rfl, rfl, AlikeNodes.update hna a _, hleft⟩
        · rw [hr1, hr2]
          exact ⟨rfl, rfl, rfl, rfl, AlikeNodes.stop_update hna _ _ _, hleft⟩
      | _ => exact ⟨rfl, rfl, rfl, rfl, hna, hleft⟩
    · rw [h1, h2]
      exact ⟨rfl, rfl, rfl, rfl, hna, hleft⟩
  | land a ha hl =>
    dsimp only at hl
    rcases hna a with h | ⟨h1, pp, pr, k, h2⟩
    · cases hst : na a with
      | sent c k =>
        rw [hst] at h
        have hn := (hK.each a ha).node
        dsimp only at hn
        rw [h] at hn
        cases he : ZkdvrfPre.exec M.env p' ⟨a, 0⟩ c with
        | some p1 =>
          have he' := exec_alike hn.2 he
          refine ⟨_, Or.inr (.land a ha (fun c' k' hs => ?_)), ?_⟩
          · dsimp only at hs ⊢
            exact noLuck_ideal (hl c' k' (hst.trans (h.symm.trans hs)))
          · unfold Overlap.land
            dsimp only
            rw [hst, h]
            dsimp only
            rw [he, he']
            exact ⟨rfl, rfl, rfl, rfl, AlikeNodes.update hna a _, hleft⟩
        | none =>
          by_cases hpp : ∃ pp pr, c = .submitPublicParams pp pr
          · obtain ⟨pp, pr, rfl⟩ := hpp
            refine ⟨_, Or.inl rfl, ?_⟩
            unfold Overlap.land
            dsimp only
            rw [hst]
            dsimp only
            rw [he]
            exact ⟨rfl, rfl, rfl, rfl, AlikeNodes.stop hna h, hleft⟩
          · push Not at hpp
            have he' : ZkdvrfPre.exec (ideal M t n aux1 aux2).env p' ⟨a, 0⟩ c = none := by
              rw [exec_ideal hpp]; exact he
            refine ⟨_, Or.inr (.land a ha (fun c' k' hs => ?_)), ?_⟩
            · dsimp only at hs ⊢
              exact noLuck_ideal (hl c' k' (hst.trans (h.symm.trans hs)))
            · unfold Overlap.land
              dsimp only
              rw [hst, h]
              dsimp only
              rw [he, he']
              exact ⟨rfl, rfl, rfl, rfl, AlikeNodes.update hna a _, hleft⟩
      | _ =>
        refine ⟨_, Or.inl rfl, ?_⟩
        unfold Overlap.land
        dsimp only
        rw [hst]
        exact ⟨rfl, rfl, rfl, rfl, hna, hleft⟩
    · refine ⟨_, Or.inl rfl, ?_⟩
      unfold Overlap.land
      dsimp only
      rw [h1]
      exact ⟨rfl, rfl, rfl, rfl, hna, hleft⟩
  | mine i hl =>
    unfold Survivors.mine
    dsimp only at hl ⊢
    cases hi : l[i]? with
    | none => exact ⟨_, Or.inl rfl, rfl, rfl, rfl, rfl, hna, hleft⟩
    | some g =>
      obtain ⟨a, c, k⟩ := g
      obtain ⟨j, hj1, hj2⟩ := sublist_erase hleft hi
      have hlj : ∀ a c k, l'[j]? = some (a, c, k) → NoLuck (ideal M t n aux1 aux2) p' a k c := by
        intro a' c' k' hh
        exact noLuck_ideal (hl a' c' k' (hi.trans (hj1.symm.trans hh)))
      have hm := List.mem_of_getElem? hj1
      have hLO := (hK.each a (hK.from_ _ hm)).left c k hm
      dsimp only
      cases he : ZkdvrfPre.exec M.env p' ⟨a, 0⟩ c with
      | some p1 =>
        have he' := exec_alike hLO.2.2 he
        refine ⟨_, Or.inr (.mine j hlj), ?_⟩
        unfold Survivors.mine
        dsimp only
        rw [hj1]
        dsimp only
        rw [he']
        exact ⟨rfl, rfl, rfl, rfl, hna, hj2⟩
      | none =>
        refine ⟨_, Or.inl rfl, rfl, rfl, rfl, rfl, hna, ?_⟩
        exact (List.eraseIdx_sublist ..).trans hleft
  | restart a lost ha hr =>
    dsimp only at hr
    rcases hna a with h | ⟨h1, pp, pr, k, h2⟩
    · refine ⟨_, Or.inr (.restart a lost ha (fun pk k hs => hr pk k (h.symm.trans hs))), rfl, rfl, rfl, rfl,
        AlikeNodes.update hna a _, ?_⟩
      unfold Survivors.restart
      dsimp only
      rw [h]
      exact (List.Sublist.refl _).append hleft
    · refine ⟨_, Or.inr (.restart a true ha (fun _ _ _ => rfl)), rfl, rfl, rfl, rfl, AlikeNodes.update hna a _, ?_⟩
      unfold Survivors.restart
      dsimp only
      rw [h1, h2]
      exact hleft
  | other tx hv hn hg =>
    dsimp only at hg ⊢
    cases tx with
    | forceEther x => exact ⟨_, Or.inr (.other _ hv hn), rfl, rfl, rfl, rfl, hna, hleft⟩
    | call m c =>
      cases he : ZkdvrfPre.exec M.env p' m c with
      | none => rw [ZkdvrfPre.step_none he]; exact ⟨_, Or.inl rfl, rfl, rfl, rfl, rfl, hna, hleft⟩
      | some p1 =>
        have he' := exec_satisfiable (t := t) (n := n) (aux1 := aux1) (aux2 := aux2)
          (fun pp pr hc => by subst hc; exact hg m pp pr p1 rfl he) he
        rw [ZkdvrfPre.step_some he]
        refine ⟨_, Or.inr (.other _ hv hn), ?_, rfl, rfl, rfl, hna, hleft⟩
        exact ZkdvrfPre.step_some he'

/-- A history whose accepted submissions are satisfiable is one with the ideal verifier. -/
theorem ideal_history {p : State} (h : GuardedHistory M.env (Satisfiable t n aux1 aux2) p) :
    Reachable (ideal M t n aux1 aux2).env p := by
  induction h with
  | deploy h => exact .deploy h
  | @step s tx hv _ hg ih =>
    cases tx with
    | forceEther x => exact .step (.forceEther x) hv ih
    | call m c =>
      cases he : ZkdvrfPre.exec M.env s m c with
      | none => rw [ZkdvrfPre.step_none he]; exact ih
      | some p1 =>
        have he' := exec_satisfiable (t := t) (n := n) (aux1 := aux1) (aux2 := aux2)
          (fun pp pr hc => by subst hc; exact hg m pp pr p1 rfl he) he
        have := Reachable.step (.call m c) hv ih
        rw [ZkdvrfPre.step_some he'] at this
        rw [ZkdvrfPre.step_some he]
        exact this

theorem before_ideal {p : State} (h : BeforeGuarded M (Satisfiable t n aux1 aux2) H t n p) :
    Before (ideal M t n aux1 aux2) H t n p :=
  ⟨ideal_history h.reachable, h.threshold, h.members, h.t_pos, h.n_pos, h.nonzero, h.unregistered⟩

/-- Every such history is one with an ideal proof system, up to dealings that have not been mined. -/
theorem mixed_ideal (hM : Sane M aux1 aux2) {w0 : World} (h0 : BeforeGuarded M (Satisfiable t n aux1 aux2) H t n w0.p)
    {s : Survivors} (h : MixedGuarded M (Satisfiable t n aux1 aux2) H t n aux1 aux2 (.begin w0) s) :
    ∃ s', Mixed (ideal M t n aux1 aux2) H t n aux1 aux2 (.begin w0) s' ∧ Alike s s' := by
  induction h with
  | refl => exact ⟨_, .refl, rfl, rfl, rfl, rfl, fun _ => Or.inl rfl, .refl _⟩
  | tail _ hs ih =>
    obtain ⟨s', h1, h2⟩ := ih
    obtain ⟨s1', h3 | h3, h4⟩ := alike_step (mixed_inv (ideal_faithful hM) (before_ideal h0) h1) h2 hs
    · subst h3; exact ⟨_, h1, h4⟩
    · exact ⟨_, h1.tail h3, h4⟩

/-- What nodes rely on is in order with any proof system, too. -/
theorem alike_inv {s s' : Survivors} (hK : MInv (ideal M t n aux1 aux2) H t n aux1 aux2 s') (hl : Alike s s') :
    MInv (ideal M t n aux1 aux2) H t n aux1 aux2 s := by
  refine ⟨fun a ha => ?_, fun g hg => hK.from_ g (hl.left.subset hg)⟩
  obtain ⟨h1, h2, h3⟩ := hK.each a ha
  rw [hl.state, hl.files] at h1 h2 h3
  refine ⟨h1, ?_, fun c k hc => h3 c k (hl.left.subset hc)⟩
  rcases hl.nodes a with e | ⟨e, _⟩
  · rw [e] at h2; exact h2
  · rw [e]; trivial

theorem mixed_any_inv (hM : Sane M aux1 aux2) {w0 : World} (h0 : BeforeGuarded M (Satisfiable t n aux1 aux2) H t n w0.p)
    {s : Survivors} (h : MixedGuarded M (Satisfiable t n aux1 aux2) H t n aux1 aux2 (.begin w0) s) :
    MInv (ideal M t n aux1 aux2) H t n aux1 aux2 s := by
  obtain ⟨s', h1, h2⟩ := mixed_ideal hM h0 h
  exact alike_inv (mixed_inv (ideal_faithful hM) (before_ideal h0) h1) h2

/-- The contract's history is one whose accepted submissions are satisfiable. -/
theorem mixed_history (hM : Sane M aux1 aux2) {w0 : World} (h0 : BeforeGuarded M (Satisfiable t n aux1 aux2) H t n w0.p)
    {s : Survivors} (h : MixedGuarded M (Satisfiable t n aux1 aux2) H t n aux1 aux2 (.begin w0) s) :
    GuardedHistory M.env (Satisfiable t n aux1 aux2) s.w.p := by
  induction h with
  | refl => exact h0.reachable
  | @tail s s1 hh hs ih =>
    obtain ⟨s', h1, h2⟩ := mixed_ideal hM h0 hh
    have hK := mixed_inv (ideal_faithful hM) (before_ideal h0) h1
    have hown : ∀ {a : Address} {c : Call} {k : ℕ} {f : Files} {p1 : State}, a ∈ H →
        SentOne (ideal M t n aux1 aux2) t n aux1 aux2 s.w.p f a k c →
        ZkdvrfPre.exec M.env s.w.p ⟨a, 0⟩ c = some p1 → GuardedHistory M.env (Satisfiable t n aux1 aux2) p1 := by
      intro a c k f p1 ha hsent he
      have := GuardedHistory.step (env := M.env) (good := Satisfiable t n aux1 aux2) (.call ⟨a, 0⟩ c) (h0.nonzero a ha) ih
        (fun m pp pr p' e _ => by cases e; exact sent_satisfiable hsent he pp pr rfl)
      rwa [ZkdvrfPre.step_some he] at this
    cases hs with
    | look a ha => unfold Overlap.look; split <;> [split; skip] <;> exact ih
    | fetch a d ha hd => unfold Overlap.fetch; split <;> [split; skip] <;> exact ih
    | land a ha hl =>
      unfold Overlap.land
      split
      · rename_i c k hk
        split
        · exact ih
        · rename_i p1 he
          have hn := (hK.each a ha).node
          rcases h2.nodes a with e | ⟨e, _⟩
          · rw [e, hk, h2.state] at hn
            exact hown ha hn.2 he
          · rw [hk] at e; cases e
      · exact ih
    | mine i hl =>
      unfold Survivors.mine
      split
      · exact ih
      · rename_i a c k hk
        have hm := h2.left.subset (List.mem_of_getElem? hk)
        have ha := hK.from_ _ hm
        have hn := ((hK.each a ha).left c k hm).2.2
        rw [h2.state] at hn
        cases he : ZkdvrfPre.exec M.env s.w.p ⟨a, 0⟩ c with
        | none => exact ih
        | some p1 => exact hown ha hn he
    | restart a lost ha hr => exact ih
    | other tx hv hn hg => exact .step tx hv ih hg

end
end Verif.Overlap
