import Verif.Model.ZkdvrfPreEvents
import Verif.Lemmas.ZkdvrfPre
import Verif.Lemmas.ZkdvrfEvents

/-! The event log of contracts/zkdvrf_pre.sol is one of the plain contract. -/

namespace Verif.ZkdvrfPre
open Zkdvrf (Event)

theorem History.reachable {env : Env} {s : State} {log : List Event} (h : History env s log) :
    Reachable env s := by
  induction h with
  | deploy h => exact .deploy h
  | step tx hv _ ih => exact .step tx hv ih

theorem Reachable.history {env : Env} {s : State} (h : Reachable env s) :
    ∃ log, History env s log := by
  induction h with
  | deploy h => exact ⟨[], .deploy h⟩
  | step tx hv _ ih => obtain ⟨log, h⟩ := ih; exact ⟨_, .step tx hv h⟩

theorem emits_toZk (p : State) (o1 o2 : List Address) (c : Zkdvrf.Call) :
    Zkdvrf.emits (p.toZk o1 o2) c = emits p c := by
  cases c <;> rfl

theorem sim_history {env : Env} {p : State} {log : List Event} (h : History env p log)
    (ht : 1 ≤ p.threshold) : Extra env p ∧ ∃ o1 o2, Zkdvrf.History env (p.toZk o1 o2) log := by
  induction h with
  | @deploy m t n o a b c d s h =>
    refine ⟨(sim (.deploy h) ht).1, [], [], ?_⟩
    obtain ⟨h1, h2, h3, h4, h5, h6, h7, rfl⟩ := constructor_some.1 h
    exact .deploy (m := ⟨o, 0⟩) h2 (Zkdvrf.constructor_some.2 ⟨rfl, h2, h3, h4, h5, h6, h7, rfl⟩)
  | @step s log tx hv hh ih =>
    rw [(step_threshold _ _ _).1] at ht
    obtain ⟨hx, o1, o2, hz⟩ := ih ht
    refine ⟨(sim_step tx hz.reachable hx ht).1, ?_⟩
    cases tx with
    | forceEther a =>
      refine ⟨o1, o2, ?_⟩
      exact .step (.forceEther a) trivial hz
    | call m c =>
      unfold step txEvents
      dsimp only
      cases he : exec env s m c with
      | none => dsimp only; rw [List.append_nil]; exact ⟨o1, o2, hz⟩
      | some p' =>
        obtain ⟨o1', o2', h⟩ := sim_exec hz.reachable hx ht he
        refine ⟨o1', o2', ?_⟩
        have := Zkdvrf.History.step (.call m c) hv hz
        have e1 : Zkdvrf.step env (s.toZk o1 o2) (.call m c) = p'.toZk o1' o2' :=
          congrArg (Option.getD · _) h
        have e2 : Zkdvrf.txEvents env (s.toZk o1 o2) (.call m c) = emits p' c := by
          unfold Zkdvrf.txEvents
          dsimp only
          rw [h]
          exact emits_toZk p' o1' o2' c
        rw [e1, e2] at this
        exact this

end Verif.ZkdvrfPre
