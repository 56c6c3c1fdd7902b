import Verif.Spec.ServicesProofs
import Verif.Lemmas.DiskEarly
import Verif.Lemmas.ServicesFilesSim

/-! Services with any proof system: simulation by services with an ideal one. -/

namespace Verif.ServicesFiles
open Disk Disk.Prog ClientFiles
open Services (Machine Draw GoodDraw Faithful Fresh config)
open ZkdvrfPre (State Completed Registered Added indexOf getIndexPlus)
open Zkdvrf (Call)

open Classical in
/-- The same services with an ideal proof system: everything is proved, the client accepts everything, and
the contract accepts the instances that satisfy the circuit. -/
noncomputable def ideal (M : Machine) (t n : ℕ) (aux1 : G1) (aux2 : G2) : Machine :=
  { M with
    env := { M.env with
      verifyProof := fun _ pp => some (decide (∃ ins, pp = wordsOf ins ∧ DkgCircuit.synthesize ⟨t, n⟩ aux1 aux2 ins)) }
    prover := fun ins => some ((M.prover ins).getD [])
    verifier := fun _ _ => true }

section
variable {M : Machine} {o : Address} {ws : List Address} {t n : ℕ} {aux1 : G1} {aux2 : G2}

open Classical in
theorem ideal_faithful (hM : Sane M aux1 aux2) : Faithful (ideal M t n aux1 aux2) t n aux1 aux2 where
  sound := ⟨aux1, aux2, fun _ _ h _ => of_decide_eq_true (Option.some.inj h)⟩
  table1 := hM.table1
  order2 := hM.order2
  table2 := hM.table2
  proves := fun ins h => ⟨_, rfl, rfl, congrArg some (decide_eq_true ⟨ins, rfl, h⟩)⟩
  hash := hM.hash

/-- Only submissions of parameters depend on the proof system. -/
theorem exec_ideal {p : State} {m : Msg} {c : Call} (h : ∀ pp pr, c ≠ .submitPublicParams pp pr) :
    ZkdvrfPre.exec (ideal M t n aux1 aux2).env p m c = ZkdvrfPre.exec M.env p m c := by
  cases c with
  | submitPublicParams pp pr => exact absurd rfl (h pp pr)
  | _ => rfl

theorem exec_verifier {env : Env} (f : List Byte → List Word → Option Bool) {p : State} {m : Msg} (c : Call)
    (h : p.contractPhase ≠ .Nidkg) :
    ZkdvrfPre.exec { env with verifyProof := f } p m c = ZkdvrfPre.exec env p m c := by
  cases c with
  | submitPublicParams pp pr =>
    have : ∀ env : Env, ZkdvrfPre.submitPublicParams env p m pp pr = none := by
      intro env
      cases e : ZkdvrfPre.submitPublicParams env p m pp pr with
      | none => rfl
      | some p' => exact absurd (ZkdvrfPre.submitPublicParams_some.1 e).2.2.1 h
    exact (this _).trans (this _).symm
  | _ => rfl

theorem exec_outside {p : State} {m : Msg} (c : Call) (h : p.contractPhase ≠ .Nidkg) :
    ZkdvrfPre.exec (ideal M t n aux1 aux2).env p m c = ZkdvrfPre.exec M.env p m c := exec_verifier _ c h

/-- If both accept, the new state is the same. -/
theorem exec_both {p p' p'' : State} {m : Msg} {c : Call}
    (h1 : ZkdvrfPre.exec (ideal M t n aux1 aux2).env p m c = some p') (h2 : ZkdvrfPre.exec M.env p m c = some p'') :
    p'' = p' := by
  by_cases hc : ∃ pp pr, c = .submitPublicParams pp pr
  · obtain ⟨pp, pr, rfl⟩ := hc
    obtain ⟨_, _, _, _, _, _, _, e1⟩ := ZkdvrfPre.submitPublicParams_some.1 h1
    obtain ⟨_, _, _, _, _, _, _, e2⟩ := ZkdvrfPre.submitPublicParams_some.1 h2
    rw [← e1, ← e2]
  · push Not at hc
    rw [exec_ideal hc] at h1
    rw [h1] at h2
    exact (Option.some.inj h2).symm

/-- A state before the DKG is reachable with any verifier of proofs. -/
theorem reachable_verifier {env : Env} (f : List Byte → List Word → Option Bool) {p : State}
    (hr : ZkdvrfPre.Reachable env p) (ht : 1 ≤ p.threshold) (hp : p.contractPhase = .Unregistered) :
    ZkdvrfPre.Reachable { env with verifyProof := f } p := by
  induction hr with
  | deploy h => exact .deploy h
  | @step s tx hv hr ih =>
    have ht' : 1 ≤ s.threshold := by rw [← (ZkdvrfPre.step_threshold env s tx).1]; exact ht
    have hs : s.contractPhase = .Unregistered := by
      rcases Props.C30_pre_phase_step env hr ht' tx hv with h | ⟨_, h2, _⟩ | ⟨_, h2, _⟩ | ⟨_, h2, _⟩ | ⟨_, h2, _⟩
      · exact h.symm.trans hp
      all_goals rw [h2] at hp; cases hp
    have e : ZkdvrfPre.step env s tx = ZkdvrfPre.step { env with verifyProof := f } s tx := by
      cases tx with
      | forceEther a => rfl
      | call m c =>
        show (ZkdvrfPre.exec env s m c).getD s = (ZkdvrfPre.exec { env with verifyProof := f } s m c).getD s
        rw [exec_verifier f c (by rw [hs]; exact ZkdvrfPre.Phase.noConfusion)]
    rw [e]
    exact .step tx hv (ih ht' hs)

theorem ideal_reachable {p : State} (hr : ZkdvrfPre.Reachable M.env p) (ht : 1 ≤ p.threshold)
    (hp : p.contractPhase = .Unregistered) : ZkdvrfPre.Reachable (ideal M t n aux1 aux2).env p :=
  reachable_verifier _ hr ht hp

theorem ideal_fresh {p : State} (h : Fresh M o ws t n p) : Fresh (ideal M t n aux1 aux2) o ws t n p :=
  { h with reachable := ideal_reachable h.reachable (by rw [h.threshold]; exact h.t_pos) h.phase }

/-! ### Passes -/

theorem submitPP_early (p : State) (a : Address) (d : Draw) :
    Early (submitPP M p a d) (submitPP (ideal M t n aux1 aux2) p a d) := by
  unfold submitPP
  refine Early.seq _ (fun _ => Early.seq _ (fun i => Early.bind ?_ (fun _ => Early.bind ?_ (fun _ => .refl _))))
  · unfold exec Command.prog
    dsimp only
    unfold ClientFiles.prove
    refine Early.seq _ (fun _ => Early.seq _ (fun _ => Early.seq _ (fun _ => Early.seq _ (fun _ => Early.seq _
      (fun ins => ?_)))))
    show Early (match M.prover ins with | none => _ | some proof => saveProof proof ins i)
      (saveProof ((M.prover ins).getD []) ins i)
    cases hm : M.prover ins with
    | none => exact .fail _ _
    | some pr => exact .refl _
  · unfold exec Command.prog
    dsimp only
    unfold ClientFiles.dkgVerify
    refine Early.seq _ (fun _ => Early.seq _ (fun pr => Early.seq _ (fun _ => Early.seq _ (fun ins => Early.seq _
      (fun _ => Early.seq _ (fun mpks => Early.seq _ (fun pks => ?_)))))))
    split
    · exact .refl _
    · show Early (if M.verifier pr ins then pure () else fail _) (pure ())
      split
      · exact .refl _
      · exact .fail _ _

/-- A pass fails where the pass with the ideal proof system goes on, or is the same. -/
theorem nodePass_early (p : State) (a : Address) (d : Draw) :
    Early (nodePass M p a d) (nodePass (ideal M t n aux1 aux2) p a d) := by
  unfold nodePass
  dsimp only
  split
  · split
    · exact .refl _
    · split
      · exact Early.bind (submitPP_early p a d) (fun _ => .refl _)
      · exact .refl _
    · exact .refl _
    · exact .refl _
  · exact .refl _

theorem nodePass_outside (p : State) (a : Address) (d : Draw)
    (h : p.contractPhase ≠ .Nidkg ∨ (p.addrToNode a).statusPP = true) :
    nodePass (ideal M t n aux1 aux2) p a d = nodePass M p a d := by
  unfold nodePass
  dsimp only
  split
  · split
    · rfl
    · next hp =>
      rcases h with h | h
      · exact absurd hp h
      · rw [h]; rfl
    · rfl
    · rfl
  · rfl

theorem adminPass_ideal (p : State) (d : Draw) (begun : Bool) :
    adminPass (ideal M t n aux1 aux2) p d begun = adminPass M p d begun := rfl

end

end Verif.ServicesFiles
