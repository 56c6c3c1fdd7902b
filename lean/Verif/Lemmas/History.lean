import Verif.Spec.History
import Verif.Lemmas.GppDealing
import Verif.Lemmas.ZkdvrfLive
import Verif.Lemmas.ZkdvrfPre

/-! Histories with good submissions, and the keys as sums of the dealings. -/

namespace Verif

/-- The environment whose proof check accepts only what is also `good`. -/
noncomputable def onlyIf (env : Env) (good : List Byte → List Word → Prop) : Env :=
  open Classical in
  { env with verifyProof := fun pr pp => if good pr pp then env.verifyProof pr pp else none }

theorem submit_onlyIf {env : Env} {good : List Byte → List Word → Prop} {s : Zkdvrf.State} {m : Msg} {pp : List Word} {pr : List Byte}
    (hg : ∀ s', Zkdvrf.submitPublicParams env s m pp pr = some s' → good pr pp) :
    Zkdvrf.submitPublicParams (onlyIf env good) s m pp pr = Zkdvrf.submitPublicParams env s m pp pr := by
  by_cases h : good pr pp
  · have : (onlyIf env good).verifyProof pr pp = env.verifyProof pr pp := if_pos h
    unfold Zkdvrf.submitPublicParams
    rw [this]
  · have h1 : Zkdvrf.submitPublicParams env s m pp pr = none := by
      cases e : Zkdvrf.submitPublicParams env s m pp pr with
      | none => rfl
      | some s' => exact absurd (hg s' e) h
    rw [h1]
    have : (onlyIf env good).verifyProof pr pp = none := if_neg h
    cases e : Zkdvrf.submitPublicParams (onlyIf env good) s m pp pr with
    | none => rfl
    | some s' =>
      obtain ⟨-, -, -, -, -, h2, -⟩ := Zkdvrf.submitPublicParams_some.1 e
      rw [this] at h2
      cases h2

theorem history_reachable {env : Env} {good : List Byte → List Word → Prop} {s : Zkdvrf.State} (h : Zkdvrf.GuardedHistory env good s) :
    Zkdvrf.Reachable (onlyIf env good) s ∧ Zkdvrf.Reachable env s := by
  induction h with
  | deploy hm h => exact ⟨.deploy hm h, .deploy hm h⟩
  | @step s tx hv h hg ih =>
    have e : Zkdvrf.step env s tx = Zkdvrf.step (onlyIf env good) s tx := by
      cases tx with
      | forceEther a => rfl
      | call m c =>
        cases c with
        | submitPublicParams pp pr =>
          show (Zkdvrf.submitPublicParams env s m pp pr).getD s = (Zkdvrf.submitPublicParams (onlyIf env good) s m pp pr).getD s
          rw [submit_onlyIf fun s' h => hg m pp pr s' rfl h]
        | _ => rfl
    refine ⟨?_, .step tx hv ih.2⟩
    rw [e]
    exact .step tx hv ih.1

theorem submit_onlyIf_pre {env : Env} {good : List Byte → List Word → Prop} {s : ZkdvrfPre.State} {m : Msg} {pp : List Word}
    {pr : List Byte} (hg : ∀ s', ZkdvrfPre.submitPublicParams env s m pp pr = some s' → good pr pp) :
    ZkdvrfPre.submitPublicParams (onlyIf env good) s m pp pr = ZkdvrfPre.submitPublicParams env s m pp pr := by
  by_cases h : good pr pp
  · have : (onlyIf env good).verifyProof pr pp = env.verifyProof pr pp := if_pos h
    unfold ZkdvrfPre.submitPublicParams
    rw [this]
  · have h1 : ZkdvrfPre.submitPublicParams env s m pp pr = none := by
      cases e : ZkdvrfPre.submitPublicParams env s m pp pr with
      | none => rfl
      | some s' => exact absurd (hg s' e) h
    rw [h1]
    have : (onlyIf env good).verifyProof pr pp = none := if_neg h
    cases e : ZkdvrfPre.submitPublicParams (onlyIf env good) s m pp pr with
    | none => rfl
    | some s' =>
      obtain ⟨-, -, -, -, -, h2, -⟩ := ZkdvrfPre.submitPublicParams_some.1 e
      rw [this] at h2
      cases h2

theorem history_reachable_pre {env : Env} {good : List Byte → List Word → Prop} {s : ZkdvrfPre.State}
    (h : ZkdvrfPre.GuardedHistory env good s) : ZkdvrfPre.Reachable (onlyIf env good) s ∧ ZkdvrfPre.Reachable env s := by
  induction h with
  | deploy h => exact ⟨.deploy h, .deploy h⟩
  | @step s tx hv h hg ih =>
    have e : ZkdvrfPre.step env s tx = ZkdvrfPre.step (onlyIf env good) s tx := by
      cases tx with
      | forceEther a => rfl
      | call m c =>
        cases c with
        | submitPublicParams pp pr =>
          show (ZkdvrfPre.submitPublicParams env s m pp pr).getD s = (ZkdvrfPre.submitPublicParams (onlyIf env good) s m pp pr).getD s
          rw [submit_onlyIf_pre fun s' h => hg m pp pr s' rfl h]
        | _ => rfl
    refine ⟨?_, .step tx hv ih.2⟩
    rw [e]
    exact .step tx hv ih.1

theorem dealings_sums {t n : ℕ} {cs : List (List Fr)} {pl : List (List Word)} (h : List.Forall₂ (DealtWords t n) cs pl)
    (hr : ∀ w ∈ pl, Spec.Reduced n w) :
    ∃ ds : List ((G1 × List G1) × List Word), pl = ds.map pointWords ∧ (∀ d ∈ ds, d.1.2.length = n) ∧
      (ds.map (fun d => d.1.1)).sum = (cs.map fun c => Spec.poly c 0).sum • g1 ∧
      ∀ j, j < n → (ds.map (fun d => d.1.2.getD j 0)).sum = (cs.map fun c => Spec.poly c ((j + 1 : ℕ) : Fr)).sum • g1 := by
  induction h with
  | nil =>
    refine ⟨[], rfl, by simp, ?_, fun j _ => ?_⟩
    · exact (zero_smul Fr g1).symm
    · exact (zero_smul Fr g1).symm
  | @cons c w cs pl hd _ ih =>
    obtain ⟨ds, h1, h3, h4, h5⟩ := ih fun w hw => hr w (List.mem_cons_of_mem _ hw)
    obtain ⟨d, e1, e2, e3⟩ := dealing_words hd (hr w List.mem_cons_self)
    refine ⟨d :: ds, ?_, ?_, ?_, ?_⟩
    · rw [List.map_cons, ← e1, ← h1]
    · intro d' hd'
      rcases List.mem_cons.1 hd' with rfl | hd'
      · rw [e3]; simp
      · exact h3 d' hd'
    · rw [List.map_cons, List.sum_cons, h4, e2, List.map_cons, List.sum_cons, add_smul]
    · intro j hj
      rw [List.map_cons, List.sum_cons, h5 j hj, e3, List.map_cons, List.sum_cons, add_smul,
        List.getD_eq_getElem?_getD, List.getElem?_map, List.getElem?_range' hj]
      simp only [Option.map_some, Option.getD_some, one_mul, Nat.add_comm 1 j]

theorem createGpp_sums (E : BnPairing) {t n : ℕ} (hn : 4 * n + 8 < 2 ^ 32) {cs : List (List Fr)} {pl : List (List Word)}
    (hl : pl.length ≤ n) (h : List.Forall₂ (DealtWords t n) cs pl) (hr : ∀ w ∈ pl, Spec.Reduced n w) (gpk : SolG2)
    (out : SolG2 × List SolG1) : Gpp.createGpp E n gpk pl = some out ↔
      gpk = encodeG2 (smul2 (cs.map fun c => Spec.poly c 0).sum g2) ∧ out = (gpk, (List.range n).map
        (fun j => encodeG1 ((cs.map fun c => Spec.poly c ((j + 1 : ℕ) : Fr)).sum • g1))) := by
  obtain ⟨ds, h1, h3, h4, h5⟩ := dealings_sums h hr
  subst h1
  rw [createGpp_eq E n ds (by simpa using hl) h3 hn _ h4]
  have : (List.range n).map (fun j => encodeG1 (ds.map (fun d => d.1.2.getD j 0)).sum) =
      (List.range n).map (fun j => encodeG1 ((cs.map fun c => Spec.poly c ((j + 1 : ℕ) : Fr)).sum • g1)) := by
    apply List.map_congr_left
    intro j hj
    rw [h5 j (List.mem_range.1 hj)]
  rw [this]

end Verif
