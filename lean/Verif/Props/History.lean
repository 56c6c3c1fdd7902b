import Verif.Lemmas.History
import Verif.Props.Layout
import Verif.Props.ContractPre

/-!
C33, C81: the keys as sums of dealings, and histories with provers that know polynomials.
-/

namespace Verif.Props
open Verif Verif.Spec Verif.Layout Verif.DkgCircuit Polynomial

theorem exists_forall₂ {α β : Type} {R : α → β → Prop} : ∀ {l : List β}, (∀ b ∈ l, ∃ a, R a b) → ∃ l', List.Forall₂ R l' l
  | [], _ => ⟨[], .nil⟩
  | b :: l, h => by
    obtain ⟨a, ha⟩ := h b List.mem_cons_self
    obtain ⟨l', h'⟩ := exists_forall₂ fun b hb => h b (List.mem_cons_of_mem _ hb)
    exact ⟨a :: l', .cons ha h'⟩

/-- C33. If the proof system is sound, the keys are the sums of the dealings that the members submitted. -/
theorem C33_keys_are_sums (env : Env) {s : Zkdvrf.State} (hr : Zkdvrf.Reachable env s) (hp : s.contractPhase = .Ready)
    (ht : 0 < s.threshold) (hs : SnarkSound env s.threshold s.memberCount) :
    KeysFrom s.threshold s.memberCount s.pkList s.ppList s.vkList s.gpkVal := by
  have hdkg := Zkdvrf.dkgInv hr
  have hreg := Zkdvrf.regInv hr
  have hb := hreg.bound
  have hst := hreg.started (by rw [hp]; exact Zkdvrf.Phase.noConfusion)
  obtain ⟨auxG1, auxG2, hs⟩ := hs
  obtain ⟨ds, hds⟩ : ∃ ds : List (List Fr × ℕ), List.Forall₂ (fun d w => d.1.length = s.threshold ∧ d.2 < 2 ^ 254 ∧ ¬ q ∣ d.2 ∧
      ∃ (pks : List Gk) (ins : List Fr), s.pkList = pks.map Zkdvrf.keyWords ∧ (∀ pk ∈ pks, pk ≠ 0) ∧
        DealingCells s.memberCount d.1 d.2 pks ins ∧ w = wordsOf ins) ds s.ppList := by
    refine exists_forall₂ fun w hw => ?_
    obtain ⟨proof, h1, h2, h3⟩ := hdkg.ppOk w hw
    obtain ⟨ins, rfl, h4⟩ := hs proof w h1 h2
    obtain ⟨-, -, -, coeffs, R, pks, a1, a2, a3, a4, a5, -, -, -, a6⟩ :=
      (C28_circuit_exact _ _ ht (by omega) auxG1 auxG2 _).1 h4
    refine ⟨(coeffs, R), a1, a4, a5, pks, ins, ?_, a3, a6, rfl⟩
    rw [dealing_keys a6 a2 (by rwa [wordsOf, List.length_map] at h2)] at h3
    refine (Zkdvrf.key_list_inj _ _ ?_ h3).symm
    have := hreg.pkLen
    rw [List.length_map, a2, this, hst]
  have hd : List.Forall₂ (DealtWords s.threshold s.memberCount) (ds.map Prod.fst) s.ppList := by
    rw [List.forall₂_map_left_iff]
    refine hds.imp fun d w h => ?_
    obtain ⟨h1, -, -, pks, ins, h2, h3, h4, h5⟩ := h
    refine ⟨d.2, pks, ins, h1, ?_, h3, h4, h5⟩
    have := hreg.pkLen
    rw [h2, List.length_map] at this
    rw [this, hst]
  have h := (createGpp_sums env.E (by omega) (by rw [hdkg.ppLen, hdkg.late (Or.inr hp)]) hd
    (createGpp_reduced (hdkg.ready hp)) _ _).1 (hdkg.ready hp)
  rw [List.map_map] at h
  refine ⟨ds, hds, h.1, ?_⟩
  have h2 := congrArg Prod.snd h.2
  simp only [List.map_map] at h2
  exact h2

/-- C33. The same for zkdvrf_pre. -/
theorem C33_pre_keys_are_sums (env : Env) {p : ZkdvrfPre.State} (hr : ZkdvrfPre.Reachable env p) (ht : 1 ≤ p.threshold)
    (hp : p.contractPhase = .Ready) (hs : SnarkSound env p.threshold p.memberCount) :
    KeysFrom p.threshold p.memberCount p.pkList p.ppList p.vkList p.gpkVal := by
  obtain ⟨hx, o1, o2, hz⟩ := ZkdvrfPre.sim hr ht
  exact C33_keys_are_sums env hz (ZkdvrfPre.toZk_ready.2 hp) ht hs

/-- The hypotheses are met by the ready deployment. -/
example : ∃ s, Zkdvrf.Reachable (toyEnv 1 2) s ∧ s.contractPhase = .Ready ∧ 0 < s.threshold ∧ s.ppList.length = 2 ∧
    SnarkSound (toyEnv 1 2) s.threshold s.memberCount := by
  obtain ⟨s, h1, h2, h3, h4, _⟩ := toy_ready
  exact ⟨s, h1, h2, by rw [h4]; exact one_pos, ((C32_parameters _ h1 (Or.inr h2)).1).trans h3, by rw [h3, h4]; exact toy_sound 1 2⟩

/-- C81. A history in which the words of every successful submission satisfy the circuit is also a history of the contract with
a sound proof system, the same pairing and the same hash function: what holds with soundness holds after it. -/
theorem C81_sound_history (env : Env) (t n : ℕ) (auxG1 : G1) (auxG2 : G2) {s : Zkdvrf.State}
    (h : Zkdvrf.GuardedHistory env (fun _ pp => ∃ ins, pp = wordsOf ins ∧ synthesize ⟨t, n⟩ auxG1 auxG2 ins) s) :
    Zkdvrf.Reachable env s ∧ ∃ env' : Env, env'.E = env.E ∧ env'.keccak = env.keccak ∧ SnarkSound env' t n ∧
      Zkdvrf.Reachable env' s := by
  obtain ⟨h1, h2⟩ := history_reachable h
  refine ⟨h2, onlyIf env fun _ pp => ∃ ins, pp = wordsOf ins ∧ synthesize ⟨t, n⟩ auxG1 auxG2 ins, rfl, rfl, ⟨auxG1, auxG2, fun proof pp hv _ => ?_⟩, h1⟩
  by_contra hg
  have : (onlyIf env fun _ pp => ∃ ins, pp = wordsOf ins ∧ synthesize ⟨t, n⟩ auxG1 auxG2 ins).verifyProof proof pp = none := if_neg hg
  rw [this] at hv
  cases hv

/-- C81. The same for zkdvrf_pre. -/
theorem C81_pre_sound_history (env : Env) (t n : ℕ) (auxG1 : G1) (auxG2 : G2) {p : ZkdvrfPre.State}
    (h : ZkdvrfPre.GuardedHistory env (fun _ pp => ∃ ins, pp = wordsOf ins ∧ synthesize ⟨t, n⟩ auxG1 auxG2 ins) p) :
    ZkdvrfPre.Reachable env p ∧ ∃ env' : Env, env'.E = env.E ∧ env'.keccak = env.keccak ∧ SnarkSound env' t n ∧
      ZkdvrfPre.Reachable env' p := by
  obtain ⟨h1, h2⟩ := history_reachable_pre h
  refine ⟨h2, onlyIf env fun _ pp => ∃ ins, pp = wordsOf ins ∧ synthesize ⟨t, n⟩ auxG1 auxG2 ins, rfl, rfl, ⟨auxG1, auxG2, fun proof pp hv _ => ?_⟩, h1⟩
  by_contra hg
  have : (onlyIf env fun _ pp => ∃ ins, pp = wordsOf ins ∧ synthesize ⟨t, n⟩ auxG1 auxG2 ins).verifyProof proof pp = none := if_neg hg
  rw [this] at hv
  cases hv

theorem history_mono {env : Env} {good good' : List Byte → List Word → Prop} (hg : ∀ pr pp, env.verifyProof pr pp = some true →
    good pr pp → good' pr pp) {s : Zkdvrf.State} (h : Zkdvrf.GuardedHistory env good s) : Zkdvrf.GuardedHistory env good' s := by
  induction h with
  | deploy hm h => exact .deploy hm h
  | step tx hv h hok ih =>
    refine .step tx hv ih fun m pp pr s' e h' => hg pr pp ?_ (hok m pp pr s' e h')
    exact (Zkdvrf.submitPublicParams_some.1 h').2.2.2.2.2.1

theorem history_mono_pre {env : Env} {good good' : List Byte → List Word → Prop} (hg : ∀ pr pp, env.verifyProof pr pp = some true →
    good pr pp → good' pr pp) {s : ZkdvrfPre.State} (h : ZkdvrfPre.GuardedHistory env good s) : ZkdvrfPre.GuardedHistory env good' s := by
  induction h with
  | deploy h => exact .deploy h
  | step tx hv h hok ih =>
    refine .step tx hv ih fun m pp pr s' e h' => hg pr pp ?_ (hok m pp pr s' e h')
    exact (ZkdvrfPre.submitPublicParams_some.1 h').2.2.2.2.2.1

theorem on_chain_circuit (E : BnPairing) (V : Spec.Halo2.Key) (hV : V.Valid) (s : Fr) (K : Spec.Halo2.KeyPolys)
    (hK : Spec.Halo2.KeyFor V s K) (D : ℕ) (hD : V.n ≤ D + 1) (hKD : K.Bound D) (hi : V.instances ≤ V.n)
    (J : IntegerImpl) (t n : ℕ) (auxG1 : G1) (auxG2 : G2) (S : Shape)
    (hL : layout J ⟨t, n⟩ auxG1 auxG2 = some (S, V.instances)) (start : ℕ → ℕ) (hR : Realizes V K S start)
    (hJ : ∀ advice inst, ∃ good val, J.Correct (tableOf V K start advice inst) good val) :
    ∃ B : List Fr → Spec.Halo2.Exceptions, (∀ inst, (B inst).Small V D) ∧ ∀ (keccak : Keccak) (sel : List Byte) (addr : Word),
      sel.length = 4 → ∀ pr pp, Halo2.verifyProof E keccak V.words sel addr pr pp = some true →
      Spec.Halo2.Clean keccak V s K D B pr pp → ∃ ins, pp = wordsOf ins ∧ synthesize ⟨t, n⟩ auxG1 auxG2 ins := by
  have h := fun inst => C64_on_chain E V hV s K hK D hD hKD inst hi
  choose B hB h using h
  refine ⟨B, hB, ?_⟩
  rintro keccak sel addr hs pr pp hacc ⟨inst, P, e, w, w', rfl, rfl, hP, hw, h1, h2⟩
  refine ⟨inst, rfl, ?_⟩
  rcases h inst keccak sel addr P e w w' hs hP hw hacc with h3 | h3 | h3
  · exact absurd h3 h1
  · have hlen : inst.length = V.instances := by
      have := (C59_accepted_format E keccak V hV sel hs addr _ _ hacc).2.2.1
      rw [wordsOf, List.length_map] at this
      exact this
    obtain ⟨good, val, hc⟩ := hJ P.advice inst
    have hT := C78_satisfied_layout V hV K S start hR P.advice inst h3
    obtain ⟨o, ho, he⟩ := Option.map_eq_some_iff.1 hL
    obtain ⟨rfl, e2⟩ := Prod.mk.inj he
    have h4 := ens_synthesize hc ⟨t, n⟩ auxG1 auxG2 _ o ho hT
    rw [e2, ← hlen, range_inst] at h4
    exact h4
  · exact absurd h3 h2

/-- C81. The randomness contract with the verifier contract and a key that belongs to the layout: for every instance there are few
exceptional challenges, such that after every history whose successful submissions come from provers that know polynomials,
hit no exception and know no nonzero polynomial vanishing at the secret of the setup, the keys of a finished setup
are the sums of dealings to the registered keys. -/
theorem C81_contract_keys (E : BnPairing) (V : Spec.Halo2.Key) (hV : V.Valid)
    (s : Fr) (K : Spec.Halo2.KeyPolys) (hK : Spec.Halo2.KeyFor V s K) (D : ℕ) (hD : V.n ≤ D + 1) (hKD : K.Bound D)
    (hi : V.instances ≤ V.n) (J : IntegerImpl) (t n : ℕ) (ht : 0 < t) (auxG1 : G1) (auxG2 : G2)
    (S : Shape) (hL : layout J ⟨t, n⟩ auxG1 auxG2 = some (S, V.instances)) (start : ℕ → ℕ) (hR : Realizes V K S start)
    (hJ : ∀ advice inst, ∃ good val, J.Correct (tableOf V K start advice inst) good val) :
    ∃ B : List Fr → Spec.Halo2.Exceptions, (∀ inst, (B inst).Small V D) ∧ ∀ (env : Env) (sel : List Byte) (addr : Word), env.E = E →
      sel.length = 4 → env.verifyProof = Halo2.verifyProof E env.keccak V.words sel addr →
      (∀ st, Zkdvrf.GuardedHistory env (Spec.Halo2.Clean env.keccak V s K D B) st → st.threshold = t → st.memberCount = n →
        st.contractPhase = .Ready → KeysFrom t n st.pkList st.ppList st.vkList st.gpkVal) ∧
      ∀ st, ZkdvrfPre.GuardedHistory env (Spec.Halo2.Clean env.keccak V s K D B) st → st.threshold = t → st.memberCount = n →
        st.contractPhase = .Ready → KeysFrom t n st.pkList st.ppList st.vkList st.gpkVal := by
  obtain ⟨B, hB, h⟩ := on_chain_circuit E V hV s K hK D hD hKD hi J t n auxG1 auxG2 S hL start hR hJ
  refine ⟨B, hB, fun env sel addr hE hs henv => ⟨fun st hst e1 e2 hp => ?_, fun st hst e1 e2 hp => ?_⟩⟩
  · obtain ⟨-, env', -, -, h1, h2⟩ := C81_sound_history env t n auxG1 auxG2 (history_mono (fun pr pp hv hc =>
      h env.keccak sel addr hs pr pp (henv ▸ hv) hc) hst)
    subst e1 e2
    exact C33_keys_are_sums env' h2 hp ht h1
  · obtain ⟨-, env', -, -, h1, h2⟩ := C81_pre_sound_history env t n auxG1 auxG2 (history_mono_pre (fun pr pp hv hc =>
      h env.keccak sel addr hs pr pp (henv ▸ hv) hc) hst)
    subst e1 e2
    exact C33_pre_keys_are_sums env' h2 ht hp h1

theorem reachable_history {env : Env} {good : List Byte → List Word → Prop} (hg : ∀ pr pp, env.verifyProof pr pp = some true →
    good pr pp) {s : Zkdvrf.State} (h : Zkdvrf.Reachable env s) : Zkdvrf.GuardedHistory env good s := by
  induction h with
  | deploy hm h => exact .deploy hm h
  | step tx hv h ih =>
    exact .step tx hv ih fun m pp pr s' _ h' => hg pr pp (Zkdvrf.submitPublicParams_some.1 h').2.2.2.2.2.1

open Classical in
/-- The hypotheses of `C81_sound_history` are met, by the ready deployment. -/
example : ∃ s, Zkdvrf.GuardedHistory (toyEnv 1 2) (fun _ pp => ∃ ins, pp = wordsOf ins ∧
    synthesize ⟨1, 2⟩ (5 • g1) FixedPoint.aux2 ins) s ∧ s.contractPhase = .Ready ∧ s.ppList.length = 2 := by
  obtain ⟨s, h1, h2, h3, h4, _⟩ := toy_ready
  refine ⟨s, reachable_history (fun pr pp hv => ?_) h1, h2, ((C32_parameters _ h1 (Or.inr h2)).1).trans h3⟩
  exact of_decide_eq_true (Option.some.inj hv)

end Verif.Props
