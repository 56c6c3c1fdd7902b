import Verif.Lemmas.OverlapSend
namespace Verif.Overlap
open Verif.Services
open Verif.ZkdvrfPre
open Verif.Props

/-! What becomes of the transactions of services whose passes overlap. -/

section
variable {M : Machine} {o : Address} {ws : List Address} {t n : ℕ} {p : State} {ad : Files}
  {nd : Address → Files}

theorem land_register (h : Core M o ws t n p ad nd) {a : Address} (ha : a ∈ ws) {k : ℕ} {pk : GrumpkinSol.Point}
    (hs : SentOk M t n p (nd a) a k (.registerNode pk)) :
    ∃ p', exec M.env p ⟨a, 0⟩ (.registerNode pk) = some p' ∧ Core M o ws t n p' ad nd := by
  obtain ⟨hst, sk, hsk, hpk, hmem⟩ := hs
  have hpk' := hpk
  subst hpk
  have hp := h.unreg ha hst
  obtain ⟨hx, o1, o2, hz⟩ := sim h.reach h.ht
  obtain ⟨hself, ha0⟩ := h.self ha
  have hreg := Zkdvrf.regInv hz
  obtain ⟨r1, r2, _⟩ := C54_register M.env hz (toZk_unreg.2 (Or.inl hp)) ⟨a, 0⟩
    ((h.added a).2 ha) (by unfold Zkdvrf.Registered; change ¬ (p.addrToNode a).status = true; rw [hst]; exact Bool.noConfusion)
    (by change p.minNodeDeposit ≤ 0; rw [h.dep]) sk
  obtain ⟨s', he⟩ := r2.2 hsk
  obtain ⟨p', o1', o2', he, -⟩ := sim_back hz hx ha0
    (by have := h.t_pos; have := h.t_le; have := h.cnt; omega) (Or.inl rfl) he
  refine ⟨p', he, ?_⟩
  have hr' := reach_next h.reach ha0 he
  obtain ⟨_, _, _, _, _, _, _, hp'⟩ := registerNode_some.1 he
  obtain ⟨e1, e2, e3, e4⟩ := early h.reach h.ht (by rw [hp]; exact Phase.noConfusion)
  have hlen : p.pkList.length = p.registeredCount := hreg.pkLen
  have hidx : p.pkListIndex = p.registeredCount := hreg.pkIdx
  subst hp'
  refine ⟨h.t_pos, h.t_le, h.o_ne, h.nodup, h.len, hr', h.owner, h.thr, h.cnt, h.dep, ?_, ?_, h.red, ?_, ?_, ?_⟩
  · intro b
    rw [← h.added b]
    unfold Added
    dsimp only
    by_cases hb : b = a
    · subst hb; rw [Function.update_self]
    · rw [Function.update_of_ne hb]
  · intro b hb
    unfold Registered at hb
    dsimp only [indexOf] at hb ⊢
    by_cases hba : b = a
    · subst hba
      refine ⟨sk, hsk, hmem, ?_⟩
      rw [Function.update_self, hidx, ← hlen, List.getElem?_concat_length]
    · rw [Function.update_of_ne hba] at hb ⊢
      obtain ⟨sk, k1, k2, k3⟩ := h.keys b hb
      refine ⟨sk, k1, k2, ?_⟩
      have hlt : (p.addrToNode b).pkIndex < p.pkList.length := by
        rw [hlen]; exact (hreg.reg_idx b hb).1
      rw [List.getElem?_append_left hlt]
      exact k3
  · intro hc
    exfalso
    dsimp only at hc
    split at hc
    · cases hc
    · rw [hp] at hc; cases hc
  · intro b hb
    exact absurd (e1 b) hb
  · intro k i hi
    exact absurd hi (e2 k i)

theorem land_deal (h : Core M o ws t n p ad nd) {a : Address} (ha : a ∈ ws) {k : ℕ} {pp : List Word}
    {pr : List Byte} (hs : SentOk M t n p (nd a) a k (.submitPublicParams pp pr)) :
    ∃ p', exec M.env p ⟨a, 0⟩ (.submitPublicParams pp pr) = some p' ∧ Core M o ws t n p' ad nd := by
  obtain ⟨hk, hst, hred, hchk, hver⟩ := hs
  have hp := h.dealing ha hk hst
  obtain ⟨hx, o1, o2, hz⟩ := sim h.reach h.ht
  obtain ⟨hself, ha0⟩ := h.self ha
  have hlt : p.ppSubmissionCount < p.memberCount ∨ p.memberCount = 0 :=
    (Zkdvrf.dkgInv hz).nidkg (toZk_nidkg.2 hp)
  have hb : 7 * p.memberCount + 14 < 2 ^ 32 := (Zkdvrf.regInv hz).bound
  have hpos : p.memberCount ≠ 0 := by have := h.t_pos; have := h.t_le; have := h.cnt; omega
  have he : exec M.env p ⟨a, 0⟩ (.submitPublicParams pp pr) = some _ :=
    submitPublicParams_some.2 ⟨rfl, hself.symm, hp, hst, hchk, hver, by omega, rfl⟩
  refine ⟨_, he, ?_⟩
  have hr' := reach_next h.reach ha0 he
  obtain ⟨e1, e2, e3, e4⟩ := early h.reach h.ht (by rw [hp]; exact Phase.noConfusion)
  refine ⟨h.t_pos, h.t_le, h.o_ne, h.nodup, h.len, hr', h.owner, h.thr, h.cnt, h.dep, ?_, ?_, ?_, ?_, ?_, ?_⟩
  · intro b
    rw [← h.added b]
    unfold Added
    dsimp only
    by_cases hb : b = a
    · subst hb; rw [Function.update_self]
    · rw [Function.update_of_ne hb]
  · intro b hb
    unfold Registered at hb
    dsimp only [indexOf] at hb ⊢
    by_cases hba : b = a
    · subst hba
      rw [Function.update_self] at hb ⊢
      exact h.keys b hb
    · rw [Function.update_of_ne hba] at hb ⊢
      exact h.keys b hb
  · intro v hv
    rcases List.mem_append.1 hv with hv | hv
    · exact h.red v hv
    · rw [List.mem_singleton.1 hv]; exact hred
  · intro hc
    exfalso
    dsimp only at hc
    split at hc
    · cases hc
    · rw [hp] at hc; cases hc
  · intro b hb
    exact absurd (e1 b) hb
  · intro k i hi
    exact absurd hi (e2 k i)

/-- An evaluation for the open round is accepted. -/
theorem eval_accepted (h : Core M o ws t n p ad nd) {a : Address} (ha : a ∈ ws) {e : SolEval}
    (hs : SentOk M t n p (nd a) a p.currentRoundNum (.submitPartialEval e))
    (hopen : ¬ Completed p p.currentRoundNum) :
    ∃ p', exec M.env p ⟨a, 0⟩ (.submitPartialEval e) = some p' := by
  obtain ⟨h1, h2, h3, h4, h5, h6, vk, h7, h8⟩ := hs
  have hp := h.ready h3
  obtain ⟨hx, o1, o2, hz⟩ := sim h.reach h.ht
  obtain ⟨hself, ha0⟩ := h.self ha
  have hra := h.registered ha (by rw [hp]; exact Phase.noConfusion)
  have hreg := Zkdvrf.regInv hz
  have hb : 7 * p.memberCount + 14 < 2 ^ 32 := hreg.bound
  have hi : indexOf p a < p.registeredCount := (hreg.reg_idx a hra).1
  have hc1 : p.registeredCount ≤ p.currentIndex := hreg.reg_card
  have hc2 : p.currentIndex ≤ p.memberCount := hreg.idx_le
  have hcount : p.roundSubmissionCount p.currentRoundNum ≤ p.memberCount := by
    refine ((Zkdvrf.evalInv hz).count _).le.trans ((Finset.card_filter_le _ _).trans ?_)
    rw [Finset.card_range]
    exact le_rfl
  rw [eval_eq (hx.hash _ h1 h2)] at h8
  exact ⟨_, submitPartialEval_some.2 ⟨rfl, hself.symm, not_not.1 hopen, h3,
    by change indexOf p a + 1 < _; omega, h5, ⟨vk, h7, h8⟩, by omega, rfl⟩⟩

/-- An evaluation that was right when it was made can be accepted. -/
theorem land_eval_any (h : Core M o ws t n p ad nd) {a : Address} (ha : a ∈ ws) {k : ℕ} {e : SolEval} {p' : State}
    (h4 : HasShare t n p (nd a) a) (h6 : RightEval M p k (indexOf p a) e)
    (he : exec M.env p ⟨a, 0⟩ (.submitPartialEval e) = some p')
    (hl : NoLuck M p a k (.submitPartialEval e)) : Core M o ws t n p' ad nd := by
  obtain ⟨hself, ha0⟩ := h.self ha
  have hright : RightEval M p p.currentRoundNum (indexOf p a) e := by
    by_cases hk : k = p.currentRoundNum
    · rw [← hk]; exact h6
    · exact ⟨h6.1, hl e rfl hk ⟨p', he⟩⟩
  have hr' := reach_next h.reach ha0 he
  obtain ⟨_, _, _, _, _, z6, _, _, hp'⟩ := submitPartialEval_some.1 he
  subst hp'
  refine ⟨h.t_pos, h.t_le, h.o_ne, h.nodup, h.len, hr', h.owner, h.thr, h.cnt, h.dep, h.added, h.keys, h.red,
    h.adm, ?_, ?_⟩
  · intro b hb
    by_cases hba : b = a
    · subst hba
      exact h4
    · dsimp only at hb
      rw [Function.update_of_ne hba] at hb
      exact h.shr b hb
  · intro k j hj
    by_cases hkj : k = p.currentRoundNum ∧ j = indexOf p a
    · obtain ⟨rfl, rfl⟩ := hkj
      dsimp only [indexOf]
      rw [Function.update_self, Function.update_self]
      exact hright
    · have hsame : Function.update p.roundToEval p.currentRoundNum
          (Function.update (p.roundToEval p.currentRoundNum) (p.addrToNode a).pkIndex e) k j =
          p.roundToEval k j := by
        by_cases hk : k = p.currentRoundNum
        · subst hk
          rw [Function.update_self, Function.update_of_ne]
          intro hj'
          exact hkj ⟨rfl, hj'⟩
        · rw [Function.update_of_ne hk]
      unfold Submitted at hj
      dsimp only at hj ⊢
      rw [hsame] at hj ⊢
      exact h.evs k j hj

theorem land_eval (h : Core M o ws t n p ad nd) {a : Address} (ha : a ∈ ws) {k : ℕ} {e : SolEval} {p' : State}
    (hs : SentOk M t n p (nd a) a k (.submitPartialEval e))
    (he : exec M.env p ⟨a, 0⟩ (.submitPartialEval e) = some p')
    (hl : NoLuck M p a k (.submitPartialEval e)) : Core M o ws t n p' ad nd :=
  land_eval_any h ha hs.2.2.2.1 hs.2.2.2.2.2.1 he hl

/-- What the client derives from the dealings on chain, in the files of the admin. -/
def AdminFiles (t n : ℕ) (p : State) (ad : Files) : Prop :=
  ∃ gf vf, Client.derive ⟨t, n⟩ (Client.instancesFile p.ppList) none = .ok ⟨gf, vf, none⟩ ∧
    ad.gpk = some gf ∧ ad.vks = some vf

/-- A transaction of the admin can be accepted. -/
theorem land_admin_any (h : Core M o ws t n p ad nd) {c : Zkdvrf.Call} (hc : AdminCall c)
    (hf : ∀ gpk, c = .computeVk gpk → AdminFiles t n p ad) {p' : State}
    (he : exec M.env p ⟨o, 0⟩ c = some p') : Core M o ws t n p' ad nd := by
  obtain ⟨hx, o1, o2, hz⟩ := sim h.reach h.ht
  have hr' := reach_next h.reach h.o_ne he
  cases c with
  | startNidkg =>
    obtain ⟨_, _, h1, hp'⟩ := startNidkg_some.1 he
    subst hp'
    refine ⟨h.t_pos, h.t_le, h.o_ne, h.nodup, h.len, hr', h.owner, h.thr, h.cnt, h.dep, h.added, h.keys, h.red,
      ?_, h.shr, h.evs⟩
    intro hc; cases hc
  | computeVk gpk =>
    obtain ⟨_, hp, out', _, hp'⟩ := computeVk_some.1 he
    obtain ⟨e1, e2, e3, e4⟩ := early h.reach h.ht (by rw [hp]; exact Phase.noConfusion)
    have hf := hf gpk rfl
    subst hp'
    refine ⟨h.t_pos, h.t_le, h.o_ne, h.nodup, h.len, hr', h.owner, h.thr, h.cnt, h.dep, h.added, h.keys, h.red,
      fun _ => hf, ?_, ?_⟩
    · intro b hb
      exact absurd (e1 b) hb
    · intro k i hi
      exact absurd hi (e2 k i)
  | initiateRandom =>
    obtain ⟨_, _, _, _, _, _, _, hp'⟩ := initiateRandom_some.1 he
    have hev := Zkdvrf.evalInv hz
    have hno : ∀ i, ¬ Submitted p (p.currentRoundNum + 1) i := by
      intro i hi
      have := (hev.stored _ i hi).1.2
      change p.currentRoundNum + 1 ≤ p.currentRoundNum at this
      omega
    subst hp'
    refine ⟨h.t_pos, h.t_le, h.o_ne, h.nodup, h.len, hr', h.owner, h.thr, h.cnt, h.dep, h.added, h.keys, h.red,
      h.adm, h.shr, ?_⟩
    intro k i hi
    have hne : k ≠ p.currentRoundNum + 1 := by
      rintro rfl
      exact hno i hi
    unfold RightEval
    dsimp only
    rw [Function.update_of_ne hne]
    exact h.evs k i hi
  | submitRandom rnd =>
    obtain ⟨_, _, _, _, _, _, hp'⟩ := submitRandom_some.1 he
    subst hp'
    exact ⟨h.t_pos, h.t_le, h.o_ne, h.nodup, h.len, hr', h.owner, h.thr, h.cnt, h.dep, h.added, h.keys, h.red,
      h.adm, h.shr, h.evs⟩
  | _ => exact hc.elim

/-- The transactions of the admin are accepted (an opening, while the round number has not reached its bound). -/
theorem land_admin (h : Core M o ws t n p ad nd) {c : Zkdvrf.Call} (hs : AdminSent M t n p ad c) :
    AdminCall c ∧ ((p.currentRoundNum + 1 < 2 ^ 256 ∨ c ≠ .initiateRandom) →
      ∃ p', exec M.env p ⟨o, 0⟩ c = some p') ∧
    ∀ p', exec M.env p ⟨o, 0⟩ c = some p' → Core M o ws t n p' ad nd := by
  obtain ⟨hx, o1, o2, hz⟩ := sim h.reach h.ht
  cases c with
  | startNidkg =>
    exact ⟨trivial, fun _ => ⟨_, startNidkg_some.2 ⟨rfl, h.owner.symm, hs, rfl⟩⟩,
      fun p' he => land_admin_any (c := .startNidkg) h trivial (fun _ hh => by cases hh) he⟩
  | computeVk gpk =>
    obtain ⟨hp, ⟨out, ho⟩, hf⟩ := hs
    exact ⟨trivial, fun _ => ⟨_, computeVk_some.2 ⟨rfl, hp, out, ho, rfl⟩⟩,
      fun p' he => land_admin_any (c := (.computeVk gpk)) h trivial (fun _ _ => hf) he⟩
  | initiateRandom =>
    obtain ⟨hp, hd⟩ := hs
    refine ⟨trivial, fun hb => ?_, fun p' he => land_admin_any (c := .initiateRandom) h trivial (fun _ hh => by cases hh) he⟩
    obtain ⟨s', hs', _⟩ := C41_round_opens M.env (s := p.toZk o1 o2) (toZk_ready.2 hp)
      (hb.resolve_right (fun hh => hh rfl)) hd
    have hs'' : Zkdvrf.exec M.env (p.toZk o1 o2) ⟨o, 0⟩ .initiateRandom = some s' := by
      rw [← h.owner]; exact hs'
    obtain ⟨p', o1', o2', he, -⟩ := sim_back hz hx h.o_ne
      (by have := h.t_pos; have := h.t_le; have := h.cnt; omega) (Or.inl rfl) hs''
    exact ⟨p', he⟩
  | submitRandom rnd =>
    obtain ⟨hp, h1, h2, h3, h4⟩ := hs
    exact ⟨trivial, fun _ => ⟨_, submitRandom_some.2 ⟨rfl, h.owner.symm, h1, h2, h3, h4, rfl⟩⟩,
      fun p' he => land_admin_any (c := (.submitRandom rnd)) h trivial (fun _ hh => by cases hh) he⟩
  | _ => exact hs.elim

end

section
variable {M : Machine} {o : Address} {ws : List Address} {t n : ℕ} {aux1 : G1} {aux2 : G2} {w : Overlap}

theorem Core.run (hM : Faithful M t n aux1 aux2) {p : State} {ad : Files} {nd : Address → Files}
    (h : Core M o ws t n p ad nd) {a : Address} (ha : a ∈ ws) {j : Job}
    (hj : NodeOk M t n p (nd a) a (.decided j)) (d : Draw) (hd : GoodDraw t n aux1 aux2 d) :
    ∃ f c, nodeRun M p a (nd a) d j = .send f c ∧ SentOk M t n p f a p.currentRoundNum c ∧
      Core M o ws t n p ad (Function.update nd a f) := by
  cases j with
  | register => exact run_register h ha hj d hd.sk _
  | deal => exact run_deal hM h ha hj.1 hj.2 d hd _
  | eval b => exact run_eval hM.sound h ha hj.1 hj.2 d

theorem OInv.look (h : OInv M o ws t n w) {a : Address} (_ha : a ∈ ws) : OInv M o ws t n (w.look a) := by
  unfold Overlap.look
  split
  · rename_i hf
    split
    · exact h
    · rename_i j hj
      refine ⟨h.core, ?_, h.admin⟩
      intro b hb
      dsimp only
      by_cases hba : b = a
      · subst hba
        rw [Function.update_self]
        unfold nodeLook at hj
        dsimp only at hj
        split at hj
        · cases hp : w.p.contractPhase with
          | Unregistered =>
            rw [hp] at hj
            dsimp only at hj
            split at hj
            · rename_i hs
              cases Option.some.inj hj
              rw [Bool.not_eq_true'] at hs
              exact hs
            · cases hj
          | Registered => rw [hp] at hj; cases hj
          | Nidkg =>
            rw [hp] at hj
            dsimp only at hj
            split at hj
            · rename_i hs
              cases Option.some.inj hj
              rw [Bool.not_eq_true'] at hs
              exact ⟨by rw [hp]; decide, hs⟩
            · cases hj
          | NidkgComplete => rw [hp] at hj; cases hj
          | Ready =>
            rw [hp] at hj
            dsimp only at hj
            split at hj
            · rename_i hs
              cases Option.some.inj hj
              rw [Bool.and_eq_true] at hs
              obtain ⟨_, o1, o2, hz⟩ := sim h.core.reach h.core.ht
              have h1 : w.p.lastSubmittedRound b ≤ w.p.currentRoundNum := (Zkdvrf.evalInv hz).last_le b
              have h2 := jsGreater_ne hs.1
              refine ⟨by omega, ?_⟩
              rw [decide_eq_true_eq]
            · cases hj
        · cases hj
      · rw [Function.update_of_ne hba]
        exact h.nodes b hb
  · exact h

theorem OInv.fetch (hM : Faithful M t n aux1 aux2) (h : OInv M o ws t n w) {a : Address} (ha : a ∈ ws)
    (d : Draw) (hd : GoodDraw t n aux1 aux2 d) : OInv M o ws t n (w.fetch M a d) := by
  unfold Overlap.fetch
  split
  · rename_i j hj
    have hn := h.nodes a ha
    rw [hj] at hn
    obtain ⟨f, c, h1, h2, h3⟩ := h.core.run hM ha hn d hd
    rw [h1]
    refine ⟨h3, ?_, h.admin⟩
    intro b hb
    dsimp only
    by_cases hba : b = a
    · subst hba
      rw [Function.update_self, Function.update_self]
      exact h2
    · rw [Function.update_of_ne hba, Function.update_of_ne hba]
      exact h.nodes b hb
  · exact h

/-- The transaction of a node on its way is accepted, or is an evaluation for a complete round. -/
theorem OInv.outcome (h : OInv M o ws t n w) {a : Address} (ha : a ∈ ws) {c : Zkdvrf.Call} {k : ℕ}
    (hs : w.nodeAt a = .sent c k) : NodeCall c ∧ ((∃ p', exec M.env w.p ⟨a, 0⟩ c = some p') ∨
      (∃ e, c = .submitPartialEval e) ∧ Completed w.p k ∧ w.p.lastSubmittedRound a < k) := by
  have hn := h.nodes a ha
  rw [hs] at hn
  cases c with
  | registerNode pk => exact ⟨trivial, Or.inl ((land_register (k := k) h.core ha hn).imp fun _ hh => hh.1)⟩
  | submitPublicParams pp pr => exact ⟨trivial, Or.inl ((land_deal (k := k) h.core ha hn).imp fun _ hh => hh.1)⟩
  | submitPartialEval e =>
    refine ⟨trivial, ?_⟩
    by_cases hc : Completed w.p k
    · exact Or.inr ⟨⟨e, rfl⟩, hc, hn.2.2.1⟩
    · left
      have hk : k = w.p.currentRoundNum := by
        by_contra hne
        exact hc ((C34_pre_rounds M.env h.core.reach h.core.ht).1 k hn.1
          (lt_of_le_of_ne hn.2.1 hne))
      subst hk
      exact eval_accepted h.core ha hn hc
  | _ => exact hn.elim

theorem OInv.land (h : OInv M o ws t n w) {a : Address} (ha : a ∈ ws)
    (hl : ∀ c k, w.nodeAt a = .sent c k → NoLuck M w.p a k c) : OInv M o ws t n (w.land M a) := by
  unfold Overlap.land
  split
  · rename_i c k hs
    have hn := h.nodes a ha
    obtain ⟨hc, hout⟩ := h.outcome ha hs
    have hl := hl c k hs
    rw [hs] at hn
    split
    · rename_i hnone
      refine ⟨h.core, ?_, h.admin⟩
      intro b hb
      dsimp only
      by_cases hba : b = a
      · subst hba
        rw [Function.update_self]
        rcases hout with ⟨p', he⟩ | ⟨_, h1, h2⟩
        · rw [hnone] at he; cases he
        · exact ⟨k, h1, h2⟩
      · rw [Function.update_of_ne hba]
        exact h.nodes b hb
    · rename_i p' he
      have hcore : Core M o ws t n p' w.admin w.node := by
        cases c with
        | registerNode pk =>
          obtain ⟨p2, h1, h2⟩ := land_register (k := k) h.core ha hn
          cases Option.some.inj (he.symm.trans h1)
          exact h2
        | submitPublicParams pp pr =>
          obtain ⟨p2, h1, h2⟩ := land_deal (k := k) h.core ha hn
          cases Option.some.inj (he.symm.trans h1)
          exact h2
        | submitPartialEval e => exact land_eval h.core ha hn he hl
        | _ => exact hc.elim
      refine ⟨hcore, ?_, h.admin.frame hc he⟩
      intro b hb
      dsimp only
      by_cases hba : b = a
      · subst hba
        rw [Function.update_self]
        trivial
      · rw [Function.update_of_ne hba]
        exact (h.nodes b hb).frame (frame_node hc hba he) (fun k hk => h.core.ready hk)
  · exact h

theorem OInv.decide (h : OInv M o ws t n w) {j : Option AdminJob}
    (hj : ∀ i, j = some i → AdminOk M t n w.p w.admin (.decided i)) : OInv M o ws t n (w.adminDecide j) := by
  unfold Overlap.adminDecide
  split
  · rename_i i _
    exact ⟨h.core, h.nodes, hj i rfl⟩
  · exact h

theorem adminLook_ok {p : State} {f : Files} {begun : Bool} {i : AdminJob} (h : adminLook p begun = some i) :
    AdminOk M t n p f (.decided i) := by
  unfold adminLook at h
  cases hp : p.contractPhase with
  | Unregistered => rw [hp] at h; cases h
  | Registered => rw [hp] at h; cases Option.some.inj h; exact hp
  | Nidkg => rw [hp] at h; cases h
  | NidkgComplete => rw [hp] at h; cases Option.some.inj h; exact hp
  | Ready =>
    rw [hp] at h
    dsimp only at h
    split at h
    · cases h
    · split at h
      · rename_i h0
        cases Option.some.inj h
        exact ⟨hp, Or.inl h0⟩
      · rename_i h0
        split at h
        · rename_i h1
          cases Option.some.inj h
          exact ⟨hp, rfl, h0, h1.1, h1.2⟩
        · cases h

theorem tickLook_ok {p : State} {f : Files} {begun elapsed : Bool} {i : AdminJob}
    (he : elapsed = true → Completed p p.currentRoundNum)
    (h : adminTickLook p begun elapsed = some i) : AdminOk M t n p f (.decided i) := by
  unfold adminTickLook at h
  cases hp : p.contractPhase with
  | Ready =>
    rw [hp] at h
    dsimp only at h
    split at h
    · rename_i hc
      rw [Bool.and_eq_true] at hc
      cases Option.some.inj h
      exact ⟨hp, Or.inr (he hc.2)⟩
    · cases h
  | _ => rw [hp] at h; cases h

theorem Core.adminRun (hM : Faithful M t n aux1 aux2) {p : State} {ad : Files} {nd : Address → Files}
    (h : Core M o ws t n p ad nd) {j : AdminJob} (hj : AdminOk M t n p ad (.decided j)) :
    ∃ f c, adminRun M p ad j = .send f c ∧ AdminSent M t n p f c ∧ Core M o ws t n p f nd := by
  cases j with
  | start => exact ⟨ad, .startNidkg, rfl, hj, h⟩
  | gpp => exact run_gpp hM.sound h hj
  | «open» => exact ⟨ad, .initiateRandom, rfl, hj, h⟩
  | random k =>
    obtain ⟨h1, rfl, h3, h4, h5⟩ := hj
    obtain ⟨c, h6, h7⟩ := run_random hM.sound h h1 h3 h4 h5
    exact ⟨ad, c, h6, h7, h⟩

theorem OInv.adminFetch (hM : Faithful M t n aux1 aux2) (h : OInv M o ws t n w) :
    OInv M o ws t n (w.adminFetch M) := by
  unfold Overlap.adminFetch
  split
  · rename_i j hj
    have hn := h.admin
    rw [hj] at hn
    obtain ⟨f, c, h1, h2, h3⟩ := h.core.adminRun hM hn
    rw [h1]
    exact ⟨h3, h.nodes, h2⟩
  · exact h

theorem OInv.adminLand (h : OInv M o ws t n w) : OInv M o ws t n (w.adminLand M o) := by
  unfold Overlap.adminLand
  split
  · rename_i c k hs
    have hn := h.admin
    rw [hs] at hn
    obtain ⟨hc, h1, h2⟩ := land_admin h.core hn
    split
    · rename_i hnone
      refine ⟨h.core, h.nodes, ?_⟩
      by_contra hlt
      change ¬ 2 ^ 256 ≤ w.p.currentRoundNum + 1 at hlt
      obtain ⟨p', he⟩ := h1 (Or.inl (not_le.1 hlt))
      rw [hnone] at he
      cases he
    · rename_i p' he
      refine ⟨h2 p' he, ?_, trivial⟩
      intro b hb
      exact (h.nodes b hb).frame (frame_admin hc he) (fun k hk => h.core.ready hk)
  · exact h

theorem overlap_inv (hM : Faithful M t n aux1 aux2) {w0 : World} (h0 : Fresh M o ws t n w0.p)
    (h : Overlapping M o ws t n aux1 aux2 (.begin w0) w) : OInv M o ws t n w := by
  induction h with
  | refl =>
    have ht' : 1 ≤ w0.p.threshold := by rw [h0.threshold]; exact h0.t_pos
    obtain ⟨e1, e2, e3, e4⟩ := early h0.reachable ht' (by rw [h0.phase]; exact Phase.noConfusion)
    obtain ⟨hx, o1, o2, hz⟩ := sim h0.reachable ht'
    have hpl : w0.p.ppList = [] := (Zkdvrf.dkgInv hz).unreg (toZk_unreg.2 (Or.inl h0.phase))
    refine ⟨⟨h0.t_pos, h0.t_le, h0.owner_ne, h0.nodup, h0.length, h0.reachable, h0.owner, h0.threshold,
      h0.members, h0.deposit, h0.added, ?_, ?_, ?_, ?_, ?_⟩, fun _ _ => trivial, trivial⟩
    · intro a ha
      have := (C31_pre_registration M.env h0.reachable ht').2.1 a ha
      rw [h0.keys] at this
      exact absurd this (Nat.not_lt_zero _)
    · intro v hv
      change v ∈ w0.p.ppList at hv
      rw [hpl] at hv; cases hv
    · intro hc
      change w0.p.contractPhase = _ at hc
      rw [h0.phase] at hc; cases hc
    · intro a ha; exact absurd (e1 a) ha
    · intro k i hi; exact absurd hi (e2 k i)
  | look a ha _ ih => exact ih.look ha
  | fetch a d ha hd _ ih => exact ih.fetch hM ha d hd
  | land a ha hl _ ih => exact ih.land ha hl
  | adminLook b _ ih => exact ih.decide (fun i hi => adminLook_ok hi)
  | adminTick b e he _ ih => exact ih.decide (fun i hi => tickLook_ok he hi)
  | adminFetch _ ih => exact ih.adminFetch hM
  | adminLand _ ih => exact ih.adminLand

end

end Verif.Overlap
