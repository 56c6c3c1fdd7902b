import Verif.Lemmas.OverlapKill
import Verif.Lemmas.ServicesProofsSim
import Verif.Spec.OverlapOthers
namespace Verif.Overlap
open Verif.Services
open Verif.ZkdvrfPre
open Verif.Props
open ServicesFiles (Deals pp_of_instance prove_ins deal_values)

/-! Invariants of a node service among others that do anything. -/

/-- The parameters are an honest dealing for the registered keys. -/
def HonestDeal (M : Machine) (t n : ℕ) (aux1 : G1) (aux2 : G2) (p : State) (pp : List Word) : Prop :=
  ∃ d ins, GoodDraw t n aux1 aux2 d ∧ Deals M p d ins ∧ pp = wordsOf ins

/-- What node `a` relies on. -/
structure One (M : Machine) (t n : ℕ) (aux1 : G1) (aux2 : G2) (p : State) (f : Files) (a : Address) : Prop where
  t_pos : 1 ≤ t
  n_pos : 1 ≤ n
  nonzero : a ≠ 0
  reach : Reachable M.env p
  thr : p.threshold = t
  cnt : p.memberCount = n
  keys : Registered p a → ∃ sk : Fq, sk ≠ 0 ∧ f.member = some (Client.keygen sk) ∧
    p.pkList[indexOf p a]? = some (Zkdvrf.keyWords (sk • gk))
  dealt : (p.addrToNode a).statusPP = true → ∃ pp ∈ p.ppList, HonestDeal M t n aux1 aux2 p pp
  shr : p.lastSubmittedRound a ≠ 0 → HasShare t n p f a
  evs : ∀ k, Registered p a → Submitted p k (indexOf p a) →
    RightEval M p k (indexOf p a) (p.roundToEval k (indexOf p a))

/-- The transaction `c` of node `a`, made in round `k`, was in order when it was sent. -/
def SentOne (M : Machine) (t n : ℕ) (aux1 : G1) (aux2 : G2) (p : State) (f : Files) (a : Address) (k : ℕ) :
    Zkdvrf.Call → Prop
  | .submitPublicParams pp pr => 2 ≤ p.contractPhase.rank ∧ HonestDeal M t n aux1 aux2 p pp ∧
      ((p.addrToNode a).statusPP = false → checkPublicParams p pp = some true ∧
        M.env.verifyProof pr pp = some true)
  | c => SentWas M t n p f a k c

/-- Node `a` is where it can be. -/
def NodeOne (M : Machine) (t n : ℕ) (aux1 : G1) (aux2 : G2) (p : State) (f : Files) (a : Address) :
    Stage Job → Prop
  | .decided j => Added p a ∧ NodeWas M t n p f a (.decided j)
  | .sent c k => Added p a ∧ SentOne M t n aux1 aux2 p f a k c
  | _ => True

/-- What a transaction of somebody else leaves as it is, for node `a`. -/
structure Away (a : Address) (p p' : State) : Prop where
  node : Added p a → p'.addrToNode a = p.addrToNode a
  new : ¬ Added p a → (p'.addrToNode a).status = false ∧ (p'.addrToNode a).statusPP = false
  last : p'.lastSubmittedRound a = p.lastSubmittedRound a
  cur : p.currentRoundNum ≤ p'.currentRoundNum
  rank : p.contractPhase.rank ≤ p'.contractPhase.rank
  input : ∀ k ≤ p.currentRoundNum, p'.roundInput k = p.roundInput k
  chk : 2 ≤ p.contractPhase.rank → ∀ pp, checkPublicParams p' pp = checkPublicParams p pp
  pk : 2 ≤ p.contractPhase.rank → p'.pkList = p.pkList
  pre : ∀ (i : ℕ) (k : GrumpkinSol.Point), p.pkList[i]? = some k → p'.pkList[i]? = some k
  pp : p.contractPhase = .Ready → p'.ppList = p.ppList
  mem : ∀ v ∈ p.ppList, v ∈ p'.ppList
  vk : p.contractPhase = .Ready → p'.vkList = p.vkList
  done : ∀ k, Completed p k → Completed p' k
  thr : p'.threshold = p.threshold
  cnt : p'.memberCount = p.memberCount
  eval : ∀ k, Registered p a → p'.roundToEval k (indexOf p a) = p.roundToEval k (indexOf p a)

theorem Away.frame {a : Address} {p p' : State} (h : Away a p p') (ha : Added p a) : Frame a p p' :=
  ⟨h.node ha, h.last, h.cur, h.rank, h.input, h.chk, fun hp => h.pk (by rw [hp]; decide), h.pp, h.vk, h.done⟩

section
variable {M : Machine} {t n : ℕ} {aux1 : G1} {aux2 : G2} {p p' : State} {f : Files} {a : Address}

theorem unadded {env : Env} (hr : Reachable env p) (ht : 1 ≤ p.threshold) (ha : ¬ Added p a) :
    p.addrToNode a = .empty := by
  obtain ⟨_, o1, o2, hz⟩ := sim hr ht
  exact (Zkdvrf.regInv hz).empty a (not_not.1 ha)

theorem away {env : Env} (hr : Reachable env p) (ht : 1 ≤ p.threshold) {m : Msg} {c : Zkdvrf.Call}
    (h0 : m.sender ≠ 0) (hs : a ≠ m.sender) (he : exec env p m c = some p') : Away a p p' := by
  have hnew : ¬ Added p a → (p.addrToNode a).status = false ∧ (p.addrToNode a).statusPP = false := by
    intro ha
    rw [unadded hr ht ha]
    exact ⟨rfl, rfl⟩
  cases c with
  | addPermissionedNodes b =>
    obtain ⟨_, _, _, hb0, hb, _, rfl⟩ := addPermissionedNodes_some.1 he
    refine ⟨fun ha => ?_, fun ha => ?_, rfl, le_rfl, le_rfl, fun _ _ => rfl, fun _ _ => rfl, fun _ => rfl,
      fun _ _ h => h, fun _ => rfl, fun _ h => h, fun _ => rfl, fun _ h => h, rfl, rfl, fun _ _ => rfl⟩
    · refine Function.update_of_ne ?_ _ _
      rintro rfl
      exact ha hb
    · dsimp only
      by_cases hab : a = b
      · subst hab; rw [Function.update_self]; exact ⟨rfl, rfl⟩
      · rw [Function.update_of_ne hab]; exact hnew ha
  | registerNode pk =>
    obtain ⟨h1, _, _, _, _, _, _, rfl⟩ := registerNode_some.1 he
    have hn : Function.update p.addrToNode m.sender
        { p.addrToNode m.sender with deposit := m.value, status := true, pkIndex := p.pkListIndex } a =
        p.addrToNode a := Function.update_of_ne hs _ _
    refine ⟨fun _ => hn, fun ha => ?_, rfl, le_rfl, ?_, fun _ _ => rfl, ?_, ?_, ?_, fun _ => rfl,
      fun _ h => h, fun _ => rfl, fun _ h => h, rfl, rfl, fun _ _ => rfl⟩
    · dsimp only; rw [hn]; exact hnew ha
    · dsimp only; rw [h1]; exact Nat.zero_le _
    · rw [h1]; intro h; exact absurd h (by decide)
    · rw [h1]; intro h; exact absurd h (by decide)
    · intro i k hk
      dsimp only
      rw [List.getElem?_append_left (List.getElem?_eq_some_iff.1 hk).1]
      exact hk
  | submitPublicParams pp pr =>
    obtain ⟨_, _, h1, _, _, _, _, rfl⟩ := submitPublicParams_some.1 he
    have hn : Function.update p.addrToNode m.sender
        { p.addrToNode m.sender with statusPP := true } a = p.addrToNode a := Function.update_of_ne hs _ _
    refine ⟨fun _ => hn, fun ha => ?_, rfl, le_rfl, ?_, fun _ _ => rfl, fun _ _ => rfl, fun _ => rfl,
      fun _ _ h => h, ?_, fun _ h => List.mem_append_left _ h, fun _ => rfl, fun _ h => h, rfl, rfl, fun _ _ => rfl⟩
    · dsimp only; rw [hn]; exact hnew ha
    · dsimp only; rw [h1]; split <;> decide
    · rw [h1]; intro h; cases h
  | submitPartialEval e =>
    obtain ⟨_, hself, _, hlt, _, _, _, _, rfl⟩ := submitPartialEval_some.1 he
    refine ⟨fun _ => rfl, hnew, Function.update_of_ne hs _ _, le_rfl, le_rfl, fun _ _ => rfl, fun _ _ => rfl,
      fun _ => rfl, fun _ _ h => h, fun _ => rfl, fun _ h => h, fun _ => rfl, fun _ h => h, rfl, rfl, ?_⟩
    intro k hra
    dsimp only
    by_cases hk : k = p.currentRoundNum
    · subst hk
      rw [Function.update_self, Function.update_of_ne]
      intro hi
      have hp := (C34_pre_rounds env hr ht).2.2.2 (by omega)
      obtain ⟨_, _, c3, _, _, _, c7⟩ := C31_pre_registration env hr ht
      have hrs : Registered p m.sender := (c7 (by rw [hp]; exact Phase.noConfusion)).2 _
        (fun hz => h0 (hself.trans hz))
      exact hs (c3 a m.sender hra hrs hi)
    · rw [Function.update_of_ne hk]
  | startNidkg =>
    obtain ⟨_, _, h1, rfl⟩ := startNidkg_some.1 he
    refine ⟨fun _ => rfl, hnew, rfl, le_rfl, ?_, fun _ _ => rfl, fun _ _ => rfl, fun _ => rfl,
      fun _ _ h => h, fun _ => rfl, fun _ h => h, fun _ => rfl, fun _ h => h, rfl, rfl, fun _ _ => rfl⟩
    rw [h1]; dsimp only; decide
  | computeVk gpk =>
    obtain ⟨_, h1, out, _, rfl⟩ := computeVk_some.1 he
    refine ⟨fun _ => rfl, hnew, rfl, le_rfl, ?_, fun _ _ => rfl, fun _ _ => rfl, fun _ => rfl,
      fun _ _ h => h, fun _ => rfl, fun _ h => h, ?_, fun _ h => h, rfl, rfl, fun _ _ => rfl⟩
    · rw [h1]; dsimp only; decide
    · rw [h1]; intro h; cases h
  | initiateRandom =>
    obtain ⟨_, _, _, _, _, h, _, rfl⟩ := initiateRandom_some.1 he
    refine ⟨fun _ => rfl, hnew, rfl, Nat.le_succ _, le_rfl, ?_, fun _ _ => rfl, fun _ => rfl,
      fun _ _ h => h, fun _ => rfl, fun _ h => h, fun _ => rfl, fun _ h => h, rfl, rfl, fun _ _ => rfl⟩
    intro k hk
    exact Function.update_of_ne (by omega) _ _
  | submitRandom rnd =>
    obtain ⟨_, _, h0, _, _, _, rfl⟩ := submitRandom_some.1 he
    refine ⟨fun _ => rfl, hnew, rfl, le_rfl, le_rfl, fun _ _ => rfl, fun _ _ => rfl, fun _ => rfl,
      fun _ _ h => h, fun _ => rfl, fun _ h => h, fun _ => rfl, ?_, rfl, rfl, fun _ _ => rfl⟩
    intro k hk
    unfold Completed at *
    dsimp only
    rw [Function.update_of_ne]
    · exact hk
    · rintro rfl
      exact hk h0
  | transferOwnership b =>
    obtain ⟨_, _, _, rfl⟩ := transferOwnership_some.1 he
    exact ⟨fun _ => rfl, hnew, rfl, le_rfl, le_rfl, fun _ _ => rfl, fun _ _ => rfl, fun _ => rfl,
      fun _ _ h => h, fun _ => rfl, fun _ h => h, fun _ => rfl, fun _ h => h, rfl, rfl, fun _ _ => rfl⟩
  | renounceOwnership =>
    obtain ⟨_, _, rfl⟩ := renounceOwnership_some.1 he
    exact ⟨fun _ => rfl, hnew, rfl, le_rfl, le_rfl, fun _ _ => rfl, fun _ _ => rfl, fun _ => rfl,
      fun _ _ h => h, fun _ => rfl, fun _ h => h, fun _ => rfl, fun _ h => h, rfl, rfl, fun _ _ => rfl⟩

theorem One.ht (h : One M t n aux1 aux2 p f a) : 1 ≤ p.threshold := by rw [h.thr]; exact h.t_pos

theorem One.self (h : One M t n aux1 aux2 p f a) (ha : Added p a) : (p.addrToNode a).nodeAddress = a := by
  obtain ⟨_, o1, o2, hz⟩ := sim h.reach h.ht
  exact (Zkdvrf.regInv hz).addr_self a ha

theorem One.added (h : One M t n aux1 aux2 p f a) (hs : (p.addrToNode a).nodeAddress = a) : Added p a :=
  fun h0 => h.nonzero (hs.symm.trans h0)

theorem One.registered (h : One M t n aux1 aux2 p f a) (ha : Added p a)
    (hp : p.contractPhase ≠ .Unregistered) : Registered p a :=
  ((C31_pre_registration M.env h.reach h.ht).2.2.2.2.2.2 hp).2 a ha

theorem One.unreg (h : One M t n aux1 aux2 p f a) (ha : Added p a)
    (hs : (p.addrToNode a).status = false) : p.contractPhase = .Unregistered := by
  by_contra hp
  have := h.registered ha hp
  unfold Registered at this
  rw [hs] at this
  cases this

theorem One.dealing (h : One M t n aux1 aux2 p f a) (ha : Added p a)
    (hk : 2 ≤ p.contractPhase.rank) (hs : (p.addrToNode a).statusPP = false) : p.contractPhase = .Nidkg := by
  have late : p.contractPhase = .NidkgComplete ∨ p.contractPhase = .Ready → False := by
    intro hp
    have h1 := (C32_pre_parameters M.env h.reach h.ht hp).2.1 a
    have h2 := h1.2 (h.registered ha (by rcases hp with hp | hp <;> rw [hp] <;> exact Phase.noConfusion))
    rw [hs] at h2
    cases h2
  cases hp : p.contractPhase with
  | Unregistered => rw [hp] at hk; exact absurd hk (by decide)
  | Registered => rw [hp] at hk; exact absurd hk (by decide)
  | Nidkg => rfl
  | NidkgComplete => exact (late (Or.inl hp)).elim
  | Ready => exact (late (Or.inr hp)).elim

theorem One.ready (h : One M t n aux1 aux2 p f a) {k : ℕ} (hk : k < p.currentRoundNum) :
    p.contractPhase = .Ready :=
  (C34_pre_rounds M.env h.reach h.ht).2.2.2 (by omega)

theorem HonestDeal.frame {pp : List Word} (hw : Away a p p') (hk : 2 ≤ p.contractPhase.rank)
    (h : HonestDeal M t n aux1 aux2 p pp) : HonestDeal M t n aux1 aux2 p' pp := by
  obtain ⟨d, ins, h1, h2, h3⟩ := h
  refine ⟨d, ins, h1, ?_, h3⟩
  unfold Deals at *
  rw [hw.pk hk, hw.thr, hw.cnt]
  exact h2

/-- Nothing has been stored before the dealings begin. -/
theorem rank_of_dealt {env : Env} (hr : Reachable env p) (ht : 1 ≤ p.threshold)
    (hs : (p.addrToNode a).statusPP = true) : 2 ≤ p.contractPhase.rank := by
  obtain ⟨_, o1, o2, hz⟩ := sim hr ht
  have hd := Zkdvrf.dkgInv hz
  by_contra hlt
  have hu : p.contractPhase = .Unregistered ∨ p.contractPhase = .Registered := by
    cases hp : p.contractPhase <;> rw [hp] at hlt
    · exact Or.inl rfl
    · exact Or.inr rfl
    all_goals exact absurd (by decide) hlt
  have h1 : p.ppList = [] := hd.unreg (toZk_unreg.2 hu)
  have h2 : p.ppList.length = p.ppSubmissionCount := hd.ppLen
  have h3 : o2.length = p.ppSubmissionCount := hd.ordLen
  have h4 : a ∈ o2 := (hd.ppMem a).2 hs
  rw [h1] at h2
  rw [← h2] at h3
  rw [List.eq_nil_of_length_eq_zero h3] at h4
  cases h4

/-- A transaction of somebody else. -/
theorem One.next (h : One M t n aux1 aux2 p f a) (hr' : Reachable M.env p') (hw : Away a p p') :
    One M t n aux1 aux2 p' f a := by
  by_cases ha : Added p a
  · have hn := hw.node ha
    have hidx : indexOf p' a = indexOf p a := by unfold indexOf; rw [hn]
    have hreg : Registered p' a → Registered p a := by unfold Registered; rw [hn]; exact id
    have hready : p.lastSubmittedRound a ≠ 0 → p.contractPhase = .Ready := by
      intro h0
      by_contra hp
      exact h0 ((early h.reach h.ht hp).1 a)
    refine ⟨h.t_pos, h.n_pos, h.nonzero, hr', hw.thr.trans h.thr, hw.cnt.trans h.cnt, ?_, ?_, ?_, ?_⟩
    · intro hr
      obtain ⟨sk, k1, k2, k3⟩ := h.keys (hreg hr)
      exact ⟨sk, k1, k2, by rw [hidx]; exact hw.pre _ _ k3⟩
    · intro hs
      rw [hn] at hs
      obtain ⟨pp, h1, h2⟩ := h.dealt hs
      exact ⟨pp, hw.mem pp h1, h2.frame hw (rank_of_dealt h.reach h.ht hs)⟩
    · intro h0
      rw [hw.last] at h0
      exact (h.shr h0).frame (hw.frame ha) (hready h0)
    · intro k hr hs
      have hr1 := hreg hr
      have he := hw.eval k hr1
      unfold Submitted at hs
      rw [hidx, he] at hs ⊢
      have hp : p.contractPhase = .Ready := by
        by_contra hp
        exact (early h.reach h.ht hp).2.1 k _ hs
      obtain ⟨_, o1, o2, hz⟩ := sim h.reach h.ht
      have hk : k ≤ p.currentRoundNum := ((Zkdvrf.evalInv hz).stored k _ hs).1.2
      exact (h.evs k hr1 hs).frame (hw.frame ha) hp hk
  · obtain ⟨h1, h2⟩ := hw.new ha
    have hnr : ¬ Registered p' a := by unfold Registered; rw [h1]; exact Bool.noConfusion
    refine ⟨h.t_pos, h.n_pos, h.nonzero, hr', hw.thr.trans h.thr, hw.cnt.trans h.cnt, fun hr => absurd hr hnr,
      fun hs => ?_, fun h0 => ?_, fun k hr => absurd hr hnr⟩
    · rw [h2] at hs; cases hs
    · rw [hw.last] at h0
      obtain ⟨_, o1, o2, hz⟩ := sim h.reach h.ht
      have := ((Zkdvrf.evalInv hz).last_stored a (Nat.pos_of_ne_zero h0)).1
      change (p.addrToNode a).status = true at this
      rw [unadded h.reach h.ht ha] at this
      cases this

theorem SentOne.frame {k : ℕ} {c : Zkdvrf.Call} (h : One M t n aux1 aux2 p f a) (ha : Added p a)
    (hw : Away a p p') (hs : SentOne M t n aux1 aux2 p f a k c) : SentOne M t n aux1 aux2 p' f a k c := by
  have hf := hw.frame ha
  cases c with
  | submitPublicParams pp pr =>
    obtain ⟨h1, h2, h3⟩ := hs
    refine ⟨h1.trans hw.rank, h2.frame hw h1, fun hst => ?_⟩
    rw [hw.node ha] at hst
    rw [hw.chk h1]
    exact h3 hst
  | registerNode pk => exact SentWas.frame (M := M) (t := t) (n := n) (k := k) (c := .registerNode pk) hf (ready_stays hf) (fun k hk => h.ready hk) hs
  | submitPartialEval e =>
    exact SentWas.frame (M := M) (t := t) (n := n) (k := k) (c := .submitPartialEval e) hf (ready_stays hf) (fun k hk => h.ready hk) hs
  | _ => exact hs

theorem Away.added (hw : Away a p p') (ha : Added p a) : Added p' a := by
  unfold Added at *; rw [hw.node ha]; exact ha

theorem NodeOne.frame {st : Stage Job} (h : One M t n aux1 aux2 p f a) (hw : Away a p p')
    (hs : NodeOne M t n aux1 aux2 p f a st) : NodeOne M t n aux1 aux2 p' f a st := by
  cases st with
  | free => trivial
  | stopped => trivial
  | decided j => exact ⟨hw.added hs.1, hs.2.frame (hw.frame hs.1) (fun k hk => h.ready hk)⟩
  | sent c k => exact ⟨hw.added hs.1, hs.2.frame h hs.1 hw⟩

/-! The node's own transactions. -/

theorem own_register (h : One M t n aux1 aux2 p f a) (_ha : Added p a) {k : ℕ} {pk : GrumpkinSol.Point}
    (hs : SentOne M t n aux1 aux2 p f a k (.registerNode pk))
    (he : exec M.env p ⟨a, 0⟩ (.registerNode pk) = some p') : One M t n aux1 aux2 p' f a := by
  obtain ⟨hst, sk, hsk, hpk, hmem⟩ := hs
  obtain ⟨_, o1, o2, hz⟩ := sim h.reach h.ht
  have hreg := Zkdvrf.regInv hz
  have hr' := reach_next h.reach h.nonzero he
  obtain ⟨hp, _, _, _, _, _, _, hp'⟩ := registerNode_some.1 he
  obtain ⟨e1, e2, _, _⟩ := early h.reach h.ht (by rw [hp]; exact Phase.noConfusion)
  have hlen : p.pkList.length = p.registeredCount := hreg.pkLen
  have hidx : p.pkListIndex = p.registeredCount := hreg.pkIdx
  subst hp'
  refine ⟨h.t_pos, h.n_pos, h.nonzero, hr', h.thr, h.cnt, ?_, ?_, fun h0 => absurd (e1 a) h0,
    fun k _ hk => absurd hk (e2 k _)⟩
  · intro _
    refine ⟨sk, hsk, hmem, ?_⟩
    dsimp only [indexOf]
    rw [Function.update_self]
    dsimp only
    rw [hidx, ← hlen, hpk, List.getElem?_concat_length]
  · intro hs
    dsimp only at hs
    rw [Function.update_self] at hs
    have := rank_of_dealt (a := a) h.reach h.ht hs
    rw [hp] at this
    exact absurd this (by decide)

theorem own_deal (h : One M t n aux1 aux2 p f a) {k : ℕ} {pp : List Word} {pr : List Byte}
    (hs : SentOne M t n aux1 aux2 p f a k (.submitPublicParams pp pr))
    (he : exec M.env p ⟨a, 0⟩ (.submitPublicParams pp pr) = some p') : One M t n aux1 aux2 p' f a := by
  have hr' := reach_next h.reach h.nonzero he
  obtain ⟨_, _, hp, _, _, _, _, hp'⟩ := submitPublicParams_some.1 he
  obtain ⟨e1, e2, _, _⟩ := early h.reach h.ht (by rw [hp]; exact Phase.noConfusion)
  subst hp'
  refine ⟨h.t_pos, h.n_pos, h.nonzero, hr', h.thr, h.cnt, ?_, ?_, fun h0 => absurd (e1 a) h0,
    fun k _ hk => absurd hk (e2 k _)⟩
  · intro hr
    unfold Registered at hr
    dsimp only [indexOf] at hr ⊢
    rw [Function.update_self] at hr ⊢
    exact h.keys hr
  · intro _
    exact ⟨pp, List.mem_append_right _ (List.mem_singleton.2 rfl), hs.2.1⟩

theorem own_eval (h : One M t n aux1 aux2 p f a) {k : ℕ} {e : SolEval}
    (hs : SentOne M t n aux1 aux2 p f a k (.submitPartialEval e))
    (he : exec M.env p ⟨a, 0⟩ (.submitPartialEval e) = some p')
    (hl : NoLuck M p a k (.submitPartialEval e)) : One M t n aux1 aux2 p' f a := by
  obtain ⟨_, _, _, h4, _, h6, _⟩ := hs
  have hright : RightEval M p p.currentRoundNum (indexOf p a) e := by
    by_cases hk : k = p.currentRoundNum
    · rw [← hk]; exact h6
    · exact ⟨h6.1, hl e rfl hk ⟨p', he⟩⟩
  have hr' := reach_next h.reach h.nonzero he
  obtain ⟨_, _, _, _, _, _, _, _, hp'⟩ := submitPartialEval_some.1 he
  subst hp'
  refine ⟨h.t_pos, h.n_pos, h.nonzero, hr', h.thr, h.cnt, h.keys, h.dealt, fun _ => h4, ?_⟩
  intro k hr hk
  dsimp only [indexOf]
  by_cases hkk : k = p.currentRoundNum
  · subst hkk
    rw [Function.update_self, Function.update_self]
    exact hright
  · rw [Function.update_of_ne hkk]
    unfold Submitted at hk
    dsimp only [indexOf] at hk
    rw [Function.update_of_ne hkk] at hk
    exact h.evs k hr hk

theorem SentOne.call {k : ℕ} {c : Zkdvrf.Call} (h : SentOne M t n aux1 aux2 p f a k c) : NodeCall c := by
  cases c <;> trivial

theorem own (h : One M t n aux1 aux2 p f a) (ha : Added p a) {k : ℕ} {c : Zkdvrf.Call}
    (hs : SentOne M t n aux1 aux2 p f a k c) (he : exec M.env p ⟨a, 0⟩ c = some p') (hl : NoLuck M p a k c) :
    One M t n aux1 aux2 p' f a := by
  cases c with
  | registerNode pk => exact own_register h ha hs he
  | submitPublicParams pp pr => exact own_deal h hs he
  | submitPartialEval e => exact own_eval h hs he hl
  | _ => exact (SentOne.call hs).elim

theorem own_added (hcall : NodeCall c) (ha : Added p a) (he : exec M.env p ⟨a, 0⟩ c = some p') : Added p' a := by
  unfold Added at *
  cases c with
  | registerNode pk =>
    obtain ⟨_, _, _, _, _, _, _, rfl⟩ := registerNode_some.1 he
    dsimp only; rw [Function.update_self]; exact ha
  | submitPublicParams pp pr =>
    obtain ⟨_, _, _, _, _, _, _, rfl⟩ := submitPublicParams_some.1 he
    dsimp only; rw [Function.update_self]; exact ha
  | submitPartialEval e =>
    obtain ⟨_, _, _, _, _, _, _, _, rfl⟩ := submitPartialEval_some.1 he
    exact ha
  | _ => exact hcall.elim

/-- The node's own transaction leaves what else it has in order, if not both are registrations. -/
theorem SentOne.own (h : One M t n aux1 aux2 p f a) (ha : Added p a) {k : ℕ} {c c' : Zkdvrf.Call}
    (hcall : NodeCall c') (hr : (∀ pk, c' ≠ .registerNode pk) ∨ ∀ pk, c ≠ .registerNode pk)
    (he : exec M.env p ⟨a, 0⟩ c' = some p')
    (hs : SentOne M t n aux1 aux2 p f a k c) : SentOne M t n aux1 aux2 p' f a k c := by
  cases c' with
  | registerNode pk' =>
    obtain ⟨h1, _⟩ := registerNode_some.1 he
    cases c with
    | registerNode pk => exact (hr.elim (fun h => h pk' rfl) (fun h => h pk rfl)).elim
    | submitPublicParams pp pr => exact absurd hs.1 (by rw [h1]; decide)
    | submitPartialEval e => exact absurd (h1.symm.trans hs.1) Phase.noConfusion
    | _ => exact hs
  | submitPublicParams pp' pr' =>
    obtain ⟨_, _, h1, _, _, _, _, rfl⟩ := submitPublicParams_some.1 he
    cases c with
    | registerNode pk => exact absurd (h1.symm.trans (h.unreg ha hs.1)) Phase.noConfusion
    | submitPublicParams pp pr =>
      refine ⟨?_, hs.2.1, fun hst => ?_⟩
      · dsimp only; rw [h1]; split <;> decide
      · dsimp only at hst
        rw [Function.update_self] at hst
        cases hst
    | submitPartialEval e => exact absurd (h1.symm.trans hs.1) Phase.noConfusion
    | _ => exact hs
  | submitPartialEval e' =>
    obtain ⟨_, _, _, _, _, _, _, _, rfl⟩ := submitPartialEval_some.1 he
    cases c <;> exact hs
  | _ => exact hcall.elim

theorem NodeOne.own (h : One M t n aux1 aux2 p f a) {st : Stage Job}
    {c' : Zkdvrf.Call} (hcall : NodeCall c') (hr : ∀ pk, c' ≠ .registerNode pk)
    (he : exec M.env p ⟨a, 0⟩ c' = some p')
    (hs : NodeOne M t n aux1 aux2 p f a st) : NodeOne M t n aux1 aux2 p' f a st := by
  cases st with
  | free => trivial
  | stopped => trivial
  | sent c k => exact ⟨own_added hcall hs.1 he, hs.2.own h hs.1 hcall (Or.inl hr) he⟩
  | decided j =>
    refine ⟨own_added hcall hs.1 he, ?_⟩
    obtain ⟨ha, hs⟩ := hs
    cases c' with
    | registerNode pk' => exact absurd rfl (hr pk')
    | submitPublicParams pp' pr' =>
      obtain ⟨_, _, h1, _, _, _, _, rfl⟩ := submitPublicParams_some.1 he
      cases j with
      | register => exact absurd (h1.symm.trans (h.unreg ha hs)) Phase.noConfusion
      | deal => change _ ≤ _; dsimp only; rw [h1]; split <;> decide
      | eval b => exact absurd (h1.symm.trans hs.1) Phase.noConfusion
    | submitPartialEval e' =>
      obtain ⟨_, _, _, h4, _, _, _, _, rfl⟩ := submitPartialEval_some.1 he
      cases j with
      | register => exact hs
      | deal => exact hs
      | eval b =>
        refine ⟨hs.1, hs.2.1, fun _ => ?_⟩
        dsimp only
        rw [Function.update_self]
        exact Nat.one_le_iff_ne_zero.1 hs.2.1
    | _ => exact hcall.elim

/-! The commands. -/

theorem one_register (h : One M t n aux1 aux2 p f a) (ha : Added p a)
    (hst : (p.addrToNode a).status = false) (d : Draw) (hd : d.sk ≠ 0) (k : ℕ) :
    ∃ f' c, Services.registerNode f d = .send f' c ∧ SentOne M t n aux1 aux2 p f' a k c ∧
      One M t n aux1 aux2 p f' a := by
  have hp := h.unreg ha hst
  have hnr : ¬ Registered p a := by
    unfold Registered; rw [hst]; exact Bool.noConfusion
  have r1 : Client.registration (Client.keygen d.sk) = some (Zkdvrf.keyWords (d.sk • gk)) := by
    unfold Client.registration Client.keygen MemberKeySerde.of PointSerde.ofGk
    simp only [Client.wordOfHex_Fr]
    rfl
  refine ⟨{ f with member := some (Client.keygen d.sk) },
    .registerNode (Zkdvrf.keyWords (d.sk • gk)), ?_, ⟨hst, d.sk, hd, rfl, rfl⟩, ?_⟩
  · unfold Services.registerNode
    dsimp only
    rw [r1]
  · have e1 := (early h.reach h.ht (by rw [hp]; exact Phase.noConfusion)).1 a
    exact { h with
      keys := fun hr => absurd hr hnr
      shr := fun h0 => absurd e1 h0 }

theorem keyWords_ne_zero {env : Env} (hr : Reachable env p) (ht : 1 ≤ p.threshold) {pks : List Gk}
    (hk : p.pkList = pks.map Zkdvrf.keyWords) : ∀ k ∈ p.pkList, ∃ P : Gk, P ≠ 0 ∧ k = Zkdvrf.keyWords P := by
  intro k hm
  have hc := (C31_pre_registration env hr ht).2.2.2.2.2.1 k hm
  rw [hk] at hm
  obtain ⟨P, _, rfl⟩ := List.mem_map.1 hm
  refine ⟨P, ?_, rfl⟩
  rintro rfl
  exact absurd hc (by decide +kernel)

/-- A dealing that is sent is the honest one for the registered keys. -/
theorem deals_of_send {d : Draw} (hd : GoodDraw t n aux1 aux2 d) {f' : Files} {c : Zkdvrf.Call}
    (hs : submitPP M p a f d = .send f' c) :
    Canonical p ∧ f' = f ∧ ∃ pp pr, c = .submitPublicParams pp pr ∧ HonestDeal M t n aux1 aux2 p pp := by
  obtain ⟨i, proof, file, pp, g1, g2, g3, g4, rfl, rfl⟩ := deal_values hs
  obtain ⟨ins, g5, g6, rfl⟩ := prove_ins.1 g2
  rw [pp_of_instance] at g4
  obtain rfl := Option.some.inj g4
  have key : ∃ pks mp, p.pkList = pks.map Zkdvrf.keyWords ∧
      DkgMemberParams.new Poseidon.hash2 ⟨p.threshold, p.memberCount⟩ pks d.stream = .ok mp ∧
      mp.publicParams.toInstance M.infPanics mp.publicKeys = .ok ins := by
    unfold Client.proveInstance at g5
    cases k1 : Client.checkIndex (config p) i with
    | error e => rw [k1] at g5; cases g5
    | ok u =>
      cases k2 : (Client.mpksFile p.pkList).mapM PointSerde.toGk with
      | error e => rw [k1, k2] at g5; cases g5
      | ok pks =>
        cases k3 : DkgMemberParams.new Poseidon.hash2 (config p) pks d.stream with
        | error e => rw [k1, k2] at g5; change (Client.lift _ >>= _) = _ at g5; rw [k3] at g5; cases g5
        | ok mp =>
          refine ⟨pks, mp, (C54_keys_file (ZkdvrfPre.State.toZk p [] []) pks).1 k2, k3, ?_⟩
          rw [k1, k2] at g5
          change (Client.lift _ >>= _) = _ at g5
          rw [k3] at g5
          change Client.lift (mp.publicParams.toInstance M.infPanics mp.publicKeys) = _ at g5
          cases k4 : mp.publicParams.toInstance M.infPanics mp.publicKeys with
          | error e => rw [k4] at g5; cases g5
          | ok ins' => rw [k4] at g5; exact congrArg _ (Except.ok.inj g5)
  obtain ⟨pks, mp, e1, e2, e3⟩ := key
  exact ⟨⟨pks, e1⟩, rfl, _, _, rfl, d, ins, hd, ⟨pks, mp, e1, e2, e3⟩, rfl⟩

/-- A dealing that is possible and needed is sent, and can be accepted. -/
theorem one_deal_send (hM : Faithful M t n aux1 aux2) (h : One M t n aux1 aux2 p f a) (ha : Added p a)
    (hk : 2 ≤ p.contractPhase.rank) (hst : (p.addrToNode a).statusPP = false) (hcan : Canonical p) (d : Draw)
    (hd : GoodDraw t n aux1 aux2 d) :
    ∃ pp pr, submitPP M p a f d = .send f (.submitPublicParams pp pr) ∧
      checkPublicParams p pp = some true ∧ M.env.verifyProof pr pp = some true := by
  have hp := h.dealing ha hk hst
  obtain ⟨pks, hpks⟩ := hcan
  obtain ⟨hx, o1, o2, hz⟩ := sim h.reach h.ht
  obtain ⟨c1, c2, _, _, c5, _, c7⟩ := C31_pre_registration M.env h.reach h.ht
  obtain ⟨c7, c8⟩ := c7 (by rw [hp]; exact Phase.noConfusion)
  have hra := c8 a ha
  have hlt := c2 a hra
  have hb : 7 * p.memberCount + 14 < 2 ^ 32 := (Zkdvrf.regInv hz).bound
  have hidx : getIndexPlus p a = some (indexOf p a + 1) := by
    unfold getIndexPlus u32
    exact if_pos (by change indexOf p a + 1 < _; omega)
  obtain ⟨pr, file, pp, s', q1, q2, q3, q4, q5, q6⟩ := C54_prove M.env hz (toZk_nidkg.2 hp)
    (keyWords_ne_zero h.reach h.ht hpks) h.ht aux1 aux2 hM.table1 hM.order2 hM.table2 M.prover M.verifier
    (by change ∀ ins, DkgCircuit.synthesize ⟨p.threshold, p.memberCount⟩ aux1 aux2 ins → _
        rw [h.thr, h.cnt]; exact hM.proves)
    (indexOf p a + 1) (Nat.le_add_left _ _) (by change indexOf p a + 1 ≤ p.memberCount; omega)
    M.infPanics d.stream
    (by change d.stream p.threshold ≠ 0; rw [h.thr]; exact hd.enc) hd.use1 hd.use2
    (by change ∀ i, 1 ≤ i → i ≤ p.memberCount → Spec.Usable g1 aux1
          (Spec.poly ((List.range p.threshold).map d.stream) (i : Fr))
        rw [h.thr, h.cnt]; exact hd.shares) a hra hst
  obtain ⟨p', o1', o2', he, hs'⟩ := sim_back hz hx h.nonzero (by have := h.n_pos; have := h.cnt; omega)
    (Or.inl rfl) q4
  obtain ⟨_, _, _, _, z1, z2, _, _⟩ := submitPublicParams_some.1 he
  refine ⟨pp, pr, ?_, z1, z2⟩
  unfold submitPP
  dsimp only
  rw [hidx]
  dsimp only
  have q1' : Client.prove M.prover M.infPanics (config p) (indexOf p a + 1)
    (Client.mpksFile p.pkList) d.stream = .ok (pr, file) := q1
  have q2' : Client.dkgVerify M.verifier (config p) (indexOf p a + 1) pr file
    (Client.mpksFile p.pkList) = .ok () := q2
  rw [q1']
  dsimp only
  rw [q2']
  dsimp only
  rw [q3]

/-- An evaluation that derives its share, or has it. -/
theorem one_eval (hM : Spec.SnarkSound M.env t n) (h : One M t n aux1 aux2 p f a) (ha : Added p a)
    (hp : p.contractPhase = .Ready) {b : Bool} (hb : b = false → p.lastSubmittedRound a ≠ 0)
    (d : Draw) :
    ∃ g e, nodeRun M p a f d (.eval b) = .send g (.submitPartialEval e) ∧ HasShare t n p g a ∧
      e.indexPlus = indexOf p a + 1 ∧ RightEval M p p.currentRoundNum (indexOf p a) e ∧
      (∃ vk, p.vkList[indexOf p a]? = some vk ∧
        PseudoRandSol.verifyPartialEval M.env.keccak (p.roundInput p.currentRoundNum) e.value ⟨e.z, e.c⟩ vk =
          some true) ∧
      One M t n aux1 aux2 p g a := by
  have hthr := h.thr
  have hcnt := h.cnt
  obtain ⟨hx, o1, o2, hz⟩ := sim h.reach h.ht
  have hra := h.registered ha (by rw [hp]; exact Phase.noConfusion)
  obtain ⟨sk, k1, k2, k3⟩ := h.keys hra
  obtain ⟨i, gf, vf, sf, e, u, q1, q2, q3, q4, q5, q6, q7, q8, q9⟩ := evaluate_any M.env hz
    (toZk_ready.2 hp) (by change Spec.SnarkSound M.env p.threshold p.memberCount; rw [h.thr, h.cnt]; exact hM)
    a hra sk k3 d.nonce
  have q1 : getIndexPlus p a = some i := q1
  have q2 : Client.derive (config p) (Client.instancesFile p.ppList) (some (i, Client.keygen sk)) =
    .ok ⟨gf, vf, some sf⟩ := q2
  have q3 : Client.eval M.env.keccak (evalHash M.env.keccak) (config p) i sf
        (p.roundInput p.currentRoundNum) d.nonce = .ok e := q3
  have q4 : Client.verifyEval M.env.keccak (evalHash M.env.keccak) (config p) i e vf
        (p.roundInput p.currentRoundNum) = .ok () := q4
  have hsub : ∀ g : Files, g.share = some sf → g.vks = some vf →
      Services.submitPartialEval M p a g d = .send g (.submitPartialEval u) := by
    intro g g1 g2
    unfold Services.submitPartialEval
    dsimp only
    rw [q1, g1, g2]
    dsimp only
    rw [q3]
    dsimp only
    rw [q4]
    dsimp only
    rw [q5]
  have hfiles : ∃ g : Files, nodeRun M p a f d (.eval b) = .send g (.submitPartialEval u) ∧
      g.member = some (Client.keygen sk) ∧ g.share = some sf ∧ g.vks = some vf := by
    unfold nodeRun
    dsimp only
    by_cases h0 : b = true
    · rw [if_pos h0]
      refine ⟨{ f with gpk := some gf, vks := some vf, share := some sf }, ?_, k2, rfl, rfl⟩
      have : nidkgDerive p a f =
          some { f with gpk := some gf, vks := some vf, share := some sf } := by
        unfold nidkgDerive
        rw [q1, k2]
        dsimp only
        rw [q2]
      rw [this]
      exact hsub _ rfl rfl
    · rw [if_neg h0]
      obtain ⟨sk', i', gf', vf', f', m1, m2, m3, m4, m5, m6⟩ := h.shr (hb (Bool.not_eq_true _ ▸ h0))
      have hkk : Client.keygen sk' = Client.keygen sk := Option.some.inj (m1.symm.trans k2)
      have hii : i' = i := Option.some.inj (m3.symm.trans q1)
      rw [hkk, hii, ← hthr, ← hcnt] at m4
      have heq := Except.ok.inj (m4.symm.trans q2)
      have hf : some f' = some sf := congrArg Client.DeriveOut.share heq
      have hv : vf' = vf := congrArg Client.DeriveOut.vks heq
      refine ⟨f, hsub _ (m5.trans hf) (by rw [m6, hv]), k2, m5.trans hf, by rw [m6, hv]⟩
  obtain ⟨g, g1, g2, g3, g4⟩ := hfiles
  have hsh : HasShare t n p g a := by
    refine ⟨sk, i, gf, vf, sf, g2, k3, q1, ?_, g3, g4⟩
    rw [← hthr, ← hcnt]
    exact q2
  exact ⟨g, u, g1, hsh, q6, ⟨q8, q9⟩, q7, { h with
    keys := fun hr => ⟨sk, k1, g2, k3⟩
    shr := fun _ => hsh }⟩

/-- What the commands lead to. -/
theorem one_run (hM : Faithful M t n aux1 aux2) (h : One M t n aux1 aux2 p f a) {j : Job}
    (hj : NodeOne M t n aux1 aux2 p f a (.decided j)) (d : Draw) (hd : GoodDraw t n aux1 aux2 d) :
    ∃ g, (nodeRun M p a f d j = .failed g ∧ j = .deal ∧ ((p.addrToNode a).statusPP = true ∨ ¬ Canonical p) ∨
        ∃ c, nodeRun M p a f d j = .send g c ∧ SentOne M t n aux1 aux2 p g a p.currentRoundNum c) ∧
      One M t n aux1 aux2 p g a ∧
      ∀ c k, (∀ pk, c ≠ .registerNode pk) → SentOne M t n aux1 aux2 p f a k c →
        SentOne M t n aux1 aux2 p g a k c := by
  have files : ∀ {g : Files} {c : Zkdvrf.Call} {k : ℕ}, (∀ pk, c ≠ .registerNode pk) →
      (p.contractPhase = .Ready → HasShare t n p g a) → SentOne M t n aux1 aux2 p f a k c →
      SentOne M t n aux1 aux2 p g a k c := by
    intro g c k hc hg hs
    cases c with
    | submitPublicParams pp pr => exact hs
    | registerNode pk => exact absurd rfl (hc pk)
    | submitPartialEval e => exact SentWas.files (c := .submitPartialEval e) hc hg hs
    | _ => exact hs
  obtain ⟨ha, hj⟩ := hj
  cases j with
  | register =>
    have hu := h.unreg ha hj
    obtain ⟨g, c, h1, h2, h3⟩ := one_register h ha hj d hd.sk p.currentRoundNum
    exact ⟨g, Or.inr ⟨c, h1, h2⟩, h3, fun c k hc hs =>
      files hc (fun hp => absurd (hu.symm.trans hp) Phase.noConfusion) hs⟩
  | deal =>
    refine ⟨f, ?_, h, fun c k _ hs => hs⟩
    rcases submitPP_files M p a f d with h1 | ⟨pp, pr, h1⟩
    · refine Or.inl ⟨h1, rfl, ?_⟩
      by_contra hno
      push Not at hno
      obtain ⟨hst, hcan⟩ := hno
      rw [ne_eq, Bool.not_eq_true] at hst
      obtain ⟨pp, pr, h2, _⟩ := one_deal_send hM h ha hj hst hcan d hd
      rw [h2] at h1
      cases h1
    · obtain ⟨hcan, _, pp', pr', e, hdeal⟩ := deals_of_send hd h1
      injection e with e1 e2
      subst e1 e2
      refine Or.inr ⟨_, h1, hj, hdeal, fun hst => ?_⟩
      obtain ⟨pp2, pr2, h2, h3, h4⟩ := one_deal_send hM h ha hj hst hcan d hd
      have h5 := h2.symm.trans h1
      injection h5 with _ h6
      injection h6 with h7 h8
      subst h7 h8
      exact ⟨h3, h4⟩
  | eval b =>
    obtain ⟨hp, h0, hb⟩ := hj
    obtain ⟨g, e, h1, h2, h3, h4, h5, h6⟩ := one_eval hM.sound h ha hp hb d
    exact ⟨g, Or.inr ⟨_, h1, hp, h0, le_rfl, h2, h3, h4, h5⟩, h6, fun c k hc hs => files hc (fun _ => h2) hs⟩

theorem one_look (h : One M t n aux1 aux2 p f a) {j : Job} (hj : nodeLook p a = some j) :
    NodeOne M t n aux1 aux2 p f a (.decided j) := by
  unfold nodeLook at hj
  dsimp only at hj
  split at hj
  · rename_i hself
    refine ⟨h.added hself, ?_⟩
    cases hp : p.contractPhase with
    | Unregistered =>
      rw [hp] at hj
      dsimp only at hj
      split at hj
      · rename_i hs
        cases Option.some.inj hj
        rw [Bool.not_eq_true'] at hs
        exact hs
      · cases hj
    | Registered => rw [hp] at hj; cases hj
    | Nidkg =>
      rw [hp] at hj
      dsimp only at hj
      split at hj
      · cases Option.some.inj hj
        change 2 ≤ p.contractPhase.rank
        rw [hp]; decide
      · cases hj
    | NidkgComplete => rw [hp] at hj; cases hj
    | Ready =>
      rw [hp] at hj
      dsimp only at hj
      split at hj
      · rename_i hs
        cases Option.some.inj hj
        rw [Bool.and_eq_true] at hs
        obtain ⟨_, o1, o2, hz⟩ := sim h.reach h.ht
        have h1 : p.lastSubmittedRound a ≤ p.currentRoundNum := (Zkdvrf.evalInv hz).last_le a
        have h2 := jsGreater_ne hs.1
        refine ⟨hp, by omega, fun hb => ?_⟩
        rw [decide_eq_false_iff_not] at hb
        exact hb
      · cases hj
  · cases hj

/-- A transaction that was in order is accepted, unless it is not needed any more, or a deposit is asked. -/
theorem one_accepted (h : One M t n aux1 aux2 p f a) (ha : Added p a) {k : ℕ} {c : Zkdvrf.Call}
    (hs : SentOne M t n aux1 aux2 p f a k c) :
    (∃ p', exec M.env p ⟨a, 0⟩ c = some p') ∨
    (∃ pk, c = .registerNode pk) ∧ 0 < p.minNodeDeposit ∨
    (∃ pp pr, c = .submitPublicParams pp pr) ∧ (p.addrToNode a).statusPP = true ∨
    (∃ e, c = .submitPartialEval e) ∧ (Completed p k ∨ k ≤ p.lastSubmittedRound a) := by
  obtain ⟨hx, o1, o2, hz⟩ := sim h.reach h.ht
  have hself := h.self ha
  have hreg := Zkdvrf.regInv hz
  have hb : 7 * p.memberCount + 14 < 2 ^ 32 := hreg.bound
  have hc1 : p.registeredCount ≤ p.currentIndex := hreg.reg_card
  have hc2 : p.currentIndex ≤ p.memberCount := hreg.idx_le
  cases c with
  | registerNode pk =>
    by_cases hdep : 0 < p.minNodeDeposit
    · exact Or.inr (Or.inl ⟨⟨pk, rfl⟩, hdep⟩)
    left
    obtain ⟨hst, sk, hsk, rfl, hmem⟩ := hs
    have hp := h.unreg ha hst
    obtain ⟨_, r2, _⟩ := C54_register M.env hz (toZk_unreg.2 (Or.inl hp)) ⟨a, 0⟩ ha
      (by unfold Zkdvrf.Registered; change ¬ (p.addrToNode a).status = true; rw [hst]; exact Bool.noConfusion)
      (by change p.minNodeDeposit ≤ 0; omega) sk
    obtain ⟨s', he⟩ := r2.2 hsk
    obtain ⟨p', _, _, he, -⟩ := sim_back hz hx h.nonzero (by have := h.n_pos; have := h.cnt; omega) (Or.inl rfl) he
    exact ⟨p', he⟩
  | submitPublicParams pp pr =>
    obtain ⟨h1, _, h3⟩ := hs
    cases hst : (p.addrToNode a).statusPP with
    | true => exact Or.inr (Or.inr (Or.inl ⟨⟨pp, pr, rfl⟩, rfl⟩))
    | false =>
      left
      obtain ⟨q1, q2⟩ := h3 hst
      have hp := h.dealing ha h1 hst
      have hlt : p.ppSubmissionCount < p.memberCount ∨ p.memberCount = 0 :=
        (Zkdvrf.dkgInv hz).nidkg (toZk_nidkg.2 hp)
      have hn := h.n_pos
      have hcnt := h.cnt
      exact ⟨_, submitPublicParams_some.2 ⟨rfl, hself.symm, hp, hst, q1, q2, by omega, rfl⟩⟩
  | submitPartialEval e =>
    obtain ⟨hp, h1, h2, _, h5, _, vk, h7, h8⟩ := hs
    by_cases hl : k ≤ p.lastSubmittedRound a
    · exact Or.inr (Or.inr (Or.inr ⟨⟨e, rfl⟩, Or.inr hl⟩))
    by_cases hcomp : Completed p k
    · exact Or.inr (Or.inr (Or.inr ⟨⟨e, rfl⟩, Or.inl hcomp⟩))
    left
    have hk : k = p.currentRoundNum := by
      by_contra hne
      exact hcomp ((C34_pre_rounds M.env h.reach h.ht).1 k h1 (lt_of_le_of_ne h2 hne))
    subst hk
    have hra := h.registered ha (by rw [hp]; exact Phase.noConfusion)
    have hi : indexOf p a < p.registeredCount := (hreg.reg_idx a hra).1
    have hcount : p.roundSubmissionCount p.currentRoundNum ≤ p.memberCount := by
      refine ((Zkdvrf.evalInv hz).count _).le.trans ((Finset.card_filter_le _ _).trans ?_)
      rw [Finset.card_range]
      exact le_rfl
    rw [eval_eq (hx.hash _ h1 h2)] at h8
    exact ⟨_, submitPartialEval_some.2 ⟨rfl, hself.symm, not_not.1 hcomp, not_le.1 hl,
      by change indexOf p a + 1 < _; omega, h5, ⟨vk, h7, h8⟩, by omega, rfl⟩⟩
  | _ => exact (SentOne.call hs).elim

end

/-! Histories. -/

section
variable {M : Machine} {H : Set Address} {t n : ℕ} {aux1 : G1} {aux2 : G2} {s s' : Survivors}

/-- Everything is in order for node `a`. -/
structure OneInv (M : Machine) (t n : ℕ) (aux1 : G1) (aux2 : G2) (s : Survivors) (a : Address) : Prop where
  one : One M t n aux1 aux2 s.w.p (s.w.node a) a
  node : NodeOne M t n aux1 aux2 s.w.p (s.w.node a) a (s.w.nodeAt a)
  left : ∀ c k, (a, c, k) ∈ s.left → Added s.w.p a ∧ (∀ pk, c ≠ .registerNode pk) ∧
    SentOne M t n aux1 aux2 s.w.p (s.w.node a) a k c

/-- A transaction of somebody else is mined. -/
theorem OneInv.other {a : Address} (h : OneInv M t n aux1 aux2 s a) {m : Msg} (h0 : m.sender ≠ 0)
    (hs : a ≠ m.sender) {c : Zkdvrf.Call} {p' : State} (he : exec M.env s.w.p m c = some p') {w' : Overlap}
    {l : List (Address × Zkdvrf.Call × ℕ)} (hp : w'.p = p') (hn : w'.node a = s.w.node a)
    (ht : w'.nodeAt a = s.w.nodeAt a) (hl : l ⊆ s.left) : OneInv M t n aux1 aux2 ⟨w', l⟩ a := by
  have hw := away h.one.reach h.one.ht h0 hs he
  have hr' : Reachable M.env p' := by
    have := Reachable.step (.call m c) h0 h.one.reach
    rwa [step_some he] at this
  refine ⟨?_, ?_, fun c' k hc => ?_⟩
  · dsimp only; rw [hp, hn]; exact h.one.next hr' hw
  · dsimp only; rw [hp, hn, ht]; exact h.node.frame h.one hw
  · obtain ⟨q1, q2, q3⟩ := h.left c' k (hl hc)
    dsimp only
    rw [hp, hn]
    exact ⟨hw.added q1, q2, q3.frame h.one q1 hw⟩

/-- Nothing that node `a` relies on changes. -/
theorem OneInv.same {a : Address} (h : OneInv M t n aux1 aux2 s a) {w' : Overlap}
    {l : List (Address × Zkdvrf.Call × ℕ)} (hp : w'.p = s.w.p) (hn : w'.node a = s.w.node a)
    (ht : w'.nodeAt a = s.w.nodeAt a ∨ w'.nodeAt a = .free ∨ w'.nodeAt a = .stopped)
    (hl : ∀ c k, (a, c, k) ∈ l → (a, c, k) ∈ s.left ∨ s.w.nodeAt a = .sent c k ∧ ∀ pk, c ≠ .registerNode pk) :
    OneInv M t n aux1 aux2 ⟨w', l⟩ a := by
  refine ⟨?_, ?_, fun c' k hc => ?_⟩
  · dsimp only; rw [hp, hn]; exact h.one
  · dsimp only
    rcases ht with ht | ht | ht
    · rw [hp, hn, ht]; exact h.node
    · rw [ht]; trivial
    · rw [ht]; trivial
  · dsimp only
    rw [hp, hn]
    rcases hl c' k hc with hl | ⟨hl, hr⟩
    · exact h.left c' k hl
    · have := h.node
      rw [hl] at this
      exact ⟨this.1, hr, this.2⟩

/-- A transaction of node `a` is mined. -/
theorem OneInv.own {a : Address} (h : OneInv M t n aux1 aux2 s a) {c : Zkdvrf.Call} {k : ℕ} {p' : State}
    (ha : Added s.w.p a) (hc : SentOne M t n aux1 aux2 s.w.p (s.w.node a) a k c)
    (hl : NoLuck M s.w.p a k c) (he : exec M.env s.w.p ⟨a, 0⟩ c = some p') {w' : Overlap}
    {l : List (Address × Zkdvrf.Call × ℕ)} (hp : w'.p = p') (hn : w'.node a = s.w.node a)
    (ht : w'.nodeAt a = .free ∨ (w'.nodeAt a = s.w.nodeAt a ∧ ∀ pk, c ≠ .registerNode pk)) (hs : l ⊆ s.left) :
    OneInv M t n aux1 aux2 ⟨w', l⟩ a := by
  refine ⟨?_, ?_, fun c' k' hc' => ?_⟩
  · dsimp only; rw [hp, hn]; exact Overlap.own h.one ha hc he hl
  · dsimp only
    rcases ht with ht | ⟨ht, hr⟩
    · rw [ht]; trivial
    · rw [hp, hn, ht]; exact h.node.own h.one hc.call hr he
  · obtain ⟨q1, q2, q3⟩ := h.left c' k' (hs hc')
    dsimp only
    rw [hp, hn]
    exact ⟨own_added hc.call ha he, q2, q3.own h.one ha hc.call (Or.inr q2) he⟩

structure MInv (M : Machine) (H : Set Address) (t n : ℕ) (aux1 : G1) (aux2 : G2) (s : Survivors) : Prop where
  each : ∀ a ∈ H, OneInv M t n aux1 aux2 s a
  from_ : ∀ g ∈ s.left, g.1 ∈ H

theorem MInv.step (hM : Faithful M t n aux1 aux2) (h : MInv M H t n aux1 aux2 s)
    (hs : MixedStep M H t n aux1 aux2 s s') : MInv M H t n aux1 aux2 s' := by
  cases hs with
  | look a ha =>
    refine ⟨fun b hb => ?_, h.from_⟩
    have hi := h.each b hb
    unfold Overlap.look
    split
    · split
      · exact hi
      · rename_i j hj
        by_cases hba : b = a
        · subst hba
          refine ⟨hi.one, ?_, hi.left⟩
          dsimp only
          rw [Function.update_self]
          exact one_look hi.one hj
        · exact hi.same rfl rfl (Or.inl (Function.update_of_ne hba _ _)) (fun c k hc => Or.inl hc)
    · exact hi
  | fetch a d ha hd =>
    refine ⟨fun b hb => ?_, h.from_⟩
    have hi := h.each b hb
    unfold Overlap.fetch
    split
    · rename_i j hj
      by_cases hba : b = a
      · subst hba
        have hn := hi.node
        rw [hj] at hn
        obtain ⟨g, h1, h2, h3⟩ := one_run hM hi.one hn d hd
        have hleft : ∀ c k, (b, c, k) ∈ s.left → Added s.w.p b ∧ (∀ pk, c ≠ .registerNode pk) ∧
            SentOne M t n aux1 aux2 s.w.p g b k c := by
          intro c k hc
          obtain ⟨q1, q2, q3⟩ := hi.left c k hc
          exact ⟨q1, q2, h3 c k q2 q3⟩
        rcases h1 with ⟨h1, _⟩ | ⟨c, h1, h4⟩
        · rw [h1]
          refine ⟨?_, ?_, ?_⟩
          · dsimp only; rw [Function.update_self]; exact h2
          · dsimp only; rw [Function.update_self, Function.update_self]; trivial
          · dsimp only; rw [Function.update_self]; exact hleft
        · rw [h1]
          refine ⟨?_, ?_, ?_⟩
          · dsimp only; rw [Function.update_self]; exact h2
          · dsimp only; rw [Function.update_self, Function.update_self]; exact ⟨hn.1, h4⟩
          · dsimp only; rw [Function.update_self]; exact hleft
      · cases nodeRun M s.w.p a (s.w.node a) d j with
        | idle => exact hi.same rfl rfl (Or.inl (Function.update_of_ne hba _ _)) (fun c k hc => Or.inl hc)
        | failed f => exact hi.same rfl (Function.update_of_ne hba _ _) (Or.inl (Function.update_of_ne hba _ _)) (fun c k hc => Or.inl hc)
        | send f c => exact hi.same rfl (Function.update_of_ne hba _ _) (Or.inl (Function.update_of_ne hba _ _)) (fun c k hc => Or.inl hc)
    · exact hi
  | land a ha hl =>
    refine ⟨fun b hb => ?_, h.from_⟩
    have hi := h.each b hb
    unfold Overlap.land
    split
    · rename_i c k hk
      have hia := h.each a ha
      have hn := hia.node
      rw [hk] at hn
      split
      · refine hi.same rfl rfl ?_ (fun c k hc => Or.inl hc)
        by_cases hba : b = a
        · subst hba; exact Or.inr (Or.inr (Function.update_self ..))
        · exact Or.inl (Function.update_of_ne hba _ _)
      · rename_i p' he
        by_cases hba : b = a
        · subst hba
          exact hi.own hn.1 hn.2 (hl c k hk) he rfl rfl (Or.inl (Function.update_self ..)) (List.Subset.refl _)
        · exact hi.other hia.one.nonzero hba he rfl rfl (Function.update_of_ne hba _ _) (List.Subset.refl _)
    · exact hi
  | mine i hl =>
    unfold Survivors.mine
    split
    · exact h
    · rename_i a c k hk
      have hmem : (a, c, k) ∈ s.left := List.mem_of_getElem? hk
      have ha := h.from_ _ hmem
      have hsub : s.left.eraseIdx i ⊆ s.left := List.eraseIdx_subset
      refine ⟨fun b hb => ?_, fun g hg => h.from_ g (hsub hg)⟩
      have hi := h.each b hb
      cases he : exec M.env s.w.p ⟨a, 0⟩ c with
      | none => exact hi.same rfl rfl (Or.inl rfl) (fun c k hc => Or.inl (hsub hc))
      | some p' =>
        by_cases hba : b = a
        · subst hba
          obtain ⟨q1, q2, q3⟩ := hi.left c k hmem
          exact hi.own q1 q3 (hl b c k hk) he rfl rfl (Or.inr ⟨rfl, q2⟩) hsub
        · exact hi.other (h.each a ha).one.nonzero hba he rfl rfl rfl hsub
  | restart a lost ha hr =>
    refine ⟨fun b hb => ?_, ?_⟩
    · have hi := h.each b hb
      unfold Survivors.restart
      refine hi.same rfl rfl ?_ ?_
      · by_cases hba : b = a
        · subst hba; exact Or.inr (Or.inl (Function.update_self ..))
        · exact Or.inl (Function.update_of_ne hba _ _)
      · intro c k hc
        rcases List.mem_append.1 hc with hc | hc
        · unfold Stage.remains at hc
          split at hc
          · rename_i c' k' hst
            split at hc
            · cases hc
            · rename_i hlost
              cases List.mem_singleton.1 hc
              refine Or.inr ⟨hst, fun pk hpk => ?_⟩
              subst hpk
              exact hlost (hr pk k hst)
          · cases hc
        · exact Or.inl hc
    · intro g hg
      unfold Survivors.restart at hg
      rcases List.mem_append.1 hg with hg | hg
      · unfold Stage.remains at hg
        split at hg
        · split at hg
          · cases hg
          · cases List.mem_singleton.1 hg; exact ha
        · cases hg
      · exact h.from_ g hg
  | other tx hv hn =>
    refine ⟨fun b hb => ?_, h.from_⟩
    have hi := h.each b hb
    cases tx with
    | forceEther x =>
      have hw : Away b s.w.p (step M.env s.w.p (.forceEther x)) := by
        refine ⟨fun _ => rfl, fun ha => ?_, rfl, le_rfl, le_rfl, fun _ _ => rfl, fun _ _ => rfl, fun _ => rfl,
          fun _ _ h => h, fun _ => rfl, fun _ h => h, fun _ => rfl, fun _ h => h, rfl, rfl, fun _ _ => rfl⟩
        change (s.w.p.addrToNode b).status = false ∧ (s.w.p.addrToNode b).statusPP = false
        rw [unadded hi.one.reach hi.one.ht ha]
        exact ⟨rfl, rfl⟩
      refine ⟨hi.one.next (.step _ hv hi.one.reach) hw, hi.node.frame hi.one hw, fun c k hc => ?_⟩
      obtain ⟨q1, q2, q3⟩ := hi.left c k hc
      exact ⟨hw.added q1, q2, q3.frame hi.one q1 hw⟩
    | call m c =>
      cases he : exec M.env s.w.p m c with
      | none =>
        rw [step_none he]
        exact hi
      | some p' =>
        rw [step_some he]
        exact hi.other hv (fun hbm => hn m c rfl (hbm ▸ hb)) he rfl rfl rfl (List.Subset.refl _)

theorem mixed_start (h0 : Before M H t n p) {w0 : World} (hw : w0.p = p) :
    MInv M H t n aux1 aux2 (.begin w0) := by
  refine ⟨fun a ha => ⟨?_, trivial, fun c k hc => by cases hc⟩, fun g hg => by cases hg⟩
  subst hw
  have ht : 1 ≤ w0.p.threshold := by rw [h0.threshold]; exact h0.t_pos
  have hnr := h0.unregistered a ha
  obtain ⟨_, o1, o2, hz⟩ := sim h0.reachable ht
  refine ⟨h0.t_pos, h0.n_pos, h0.nonzero a ha, h0.reachable, h0.threshold, h0.members, fun hr => absurd hr hnr,
    fun hs => absurd ((Zkdvrf.dkgInv hz).ppReg a hs) hnr, fun hl => ?_, fun k hr => absurd hr hnr⟩
  exact absurd ((Zkdvrf.evalInv hz).last_stored a (Nat.pos_of_ne_zero hl)).1 hnr

theorem mixed_inv (hM : Faithful M t n aux1 aux2) {w0 : World} (h0 : Before M H t n w0.p)
    (h : Mixed M H t n aux1 aux2 (.begin w0) s) : MInv M H t n aux1 aux2 s := by
  induction h with
  | refl => exact mixed_start h0 rfl
  | tail _ hs ih => exact ih.step hM hs

/-- The three steps of a pass of node `a`, one after the other. -/
noncomputable def pass (M : Machine) (w : Overlap) (a : Address) (d : Draw) : Overlap :=
  ((w.look a).fetch M a d).land M a

/-- A pass with something to do that is possible. -/
theorem MInv.go (hM : Faithful M t n aux1 aux2) (h : MInv M H t n aux1 aux2 s) {a : Address} (ha : a ∈ H)
    (hf : s.w.nodeAt a = .free) {j : Job} (hj : nodeLook s.w.p a = some j) {d : Draw}
    (hd : GoodDraw t n aux1 aux2 d) (hr : j = .register → s.w.p.minNodeDeposit = 0)
    (hc : j = .deal → Canonical s.w.p)
    (hq : ∀ b, j = .eval b → ¬ Completed s.w.p s.w.p.currentRoundNum ∧
      s.w.p.lastSubmittedRound a < s.w.p.currentRoundNum) :
    Mixed M H t n aux1 aux2 s ⟨pass M s.w a d, s.left⟩ ∧
    ∃ g c p', nodeRun M s.w.p a (s.w.node a) d j = .send g c ∧ exec M.env s.w.p ⟨a, 0⟩ c = some p' ∧
      (pass M s.w a d).p = p' ∧ (pass M s.w a d).nodeAt = s.w.nodeAt ∧
      (pass M s.w a d).node = Function.update s.w.node a g := by
  have hi := h.each a ha
  have hl := one_look hi.one hj
  have hadd := hl.1
  obtain ⟨g, h1, h2, h3⟩ := one_run hM hi.one hl d hd
  have hsend : ∃ c, nodeRun M s.w.p a (s.w.node a) d j = .send g c ∧
      SentOne M t n aux1 aux2 s.w.p g a s.w.p.currentRoundNum c := by
    rcases h1 with ⟨_, hdeal, h4⟩ | h1
    · exfalso
      subst hdeal
      rcases h4 with h4 | h4
      · unfold nodeLook at hj
        dsimp only at hj
        split at hj
        · cases hp : s.w.p.contractPhase with
          | Nidkg => rw [hp] at hj; dsimp only at hj; rw [h4] at hj; cases hj
          | Unregistered => rw [hp] at hj; dsimp only at hj; split at hj <;> cases hj
          | Registered => rw [hp] at hj; cases hj
          | NidkgComplete => rw [hp] at hj; cases hj
          | Ready => rw [hp] at hj; dsimp only at hj; split at hj <;> cases hj
        · cases hj
      · exact h4 (hc rfl)
    · exact h1
  obtain ⟨c, hsd, hs⟩ := hsend
  have e1 : s.w.look a = { s.w with nodeAt := Function.update s.w.nodeAt a (.decided j) } := by
    unfold Overlap.look
    rw [hf, hj]
  have e2 : (s.w.look a).fetch M a d = { s.w with
      node := Function.update s.w.node a g
      nodeAt := Function.update s.w.nodeAt a (.sent c s.w.p.currentRoundNum) } := by
    rw [e1]
    unfold Overlap.fetch
    dsimp only
    rw [Function.update_self]
    dsimp only
    rw [hsd]
    dsimp only
    rw [Function.update_idem]
  have hacc : ∃ p', exec M.env s.w.p ⟨a, 0⟩ c = some p' := by
    rcases one_accepted h2 hadd hs with hh | ⟨⟨pk, rfl⟩, hh⟩ | ⟨⟨pp, pr, rfl⟩, hh⟩ | ⟨⟨e, rfl⟩, hh⟩
    · exact hh
    · exfalso
      cases j with
      | register => rw [hr rfl] at hh; exact Nat.lt_irrefl _ hh
      | deal =>
        have := deals_of_send hd hsd
        obtain ⟨_, _, pp, pr, e, _⟩ := this
        cases e
      | eval b =>
        obtain ⟨g', e, q, _⟩ := one_eval hM.sound hi.one hadd hl.2.1 hl.2.2.2 d
        rw [q] at hsd
        cases hsd
    · exfalso
      unfold nodeLook at hj
      dsimp only at hj
      split at hj
      · cases hp : s.w.p.contractPhase with
        | Nidkg => rw [hp] at hj; dsimp only at hj; rw [hh] at hj; cases hj
        | Unregistered => have := hs.1; rw [hp] at this; exact absurd this (by decide)
        | Registered => rw [hp] at hj; cases hj
        | NidkgComplete => rw [hp] at hj; cases hj
        | Ready =>
          rw [hp] at hj
          dsimp only at hj
          split at hj
          · cases Option.some.inj hj
            obtain ⟨g', e, q, _⟩ := one_eval hM.sound hi.one hadd hl.2.1 hl.2.2.2 d
            rw [q] at hsd
            cases hsd
          · cases hj
      · cases hj
    · exfalso
      cases j with
      | register =>
        obtain ⟨f', c', q, _, _⟩ := one_register hi.one hadd hl.2 d hd.sk 0
        have hz := q
        unfold Services.registerNode at hz
        dsimp only at hz
        split at hz
        · cases hz
        · have hsd' : Services.registerNode (s.w.node a) d = .send g (.submitPartialEval e) := hsd
          rw [q] at hsd'
          cases hsd'
          cases hz
      | deal =>
        obtain ⟨_, _, pp, pr, e, _⟩ := deals_of_send hd hsd
        cases e
      | eval b =>
        obtain ⟨q1, q2⟩ := hq b rfl
        rcases hh with hh | hh
        · exact q1 hh
        · omega
  obtain ⟨p', he⟩ := hacc
  have e3 : pass M s.w a d = { s.w with p := p', node := Function.update s.w.node a g } := by
    unfold Overlap.pass
    rw [e2]
    unfold Overlap.land
    dsimp only
    rw [Function.update_self]
    dsimp only
    rw [he]
    dsimp only
    rw [Function.update_idem,
      show Function.update s.w.nodeAt a Stage.free = s.w.nodeAt from Function.update_eq_self_iff.2 hf.symm]
  have hsteps : Mixed M H t n aux1 aux2 s ⟨pass M s.w a d, s.left⟩ := by
    have r1 : Mixed M H t n aux1 aux2 s ⟨s.w.look a, s.left⟩ := .single (.look a ha)
    have r2 := r1.tail (.fetch a d ha hd)
    refine r2.tail (.land a ha (fun c' k' hs' => ?_))
    dsimp only at hs' ⊢
    rw [e2] at hs' ⊢
    dsimp only at hs' ⊢
    rw [Function.update_self] at hs'
    injection hs' with hc' hk'
    subst hc' hk'
    intro e _ hne
    exact absurd rfl hne
  refine ⟨hsteps, g, c, p', hsd, he, ?_⟩
  rw [e3]
  exact ⟨rfl, rfl, rfl⟩

end

end Verif.Overlap
