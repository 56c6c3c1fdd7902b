import Verif.Lemmas.ZkdvrfMono
import Verif.Lemmas.GppDealing
import Verif.Lemmas.Instance

/-! Progress of contracts/zkdvrf.sol. -/

namespace Verif.Zkdvrf
open WeierstrassCurve.Affine

/-- The call is not `submitRandom`. -/
def Call.isSetup : Call → Bool
  | .submitRandom _ => false
  | _ => true

/-- A sequence of successful calls without `submitRandom` leads from `s` to `s'`. -/
inductive SetupLater (env : Env) (s : State) : State → Prop
  | refl : SetupLater env s s
  | calls {s' s''} {m : Msg} {c : Call} (h : SetupLater env s s') (hm : m.sender ≠ 0)
      (he : exec env s' m c = some s'') (hc : c.isSetup = true) : SetupLater env s s''

theorem SetupLater.call {env : Env} {s s' s'' : State} (h : SetupLater env s s') {m : Msg}
    {c : Call} (hm : m.sender ≠ 0) (he : exec env s' m c = some s'')
    (hc : c.isSetup = true := by rfl) : SetupLater env s s'' := h.calls hm he hc

theorem SetupLater.later {env : Env} {s s' : State} (h : SetupLater env s s') :
    Later env s s' := by
  induction h with
  | refl => exact .refl
  | calls _ hm he _ ih => exact ih.call hm he

theorem SetupLater.trans {env : Env} {s s' s'' : State} (h : SetupLater env s s')
    (h' : SetupLater env s' s'') : SetupLater env s s'' := by
  induction h' with
  | refl => exact h
  | calls _ hm he hc ih => exact ih.calls hm he hc

theorem SetupLater.reachable {env : Env} {s s' : State} (h : SetupLater env s s')
    (hr : Reachable env s) : Reachable env s' := h.later.reachable hr

theorem SetupLater.keeps {env : Env} {s s' : State} (h : SetupLater env s s')
    (hr : Reachable env s) : Keeps s s' := h.later.keeps hr

theorem fresh_address (A : Finset Address) (hA : A.card < 2 ^ 32) : ∃ a, a ≠ 0 ∧ a ∉ A := by
  let f : ℕ → Address := fun i => BitVec.ofNat 160 (i + 1)
  have hinj : Set.InjOn f (Finset.range (A.card + 1) : Set ℕ) := by
    intro i hi j hj hij
    have hi := Finset.mem_range.1 (Finset.mem_coe.1 hi)
    have hj := Finset.mem_range.1 (Finset.mem_coe.1 hj)
    have := congrArg BitVec.toNat hij
    simp only [f, BitVec.toNat_ofNat] at this
    rw [Nat.mod_eq_of_lt (by omega), Nat.mod_eq_of_lt (by omega)] at this
    omega
  have hc : A.card < ((Finset.range (A.card + 1)).image f).card := by
    rw [Finset.card_image_of_injOn hinj, Finset.card_range]; omega
  obtain ⟨a, ha, hn⟩ := Finset.exists_mem_notMem_of_card_lt_card hc
  obtain ⟨i, hi, rfl⟩ := Finset.mem_image.1 ha
  have hi := Finset.mem_range.1 hi
  refine ⟨_, ?_, hn⟩
  intro h0
  have := congrArg BitVec.toNat h0
  simp only [f, BitVec.toNat_ofNat] at this
  rw [Nat.mod_eq_of_lt (by omega)] at this
  simp at this

/-- The owner can add the missing members. -/
theorem add_all {env : Env} : ∀ (d : ℕ) (s : State), Reachable env s →
    s.contractPhase = .Unregistered → s.owner ≠ 0 → s.memberCount - s.currentIndex = d →
    ∃ s', SetupLater env s s' ∧ s'.contractPhase = .Unregistered ∧ s'.owner = s.owner ∧
      s'.currentIndex = s'.memberCount ∧ s'.pkList = s.pkList ∧ s'.ppList = s.ppList
  | 0, s, hr, hp, ho, hd => by
    refine ⟨s, .refl, hp, rfl, ?_, rfl, rfl⟩
    have := (regInv hr).idx_le
    omega
  | d + 1, s, hr, hp, ho, hd => by
    obtain ⟨A, hA, hm⟩ := (regInv hr).added
    have hb := (regInv hr).bound
    obtain ⟨a, ha, hn⟩ := fresh_address A (by omega)
    rw [hm, not_not] at hn
    have he : exec env s ⟨s.owner, 0⟩ (.addPermissionedNodes a) = some _ :=
      addPermissionedNodes_some.2 ⟨rfl, rfl, by omega, ha, hn, by omega, rfl⟩
    obtain ⟨s', h1, h2, h3, h4, h5, h6⟩ := add_all d _ (hr.call (m := ⟨s.owner, 0⟩) ho he) hp ho
      (by change s.memberCount - (s.currentIndex + 1) = d; omega)
    exact ⟨s', (SetupLater.refl.call (m := ⟨s.owner, 0⟩) ho he).trans h1, h2, h3, h4, h5, h6⟩

/-- The added members can register. -/
theorem register_all {env : Env} (k : GrumpkinSol.Point) (hk : GrumpkinSol.isOnCurve k = true) :
    ∀ (d : ℕ) (s : State), Reachable env s →
    s.contractPhase = .Unregistered → s.currentIndex = s.memberCount →
    s.memberCount - s.registeredCount = d →
    ∃ s', SetupLater env s s' ∧ s'.contractPhase = .Unregistered ∧ s'.owner = s.owner ∧
      s'.registeredCount = s'.memberCount ∧ ∃ d, s'.pkList = s.pkList ++ List.replicate d k ∧
        s'.ppList = s.ppList
  | 0, s, hr, hp, hc, hd => by
    refine ⟨s, .refl, hp, rfl, ?_, 0, by simp, rfl⟩
    have := (regInv hr).reg_card
    omega
  | d + 1, s, hr, hp, hc, hd => by
    have hreg := regInv hr
    obtain ⟨A, hA, hm⟩ := hreg.added
    have hb := hreg.bound
    have hlt : ((Finset.range s.registeredCount).image s.nodes).card < A.card := by
      refine lt_of_le_of_lt Finset.card_image_le ?_
      rw [Finset.card_range]; omega
    obtain ⟨a, ha, hn⟩ := Finset.exists_mem_notMem_of_card_lt_card hlt
    have ha' := (hm a).1 ha
    have hself := hreg.addr_self a ha'
    have h0 : a ≠ 0 := by rw [← hself]; exact ha'
    have hst : (s.addrToNode a).status = false := by
      cases hs : (s.addrToNode a).status with
      | false => rfl
      | true =>
        exfalso
        have := hreg.reg_idx a hs
        exact hn (Finset.mem_image.2 ⟨_, Finset.mem_range.2 this.1, this.2.1⟩)
    have hpk := hreg.pkIdx
    have he : exec env s ⟨a, s.minNodeDeposit⟩ (.registerNode k) = some _ :=
      registerNode_some.2 ⟨hp, hself.symm, hst, le_rfl, hk, by omega, by omega, rfl⟩
    obtain ⟨s', h1, h2, h3, h4, e, h5, h6⟩ := register_all k hk d _
      (hr.call (m := ⟨a, s.minNodeDeposit⟩) h0 he) hp hc
      (by change s.memberCount - (s.registeredCount + 1) = d; omega)
    refine ⟨s', (SetupLater.refl.call (m := ⟨a, s.minNodeDeposit⟩) h0 he).trans h1, h2, h3, h4,
      e + 1, ?_, h6⟩
    rw [h5, List.replicate_succ, List.append_assoc]
    rfl

theorem start {env : Env} (k : GrumpkinSol.Point) (hk : GrumpkinSol.isOnCurve k = true)
    {s : State} (hr : Reachable env s) (hp : s.contractPhase = .Unregistered) (ho : s.owner ≠ 0) :
    ∃ s', SetupLater env s s' ∧ s'.contractPhase = .Nidkg ∧ s'.owner = s.owner ∧
      ∃ d, s'.pkList = s.pkList ++ List.replicate d k ∧ s'.ppList = s.ppList := by
  obtain ⟨s1, a1, a2, a3, a4, a5, a6⟩ := add_all _ s hr hp ho rfl
  obtain ⟨s2, b1, b2, b3, b4, d, b5, b6⟩ := register_all k hk _ s1 (a1.reachable hr) a2 a4 rfl
  have he : exec env s2 ⟨s.owner, 0⟩ .startNidkg = some _ :=
    startNidkg_some.2 ⟨rfl, by rw [b3, a3], b2, b4, rfl⟩
  refine ⟨_, (a1.trans b1).call (m := ⟨s.owner, 0⟩) ho he, rfl, by rw [← a3, ← b3], d, ?_, b6.trans a6⟩
  rw [← a5]
  exact b5

theorem words_keys (pks : List Gk) :
    wordsOf (pks.flatMap encGk) = (pks.map keyWords).flatMap (fun k => [k.x, k.y]) := by
  induction pks with
  | nil => rfl
  | cons P pks ih =>
    rw [List.flatMap_cons, List.map_cons, List.flatMap_cons, ← ih]
    rfl

/-- Words of a library instance: right length, keys at the end. -/
theorem instance_keys {n : ℕ} {ip : Bool} {pp : DkgMemberPublicParams} {pks : List Gk}
    {ins : List Fr} (hs : pp.publicShares.length = n) (hc : pp.ciphers.length = n)
    (hp : pks.length = n) (h5 : pp.toInstance ip pks = .ok ins) :
    (wordsOf ins).length = 7 * n + 14 ∧
      (wordsOf ins).drop (5 * n + 14) = (pks.map keyWords).flatMap (fun k => [k.x, k.y]) := by
  rw [toInstance_eq ip pp pks (by rw [hs, hp])] at h5
  split at h5
  · cases h5
  · cases h5
    rw [← words_keys]
    have e : wordsOf (encParams pp pks) = wordsOf (enc1 pp.ga ++ pp.publicShares.flatMap enc1 ++
        enc2 pp.g2a ++ encGk pp.gr ++ pp.ciphers) ++ wordsOf (pks.flatMap encGk) := by
      simp only [encParams, wordsOf, List.map_append, List.append_assoc]
    have hl1 : (wordsOf (enc1 pp.ga ++ pp.publicShares.flatMap enc1 ++
        enc2 pp.g2a ++ encGk pp.gr ++ pp.ciphers)).length = 5 * n + 14 := by
      have e2 : (enc2 pp.g2a).length = 8 := rfl
      have e3 : (encGk pp.gr).length = 2 := rfl
      simp only [wordsOf, List.length_map, List.length_append, length_enc1,
        length_flatMap_const enc1 4 (fun _ => rfl), hs, hc, e2, e3]
      omega
    have hl2 : (wordsOf (pks.flatMap encGk)).length = 2 * n := by
      rw [wordsOf, List.length_map, length_flatMap_const encGk 2 (fun _ => rfl), hp]; ring
    constructor
    · rw [e, List.length_append, hl1, hl2]; ring
    · rw [e, ← hl1, List.drop_left]

theorem key_list_inj : ∀ (a b : List GrumpkinSol.Point), a.length = b.length →
    a.flatMap (fun k => [k.x, k.y]) = b.flatMap (fun k => [k.x, k.y]) → a = b
  | [], [], _, _ => rfl
  | P :: a, Q :: b, hl, h => by
    rw [List.flatMap_cons, List.flatMap_cons] at h
    simp only [List.cons_append, List.nil_append, List.cons.injEq] at h
    rw [key_list_inj a b (by simpa using hl) h.2.2]
    have hh : ∀ u v : GrumpkinSol.Point, u.x = v.x → u.y = v.y → u = v := by
      rintro ⟨_, _⟩ ⟨_, _⟩ h1 h2
      dsimp only at h1 h2
      rw [h1, h2]
    rw [hh _ _ h.1 h.2.1]

/-- The remaining members can submit parameters. -/
theorem submit_all {env : Env} {t : ℕ} (pp : List Word) (pr : List Byte)
    (hv : env.verifyProof pr pp = some true) :
    ∀ (d : ℕ) (s : State), Reachable env s → s.contractPhase = .Nidkg → s.memberCount ≠ 0 →
    checkPublicParams s pp = some true →
    s.memberCount - s.ppSubmissionCount = d →
    ∃ s', SetupLater env s s' ∧ s'.contractPhase = .NidkgComplete ∧ s'.owner = s.owner ∧
      ∀ w ∈ s'.ppList, w = pp ∨ w ∈ s.ppList
  | 0, s, hr, hp, hn, hc, hd => by
    rcases (dkgInv hr).nidkg hp with h | h
    · omega
    · exact absurd h hn
  | d + 1, s, hr, hp, hn, hc, hd => by
    have hreg := regInv hr
    have hdkg := dkgInv hr
    have hb := hreg.bound
    have hstart := hreg.started (by rw [hp]; exact Phase.noConfusion)
    -- some registered node has not submitted
    have hlt : s.ppListOrder.toFinset.card < ((Finset.range s.registeredCount).image s.nodes).card := by
      have hinj : Set.InjOn s.nodes (Finset.range s.registeredCount : Set ℕ) := by
        intro i hi j hj hij
        have hi := Finset.mem_range.1 (Finset.mem_coe.1 hi)
        have hj := Finset.mem_range.1 (Finset.mem_coe.1 hj)
        have h1 := (hreg.reg_node i hi).2
        have h2 := (hreg.reg_node j hj).2
        rw [hij] at h1
        omega
      rw [Finset.card_image_of_injOn hinj, Finset.card_range]
      refine lt_of_le_of_lt (List.toFinset_card_le _) ?_
      rw [hdkg.ordLen]; omega
    obtain ⟨a, ha, hna⟩ := Finset.exists_mem_notMem_of_card_lt_card hlt
    obtain ⟨i, hi, rfl⟩ := Finset.mem_image.1 ha
    have hi := Finset.mem_range.1 hi
    have hst := (hreg.reg_node i hi).1
    have hself := (hreg.reg_idx _ hst).2.2.1
    have h0 : s.nodes i ≠ 0 := by
      intro h0
      rw [h0] at hst hself
      rw [hreg.empty 0 hself] at hst
      cases hst
    have hpp : (s.addrToNode (s.nodes i)).statusPP = false := by
      cases hs : (s.addrToNode (s.nodes i)).statusPP with
      | false => rfl
      | true => exact absurd (List.mem_toFinset.2 ((hdkg.ppMem _).2 hs)) hna
    have he : exec env s ⟨s.nodes i, 0⟩ (.submitPublicParams pp pr) = some _ :=
      submitPublicParams_some.2 ⟨rfl, hself.symm, hp, hpp, hc, hv, by omega, rfl⟩
    by_cases hlast : s.ppSubmissionCount + 1 = s.memberCount
    · refine ⟨_, SetupLater.refl.call (m := ⟨s.nodes i, 0⟩) h0 he, ?_, rfl, ?_⟩
      · simp only [if_pos hlast]
      · intro w hw
        simp only [List.mem_append, List.mem_singleton] at hw
        exact hw.symm
    · obtain ⟨s', h1, h2, h3, h4⟩ := submit_all (t := t) pp pr hv d _
        (hr.call (m := ⟨s.nodes i, 0⟩) h0 he) (by simp only [if_neg hlast]; exact hp) hn hc
        (by change s.memberCount - (s.ppSubmissionCount + 1) = d; omega)
      refine ⟨s', (SetupLater.refl.call (m := ⟨s.nodes i, 0⟩) h0 he).trans h1, h2, h3, ?_⟩
      intro w hw
      rcases h4 w hw with h | h
      · exact Or.inl h
      · simp only [List.mem_append, List.mem_singleton] at h
        exact h.symm

/-- With a sound proof system the stored parameters are dealings. -/
theorem ppList_dealings {env : Env} {s : State} (hr : Reachable env s)
    (hs : Spec.SnarkSound env s.threshold s.memberCount) :
    ∀ w ∈ s.ppList, ∃ coeffs, DealtWords s.threshold s.memberCount coeffs w := by
  intro w hw
  obtain ⟨proof, h1, h2, _⟩ := (dkgInv hr).ppOk w hw
  obtain ⟨auxG1, auxG2, hs⟩ := hs
  obtain ⟨ins, rfl, h3⟩ := hs proof w h1 h2
  exact synthesize_dealt h3

/-- The group polynomial. -/
theorem group_poly {env : Env} {s : State} (hr : Reachable env s) (hp : s.contractPhase = .Ready)
    (hs : Spec.SnarkSound env s.threshold s.memberCount) :
    ∃ F : List Fr, F.length = s.threshold ∧ s.gpkVal = encodeG2 (smul2 (Spec.poly F 0) g2) ∧
      s.vkList = (List.range s.memberCount).map
        (fun j => encodeG1 (Spec.poly F ((j + 1 : ℕ) : Fr) • g1)) := by
  have hdkg := dkgInv hr
  have hb := (regInv hr).bound
  obtain ⟨F, h1, h2⟩ := createGpp_dealings env.E (t := s.threshold) (n := s.memberCount) (by omega)
    s.ppList (by rw [hdkg.ppLen, hdkg.late (Or.inr hp)]) (ppList_dealings hr hs)
    (createGpp_reduced (hdkg.ready hp))
  obtain ⟨h3, h4⟩ := (h2 _ _).1 (hdkg.ready hp)
  refine ⟨F, h1, h3, ?_⟩
  exact congrArg Prod.snd h4

theorem finish {env : Env} {s : State} (hr : Reachable env s)
    (hp : s.contractPhase = .NidkgComplete)
    (hs : Spec.SnarkSound env s.threshold s.memberCount)
    (hred : ∀ w ∈ s.ppList, Spec.Reduced s.memberCount w) :
    ∃ s', SetupLater env s s' ∧ s'.contractPhase = .Ready ∧ s'.owner = s.owner ∧
      s'.currentRoundNum = 0 := by
  have hdkg := dkgInv hr
  have hb := (regInv hr).bound
  obtain ⟨F, h1, h2⟩ := createGpp_dealings env.E (t := s.threshold) (n := s.memberCount) (by omega)
    s.ppList (by rw [hdkg.ppLen, hdkg.late (Or.inl hp)]) (ppList_dealings hr hs) hred
  have he : exec env s ⟨1, 0⟩ (.computeVk (encodeG2 (smul2 (Spec.poly F 0) g2))) = some _ :=
    computeVk_some.2 ⟨rfl, hp, _, (h2 _ _).2 ⟨rfl, rfl⟩, rfl⟩
  exact ⟨_, SetupLater.refl.call (m := ⟨1, 0⟩) (by decide) he, rfl, rfl,
    (hdkg.pre (by rw [hp]; exact Phase.noConfusion)).2.2⟩

end Verif.Zkdvrf
