import Verif.Props.ServicesLive
import Verif.Spec.Overlap
namespace Verif.Overlap
open Verif.Services
open Verif.ZkdvrfPre
open Verif.Props

/-! Invariants of services whose passes overlap. -/

/-- The files of a node with its share. -/
def HasShare (t n : ℕ) (p : State) (f : Files) (a : Address) : Prop :=
  ∃ sk i gf vf sh, f.member = some (Client.keygen sk) ∧
    p.pkList[indexOf p a]? = some (Zkdvrf.keyWords (sk • gk)) ∧ getIndexPlus p a = some i ∧
    Client.derive ⟨t, n⟩ (Client.instancesFile p.ppList) (some (i, Client.keygen sk)) =
      .ok ⟨gf, vf, some sh⟩ ∧ f.share = some sh ∧ f.vks = some vf

/-- An evaluation stored or sent for the input of round `k` by the member with index `i`. -/
def RightEval (M : Machine) (p : State) (k i : ℕ) (e : SolEval) : Prop :=
  e.z.toNat < r ∧ ∀ v V, decodeG1 e.value = some v → p.vkList[i]? = some (encodeG1 V) →
    Spec.SameLog (evalHash M.env.keccak (p.roundInput k)) V v

structure Core (M : Machine) (o : Address) (ws : List Address) (t n : ℕ) (p : State) (ad : Files)
    (nd : Address → Files) : Prop where
  t_pos : 1 ≤ t
  t_le : t ≤ n
  o_ne : o ≠ 0
  nodup : ws.Nodup
  len : ws.length = n
  reach : Reachable M.env p
  owner : p.owner = o
  thr : p.threshold = t
  cnt : p.memberCount = n
  dep : p.minNodeDeposit = 0
  added : ∀ a, Added p a ↔ a ∈ ws
  keys : ∀ a, Registered p a → ∃ sk : Fq, sk ≠ 0 ∧ (nd a).member = some (Client.keygen sk) ∧
    p.pkList[indexOf p a]? = some (Zkdvrf.keyWords (sk • gk))
  red : ∀ v ∈ p.ppList, Spec.Reduced n v
  adm : p.contractPhase = .Ready → ∃ gf vf,
    Client.derive ⟨t, n⟩ (Client.instancesFile p.ppList) none = .ok ⟨gf, vf, none⟩ ∧
    ad.gpk = some gf ∧ ad.vks = some vf
  shr : ∀ a, p.lastSubmittedRound a ≠ 0 → HasShare t n p (nd a) a
  evs : ∀ k i, Submitted p k i → RightEval M p k i (p.roundToEval k i)

/-- The transaction `c` of node `a`, made in round `k`, is in order. -/
def SentOk (M : Machine) (t n : ℕ) (p : State) (f : Files) (a : Address) (k : ℕ) : Zkdvrf.Call → Prop
  | .registerNode pk => (p.addrToNode a).status = false ∧ ∃ sk : Fq, sk ≠ 0 ∧
      pk = Zkdvrf.keyWords (sk • gk) ∧ f.member = some (Client.keygen sk)
  | .submitPublicParams pp pr => 2 ≤ p.contractPhase.rank ∧ (p.addrToNode a).statusPP = false ∧
      Spec.Reduced n pp ∧ checkPublicParams p pp = some true ∧ M.env.verifyProof pr pp = some true
  | .submitPartialEval e => 1 ≤ k ∧ k ≤ p.currentRoundNum ∧ p.lastSubmittedRound a < k ∧
      HasShare t n p f a ∧ e.indexPlus = indexOf p a + 1 ∧ RightEval M p k (indexOf p a) e ∧
      ∃ vk, p.vkList[indexOf p a]? = some vk ∧
        PseudoRandSol.verifyPartialEval M.env.keccak (p.roundInput k) e.value ⟨e.z, e.c⟩ vk = some true
  | _ => False

/-- Node `a` is where it should be. -/
def NodeOk (M : Machine) (t n : ℕ) (p : State) (f : Files) (a : Address) : Stage Job → Prop
  | .free => True
  | .decided .register => (p.addrToNode a).status = false
  | .decided .deal => 2 ≤ p.contractPhase.rank ∧ (p.addrToNode a).statusPP = false
  | .decided (.eval b) => p.lastSubmittedRound a < p.currentRoundNum ∧
      (b = true ↔ p.lastSubmittedRound a = 0)
  | .sent c k => SentOk M t n p f a k c
  | .stopped => ∃ k, Completed p k ∧ p.lastSubmittedRound a < k

/-- The transaction `c` of the admin is in order. -/
def AdminSent (M : Machine) (t n : ℕ) (p : State) (f : Files) : Zkdvrf.Call → Prop
  | .startNidkg => p.contractPhase = .Registered
  | .computeVk gpk => p.contractPhase = .NidkgComplete ∧
      (∃ out, Gpp.createGpp M.env.E p.memberCount gpk p.ppList = some out) ∧
      ∃ gf vf, Client.derive ⟨t, n⟩ (Client.instancesFile p.ppList) none = .ok ⟨gf, vf, none⟩ ∧
        f.gpk = some gf ∧ f.vks = some vf
  | .initiateRandom => p.contractPhase = .Ready ∧
      (p.currentRoundNum = 0 ∨ Completed p p.currentRoundNum)
  | .submitRandom rnd => p.contractPhase = .Ready ∧
      (p.roundToRandom p.currentRoundNum).value = 0 ∧
      p.threshold ≤ p.roundSubmissionCount p.currentRoundNum ∧
      PseudoRandSol.verifyPseudoRandFast M.env.E (p.roundHash p.currentRoundNum) rnd.proof
        p.gpkVal = some true ∧
      rnd.value = M.env.keccak (Word.bytes rnd.proof.x ++ Word.bytes rnd.proof.y)
  | _ => False

/-- The admin is where it should be. -/
def AdminOk (M : Machine) (t n : ℕ) (p : State) (f : Files) : Stage AdminJob → Prop
  | .free => True
  | .decided .start => p.contractPhase = .Registered
  | .decided .gpp => p.contractPhase = .NidkgComplete
  | .decided .open => p.contractPhase = .Ready ∧
      (p.currentRoundNum = 0 ∨ Completed p p.currentRoundNum)
  | .decided (.random k) => p.contractPhase = .Ready ∧ k = p.currentRoundNum ∧ k ≠ 0 ∧
      (p.roundToRandom p.currentRoundNum).value = 0 ∧
      p.threshold ≤ p.roundSubmissionCount p.currentRoundNum
  | .sent c _ => AdminSent M t n p f c
  | .stopped => 2 ^ 256 ≤ p.currentRoundNum + 1

structure OInv (M : Machine) (o : Address) (ws : List Address) (t n : ℕ) (w : Overlap) : Prop where
  core : Core M o ws t n w.p w.admin w.node
  nodes : ∀ a ∈ ws, NodeOk M t n w.p (w.node a) a (w.nodeAt a)
  admin : AdminOk M t n w.p w.admin w.adminAt

section
variable {M : Machine} {o : Address} {ws : List Address} {t n : ℕ} {p : State} {ad : Files}
  {nd : Address → Files}

theorem Core.ht (h : Core M o ws t n p ad nd) : 1 ≤ p.threshold := by rw [h.thr]; exact h.t_pos

theorem Core.self (h : Core M o ws t n p ad nd) {a : Address} (ha : a ∈ ws) :
    (p.addrToNode a).nodeAddress = a ∧ a ≠ 0 := by
  obtain ⟨_, o1, o2, hz⟩ := sim h.reach h.ht
  have hadd := (h.added a).2 ha
  have hs : (p.addrToNode a).nodeAddress = a := (Zkdvrf.regInv hz).addr_self a hadd
  refine ⟨hs, ?_⟩
  rintro rfl
  exact hadd hs

theorem Core.unreg (h : Core M o ws t n p ad nd) {a : Address} (ha : a ∈ ws)
    (hs : (p.addrToNode a).status = false) : p.contractPhase = .Unregistered := by
  by_contra hp
  have := ((C31_pre_registration M.env h.reach h.ht).2.2.2.2.2.2 hp).2 a ((h.added a).2 ha)
  unfold Registered at this
  rw [hs] at this
  cases this

theorem Core.registered (h : Core M o ws t n p ad nd) {a : Address} (ha : a ∈ ws)
    (hp : p.contractPhase ≠ .Unregistered) : Registered p a :=
  ((C31_pre_registration M.env h.reach h.ht).2.2.2.2.2.2 hp).2 a ((h.added a).2 ha)

theorem Core.dealing (h : Core M o ws t n p ad nd) {a : Address} (ha : a ∈ ws)
    (hk : 2 ≤ p.contractPhase.rank) (hs : (p.addrToNode a).statusPP = false) :
    p.contractPhase = .Nidkg := by
  obtain ⟨_, o1, o2, hz⟩ := sim h.reach h.ht
  have hd := Zkdvrf.dkgInv hz
  have late : p.contractPhase = .NidkgComplete ∨ p.contractPhase = .Ready → False := by
    intro hp
    have h1 : p.ppSubmissionCount = p.memberCount :=
      hd.late (hp.imp toZk_complete.2 toZk_ready.2)
    have h2 : o2.length = p.ppSubmissionCount := hd.ordLen
    have h3 : o2 ⊆ ws.erase a := by
      intro b hb
      have hb' := (hd.ppMem b).1 hb
      have hr := (Zkdvrf.regInv hz).reg_idx b (hd.ppReg b hb')
      have hba : b ≠ a := by
        rintro rfl
        change (p.addrToNode b).statusPP = true at hb'
        rw [hs] at hb'
        cases hb'
      have hbw : b ∈ ws :=
        (h.added b).1 ((C31_pre_registration M.env h.reach h.ht).1 b (hd.ppReg b hb'))
      exact (List.mem_erase_of_ne hba).2 hbw
    have h4 := (List.Nodup.subperm hd.nodup h3).length_le
    rw [List.length_erase_of_mem ha] at h4
    have h5 := h.cnt
    have h6 := h.len
    have h7 := h.t_pos
    have h8 := h.t_le
    have h9 : o2.length ≤ ws.length - 1 := h4
    omega
  cases hp : p.contractPhase with
  | Unregistered => rw [hp] at hk; exact absurd hk (by decide)
  | Registered => rw [hp] at hk; exact absurd hk (by decide)
  | Nidkg => rfl
  | NidkgComplete => exact (late (Or.inl hp)).elim
  | Ready => exact (late (Or.inr hp)).elim

theorem Core.ready (h : Core M o ws t n p ad nd) {k : ℕ} (hk : k < p.currentRoundNum) :
    p.contractPhase = .Ready :=
  (C34_pre_rounds M.env h.reach h.ht).2.2.2 (by omega)

end

/-- What a step of another service leaves as it is, for node `a`. -/
structure Frame (a : Address) (p p' : State) : Prop where
  node : p'.addrToNode a = p.addrToNode a
  last : p'.lastSubmittedRound a = p.lastSubmittedRound a
  cur : p.currentRoundNum ≤ p'.currentRoundNum
  rank : p.contractPhase.rank ≤ p'.contractPhase.rank
  input : ∀ k ≤ p.currentRoundNum, p'.roundInput k = p.roundInput k
  chk : 2 ≤ p.contractPhase.rank → ∀ pp, checkPublicParams p' pp = checkPublicParams p pp
  pk : p.contractPhase = .Ready → p'.pkList = p.pkList
  pp : p.contractPhase = .Ready → p'.ppList = p.ppList
  vk : p.contractPhase = .Ready → p'.vkList = p.vkList
  done : ∀ k, Completed p k → Completed p' k

section
variable {M : Machine} {t n : ℕ} {p p' : State} {a : Address}

theorem HasShare.frame {f : Files} (hf : Frame a p p') (hp : p.contractPhase = .Ready)
    (h : HasShare t n p f a) : HasShare t n p' f a := by
  unfold HasShare indexOf getIndexPlus at *
  rw [hf.node, hf.pk hp, hf.pp hp]
  exact h

theorem RightEval.frame {e : SolEval} {k i : ℕ} (hf : Frame a p p') (hp : p.contractPhase = .Ready)
    (hk : k ≤ p.currentRoundNum) (h : RightEval M p k i e) : RightEval M p' k i e := by
  unfold RightEval at *
  rw [hf.input k hk, hf.vk hp]
  exact h

theorem NodeOk.frame {f : Files} {st : Stage Job} (hf : Frame a p p')
    (hr : ∀ k, k < p.currentRoundNum → p.contractPhase = .Ready)
    (h : NodeOk M t n p f a st) : NodeOk M t n p' f a st := by
  cases st with
  | free => trivial
  | decided j =>
    cases j with
    | register => change _ = _ at h; change _ = _; rw [hf.node]; exact h
    | deal => exact ⟨h.1.trans hf.rank, by rw [hf.node]; exact h.2⟩
    | eval b =>
      refine ⟨?_, ?_⟩
      · rw [hf.last]; exact lt_of_lt_of_le h.1 hf.cur
      · rw [hf.last]; exact h.2
  | stopped =>
    obtain ⟨k, h1, h2⟩ := h
    exact ⟨k, hf.done k h1, by rw [hf.last]; exact h2⟩
  | sent c k =>
    cases c with
    | registerNode pk => exact ⟨by rw [hf.node]; exact h.1, h.2⟩
    | submitPublicParams pp pr =>
      exact ⟨h.1.trans hf.rank, by rw [hf.node]; exact h.2.1, h.2.2.1,
        by rw [hf.chk h.1]; exact h.2.2.2.1, h.2.2.2.2⟩
    | submitPartialEval e =>
      obtain ⟨h1, h2, h3, h4, h5, h6, h7⟩ := h
      have hp := hr _ (lt_of_lt_of_le h3 h2)
      refine ⟨h1, h2.trans hf.cur, by rw [hf.last]; exact h3, h4.frame hf hp, ?_, ?_, ?_⟩
      · unfold indexOf at *; rw [hf.node]; exact h5
      · have := h6.frame hf hp h2
        unfold indexOf at *; rw [hf.node]; exact this
      · unfold indexOf at *; rw [hf.node, hf.vk hp, hf.input k h2]; exact h7
    | _ => exact h

end

/-- Which calls a node makes. -/
def NodeCall : Zkdvrf.Call → Prop
  | .registerNode _ | .submitPublicParams _ _ | .submitPartialEval _ => True
  | _ => False

/-- Which calls the admin makes. -/
def AdminCall : Zkdvrf.Call → Prop
  | .startNidkg | .computeVk _ | .initiateRandom | .submitRandom _ => True
  | _ => False

theorem frame_node {env : Env} {p p' : State} {a s : Address} {c : Zkdvrf.Call} (hc : NodeCall c) (hs : a ≠ s)
    (he : exec env p ⟨s, 0⟩ c = some p') : Frame a p p' := by
  cases c with
  | registerNode pk =>
    obtain ⟨h1, _, _, _, _, _, _, rfl⟩ := registerNode_some.1 he
    refine ⟨Function.update_of_ne hs _ _, rfl, le_rfl, ?_, fun _ _ => rfl, ?_, ?_, fun _ => rfl,
      fun _ => rfl, fun _ h => h⟩
    · dsimp only; rw [h1]; exact Nat.zero_le _
    · rw [h1]; intro h; exact absurd h (by decide)
    · rw [h1]; intro h; cases h
  | submitPublicParams pp pr =>
    obtain ⟨_, _, h1, _, _, _, _, rfl⟩ := submitPublicParams_some.1 he
    refine ⟨Function.update_of_ne hs _ _, rfl, le_rfl, ?_, fun _ _ => rfl, fun _ _ => rfl, fun _ => rfl, ?_,
      fun _ => rfl, fun _ h => h⟩
    · dsimp only; rw [h1]; split <;> decide
    · rw [h1]; intro h; cases h
  | submitPartialEval e =>
    obtain ⟨_, _, _, _, _, _, _, _, rfl⟩ := submitPartialEval_some.1 he
    exact ⟨rfl, Function.update_of_ne hs _ _, le_rfl, le_rfl, fun _ _ => rfl, fun _ _ => rfl, fun _ => rfl,
      fun _ => rfl, fun _ => rfl, fun _ h => h⟩
  | _ => exact hc.elim

theorem frame_admin {env : Env} {p p' : State} {a s : Address} {c : Zkdvrf.Call} (hc : AdminCall c)
    (he : exec env p ⟨s, 0⟩ c = some p') : Frame a p p' := by
  cases c with
  | startNidkg =>
    obtain ⟨_, _, h1, rfl⟩ := startNidkg_some.1 he
    refine ⟨rfl, rfl, le_rfl, ?_, fun _ _ => rfl, fun _ _ => rfl, fun _ => rfl, fun _ => rfl,
      fun _ => rfl, fun _ h => h⟩
    rw [h1]; dsimp only; decide
  | computeVk gpk =>
    obtain ⟨_, h1, out, _, rfl⟩ := computeVk_some.1 he
    refine ⟨rfl, rfl, le_rfl, ?_, fun _ _ => rfl, fun _ _ => rfl, fun _ => rfl, fun _ => rfl,
      ?_, fun _ h => h⟩
    · rw [h1]; dsimp only; decide
    · rw [h1]; intro h; cases h
  | initiateRandom =>
    obtain ⟨_, _, _, _, _, h, _, rfl⟩ := initiateRandom_some.1 he
    refine ⟨rfl, rfl, Nat.le_succ _, le_rfl, ?_, fun _ _ => rfl, fun _ => rfl, fun _ => rfl, fun _ => rfl,
      fun _ h => h⟩
    intro k hk
    exact Function.update_of_ne (by omega) _ _
  | submitRandom rnd =>
    obtain ⟨_, _, h0, _, _, _, rfl⟩ := submitRandom_some.1 he
    refine ⟨rfl, rfl, le_rfl, le_rfl, fun _ _ => rfl, fun _ _ => rfl, fun _ => rfl, fun _ => rfl, fun _ => rfl,
      ?_⟩
    intro k hk
    unfold Completed at *
    dsimp only
    rw [Function.update_of_ne]
    · exact hk
    · rintro rfl
      exact hk h0
  | _ => exact hc.elim

theorem AdminOk.frame {M : Machine} {t n : ℕ} {p p' : State} {s : Address} {c : Zkdvrf.Call} {f : Files}
    {st : Stage AdminJob} (hc : NodeCall c) (he : exec M.env p ⟨s, 0⟩ c = some p')
    (h : AdminOk M t n p f st) : AdminOk M t n p' f st := by
  cases c with
  | registerNode pk =>
    obtain ⟨h1, _, _, _, _, _, _, rfl⟩ := registerNode_some.1 he
    cases st with
    | free => trivial
    | stopped => exact h
    | decided j =>
      cases j with
      | start => exact absurd (h1.symm.trans h) Phase.noConfusion
      | gpp => exact absurd (h1.symm.trans h) Phase.noConfusion
      | «open» => exact absurd (h1.symm.trans h.1) Phase.noConfusion
      | random k => exact absurd (h1.symm.trans h.1) Phase.noConfusion
    | sent c k =>
      cases c with
      | startNidkg => exact absurd (h1.symm.trans h) Phase.noConfusion
      | computeVk g => exact absurd (h1.symm.trans h.1) Phase.noConfusion
      | initiateRandom => exact absurd (h1.symm.trans h.1) Phase.noConfusion
      | submitRandom rnd => exact absurd (h1.symm.trans h.1) Phase.noConfusion
      | _ => exact h
  | submitPublicParams pp pr =>
    obtain ⟨_, _, h1, _, _, _, _, rfl⟩ := submitPublicParams_some.1 he
    cases st with
    | free => trivial
    | stopped => exact h
    | decided j =>
      cases j with
      | start => exact absurd (h1.symm.trans h) Phase.noConfusion
      | gpp => exact absurd (h1.symm.trans h) Phase.noConfusion
      | «open» => exact absurd (h1.symm.trans h.1) Phase.noConfusion
      | random k => exact absurd (h1.symm.trans h.1) Phase.noConfusion
    | sent c k =>
      cases c with
      | startNidkg => exact absurd (h1.symm.trans h) Phase.noConfusion
      | computeVk g => exact absurd (h1.symm.trans h.1) Phase.noConfusion
      | initiateRandom => exact absurd (h1.symm.trans h.1) Phase.noConfusion
      | submitRandom rnd => exact absurd (h1.symm.trans h.1) Phase.noConfusion
      | _ => exact h
  | submitPartialEval e =>
    obtain ⟨_, _, _, _, _, _, _, _, hp'⟩ := submitPartialEval_some.1 he
    have hcount : p.roundSubmissionCount p.currentRoundNum ≤
        p'.roundSubmissionCount p.currentRoundNum := by
      rw [← hp']
      dsimp only
      rw [Function.update_self]
      exact Nat.le_succ _
    have e1 : p'.contractPhase = p.contractPhase := by rw [← hp']
    have e2 : p'.currentRoundNum = p.currentRoundNum := by rw [← hp']
    have e3 : p'.roundToRandom = p.roundToRandom := by rw [← hp']
    have e4 : p'.threshold = p.threshold := by rw [← hp']
    have e5 : p'.memberCount = p.memberCount := by rw [← hp']
    have e6 : p'.ppList = p.ppList := by rw [← hp']
    have e7 : p'.roundHash = p.roundHash := by rw [← hp']
    have e8 : p'.gpkVal = p.gpkVal := by rw [← hp']
    clear hp'
    cases st with
    | free => trivial
    | stopped => change _ ≤ _ at h; change _ ≤ _; rw [e2]; exact h
    | decided j =>
      cases j with
      | start => exact e1.trans h
      | gpp => exact e1.trans h
      | «open» => exact ⟨e1.trans h.1, by unfold Completed; rw [e2, e3]; exact h.2⟩
      | random k =>
        obtain ⟨h1, h2, h3, h4, h5⟩ := h
        refine ⟨e1.trans h1, by rw [e2]; exact h2, h3, by rw [e2, e3]; exact h4, ?_⟩
        rw [e2, e4]
        exact h5.trans hcount
    | sent c k =>
      cases c with
      | startNidkg => exact e1.trans h
      | computeVk g =>
        obtain ⟨h1, h2, h3⟩ := h
        refine ⟨e1.trans h1, ?_, ?_⟩
        · rw [e5, e6]; exact h2
        · rw [e6]; exact h3
      | initiateRandom => exact ⟨e1.trans h.1, by unfold Completed; rw [e2, e3]; exact h.2⟩
      | submitRandom rnd =>
        obtain ⟨h1, h2, h3, h4, h5⟩ := h
        refine ⟨e1.trans h1, by rw [e2, e3]; exact h2, ?_, ?_, h5⟩
        · rw [e2, e4]; exact h3.trans hcount
        · rw [e2, e7, e8]; exact h4
      | _ => exact h
  | _ => exact hc.elim

end Verif.Overlap
