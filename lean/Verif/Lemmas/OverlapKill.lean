import Verif.Lemmas.OverlapFair
import Verif.Spec.OverlapKill
namespace Verif.Overlap
open Verif.Services
open Verif.ZkdvrfPre
open Verif.Props

/-! Invariants of services that are killed and started again while their passes overlap. -/

/-- The transaction `c` of node `a`, made in round `k`, was in order when it was sent. -/
def SentWas (M : Machine) (t n : ℕ) (p : State) (f : Files) (a : Address) (k : ℕ) : Zkdvrf.Call → Prop
  | .registerNode pk => SentOk M t n p f a k (.registerNode pk)
  | .submitPublicParams pp pr => 2 ≤ p.contractPhase.rank ∧
      ((p.addrToNode a).statusPP = false → SentOk M t n p f a k (.submitPublicParams pp pr))
  | .submitPartialEval e => p.contractPhase = .Ready ∧ 1 ≤ k ∧ k ≤ p.currentRoundNum ∧
      HasShare t n p f a ∧ e.indexPlus = indexOf p a + 1 ∧ RightEval M p k (indexOf p a) e ∧
      ∃ vk, p.vkList[indexOf p a]? = some vk ∧
        PseudoRandSol.verifyPartialEval M.env.keccak (p.roundInput k) e.value ⟨e.z, e.c⟩ vk = some true
  | _ => False

/-- Node `a` is where it can be. -/
def NodeWas (M : Machine) (t n : ℕ) (p : State) (f : Files) (a : Address) : Stage Job → Prop
  | .decided .register => (p.addrToNode a).status = false
  | .decided .deal => 2 ≤ p.contractPhase.rank
  | .decided (.eval b) => p.contractPhase = .Ready ∧ 1 ≤ p.currentRoundNum ∧
      (b = false → p.lastSubmittedRound a ≠ 0)
  | .sent c k => SentWas M t n p f a k c
  | _ => True

/-- The transaction `c` of the admin was in order when it was sent. -/
def AdminSentWas (t n : ℕ) (p : State) (f : Files) : Zkdvrf.Call → Prop
  | .computeVk _ => 3 ≤ p.contractPhase.rank ∧ AdminFiles t n p f
  | .startNidkg | .initiateRandom | .submitRandom _ => True
  | _ => False

/-- The admin is where it can be. -/
def AdminWas (t n : ℕ) (p : State) (f : Files) : Stage AdminJob → Prop
  | .decided .gpp => 3 ≤ p.contractPhase.rank
  | .sent c _ => AdminSentWas t n p f c
  | _ => True

/-- A transaction left by a killed service. -/
def LeftOk (M : Machine) (o : Address) (ws : List Address) (t n : ℕ) (w : Overlap)
    (g : Address × Zkdvrf.Call × ℕ) : Prop :=
  (g.1 ∈ ws ∧ (∀ pk, g.2.1 ≠ .registerNode pk) ∧ SentWas M t n w.p (w.node g.1) g.1 g.2.2 g.2.1) ∨
    (g.1 = o ∧ AdminSentWas t n w.p w.admin g.2.1)

structure KInv (M : Machine) (o : Address) (ws : List Address) (t n : ℕ) (s : Survivors) : Prop where
  core : Core M o ws t n s.w.p s.w.admin s.w.node
  nodes : ∀ a ∈ ws, NodeWas M t n s.w.p (s.w.node a) a (s.w.nodeAt a)
  admin : AdminWas t n s.w.p s.w.admin s.w.adminAt
  left : ∀ g ∈ s.left, LeftOk M o ws t n s.w g

section
variable {M : Machine} {o : Address} {ws : List Address} {t n : ℕ} {p p' : State} {ad : Files}
  {nd : Address → Files}

theorem SentWas.call {f : Files} {a : Address} {k : ℕ} {c : Zkdvrf.Call} (h : SentWas M t n p f a k c) :
    NodeCall c := by
  cases c <;> trivial

theorem AdminSentWas.call {f : Files} {c : Zkdvrf.Call} (h : AdminSentWas t n p f c) : AdminCall c := by
  cases c <;> trivial

theorem SentOk.was {f : Files} {a : Address} {k : ℕ} {c : Zkdvrf.Call} (h : SentOk M t n p f a k c)
    (hr : ∀ k, k < p.currentRoundNum → p.contractPhase = .Ready) : SentWas M t n p f a k c := by
  cases c with
  | registerNode pk => exact h
  | submitPublicParams pp pr => exact ⟨h.1, fun _ => h⟩
  | submitPartialEval e => exact ⟨hr _ (lt_of_lt_of_le h.2.2.1 h.2.1), h.1, h.2.1, h.2.2.2⟩
  | _ => exact h

/-- A transaction of another service leaves it in order. -/
theorem SentWas.frame {f : Files} {a : Address} {k : ℕ} {c : Zkdvrf.Call} (hf : Frame a p p')
    (hready : p.contractPhase = .Ready → p'.contractPhase = .Ready)
    (hr : ∀ k, k < p.currentRoundNum → p.contractPhase = .Ready)
    (h : SentWas M t n p f a k c) : SentWas M t n p' f a k c := by
  cases c with
  | registerNode pk => exact ⟨by rw [hf.node]; exact h.1, h.2⟩
  | submitPublicParams pp pr =>
    refine ⟨h.1.trans hf.rank, fun hs => ?_⟩
    rw [hf.node] at hs
    exact NodeOk.frame (M := M) (t := t) (n := n) (f := f) (st := .sent (.submitPublicParams pp pr) k) hf hr (h.2 hs)
  | submitPartialEval e =>
    obtain ⟨hp, h1, h2, h4, h5, h6, h7⟩ := h
    refine ⟨hready hp, h1, h2.trans hf.cur, h4.frame hf hp, ?_, ?_, ?_⟩
    · unfold indexOf at *; rw [hf.node]; exact h5
    · have := h6.frame hf hp h2
      unfold indexOf at *; rw [hf.node]; exact this
    · unfold indexOf at *; rw [hf.node, hf.vk hp, hf.input k h2]; exact h7
  | _ => exact h

theorem ready_stays {a : Address} (hf : Frame a p p') (hp : p.contractPhase = .Ready) :
    p'.contractPhase = .Ready := by
  have := hf.rank
  rw [hp] at this
  cases h : p'.contractPhase <;> rw [h] at this <;> first | rfl | exact absurd this (by decide)

theorem NodeWas.frame {f : Files} {a : Address} {st : Stage Job} (hf : Frame a p p')
    (hr : ∀ k, k < p.currentRoundNum → p.contractPhase = .Ready)
    (h : NodeWas M t n p f a st) : NodeWas M t n p' f a st := by
  cases st with
  | free => trivial
  | stopped => trivial
  | decided j =>
    cases j with
    | register => change _ = _ at h; change _ = _; rw [hf.node]; exact h
    | deal => exact le_trans h hf.rank
    | eval b =>
      exact ⟨ready_stays hf h.1, h.2.1.trans hf.cur, by rw [hf.last]; exact h.2.2⟩
  | sent c k => exact SentWas.frame hf (ready_stays hf) hr h

/-- The node's own transaction, not a registration, leaves what else it has in order. -/
theorem SentWas.own (hc : Core M o ws t n p ad nd) {f : Files} {a : Address} (ha : a ∈ ws) {k : ℕ}
    {c c' : Zkdvrf.Call}
    (hcall : NodeCall c') (hr : (∀ pk, c' ≠ .registerNode pk) ∨ ∀ pk, c ≠ .registerNode pk)
    (he : exec M.env p ⟨a, 0⟩ c' = some p')
    (h : SentWas M t n p f a k c) : SentWas M t n p' f a k c := by
  cases c' with
  | registerNode pk' =>
    obtain ⟨h1, _⟩ := registerNode_some.1 he
    cases c with
    | registerNode pk => exact (hr.elim (fun h => h pk' rfl) (fun h => h pk rfl)).elim
    | submitPublicParams pp pr => exact absurd h.1 (by rw [h1]; decide)
    | submitPartialEval e => exact absurd (h1.symm.trans h.1) Phase.noConfusion
    | _ => exact h
  | submitPublicParams pp' pr' =>
    obtain ⟨_, _, h1, _, _, _, _, rfl⟩ := submitPublicParams_some.1 he
    cases c with
    | registerNode pk => exact absurd (h1.symm.trans (hc.unreg ha h.1)) Phase.noConfusion
    | submitPublicParams pp pr =>
      refine ⟨?_, fun hs => ?_⟩
      · dsimp only; rw [h1]; split <;> decide
      · dsimp only at hs
        rw [Function.update_self] at hs
        cases hs
    | submitPartialEval e => exact absurd (h1.symm.trans h.1) Phase.noConfusion
    | _ => exact h
  | submitPartialEval e' =>
    obtain ⟨_, _, _, _, _, _, _, _, rfl⟩ := submitPartialEval_some.1 he
    cases c with
    | registerNode pk => exact h
    | submitPublicParams pp pr => exact h
    | submitPartialEval e => exact h
    | _ => exact h
  | _ => exact hcall.elim

theorem NodeWas.own (hc : Core M o ws t n p ad nd) {f : Files} {a : Address} (ha : a ∈ ws) {st : Stage Job}
    {c' : Zkdvrf.Call} (hcall : NodeCall c') (hr : ∀ pk, c' ≠ .registerNode pk)
    (he : exec M.env p ⟨a, 0⟩ c' = some p')
    (h : NodeWas M t n p f a st) : NodeWas M t n p' f a st := by
  cases st with
  | free => trivial
  | stopped => trivial
  | sent c k => exact SentWas.own hc ha hcall (Or.inl hr) he h
  | decided j =>
    cases c' with
    | registerNode pk' => exact absurd rfl (hr pk')
    | submitPublicParams pp' pr' =>
      obtain ⟨_, _, h1, _, _, _, _, rfl⟩ := submitPublicParams_some.1 he
      cases j with
      | register => exact absurd (h1.symm.trans (hc.unreg ha h)) Phase.noConfusion
      | deal => change _ ≤ _; dsimp only; rw [h1]; split <;> decide
      | eval b => exact absurd (h1.symm.trans h.1) Phase.noConfusion
    | submitPartialEval e' =>
      obtain ⟨_, _, _, h4, _, _, _, _, rfl⟩ := submitPartialEval_some.1 he
      cases j with
      | register => exact h
      | deal => exact h
      | eval b =>
        refine ⟨h.1, h.2.1, fun _ => ?_⟩
        dsimp only
        rw [Function.update_self]
        exact Nat.one_le_iff_ne_zero.1 h.2.1
    | _ => exact hcall.elim

/-- What stays for the admin. -/
theorem admin_frame {c : Zkdvrf.Call} {a : Address} (hc : NodeCall c ∨ AdminCall c)
    (he : exec M.env p ⟨a, 0⟩ c = some p') : p.contractPhase.rank ≤ p'.contractPhase.rank ∧
      (3 ≤ p.contractPhase.rank → p'.ppList = p.ppList) := by
  cases c with
  | registerNode pk =>
    obtain ⟨h1, _, _, _, _, _, _, rfl⟩ := registerNode_some.1 he
    refine ⟨?_, fun _ => rfl⟩
    dsimp only; rw [h1]; exact Nat.zero_le _
  | submitPublicParams pp pr =>
    obtain ⟨_, _, h1, _, _, _, _, rfl⟩ := submitPublicParams_some.1 he
    refine ⟨?_, fun h => absurd h (by rw [h1]; decide)⟩
    dsimp only; rw [h1]; split <;> decide
  | submitPartialEval e =>
    obtain ⟨_, _, _, _, _, _, _, _, rfl⟩ := submitPartialEval_some.1 he
    exact ⟨le_rfl, fun _ => rfl⟩
  | startNidkg =>
    obtain ⟨_, _, h1, rfl⟩ := startNidkg_some.1 he
    refine ⟨?_, fun _ => rfl⟩
    rw [h1]; dsimp only; decide
  | computeVk gpk =>
    obtain ⟨_, h1, out, _, rfl⟩ := computeVk_some.1 he
    refine ⟨?_, fun _ => rfl⟩
    rw [h1]; dsimp only; decide
  | initiateRandom =>
    obtain ⟨_, _, _, _, _, h, _, rfl⟩ := initiateRandom_some.1 he
    exact ⟨le_rfl, fun _ => rfl⟩
  | submitRandom rnd =>
    obtain ⟨_, _, h0, _, _, _, rfl⟩ := submitRandom_some.1 he
    exact ⟨le_rfl, fun _ => rfl⟩
  | _ => exact (hc.elim id id).elim

theorem AdminSentWas.next {c c' : Zkdvrf.Call} {a : Address} {f : Files} (hc : NodeCall c' ∨ AdminCall c')
    (he : exec M.env p ⟨a, 0⟩ c' = some p') (h : AdminSentWas t n p f c) : AdminSentWas t n p' f c := by
  obtain ⟨h1, h2⟩ := admin_frame hc he
  cases c with
  | computeVk g =>
    refine ⟨h.1.trans h1, ?_⟩
    unfold AdminFiles
    rw [h2 h.1]
    exact h.2
  | _ => exact h

theorem AdminWas.next {c' : Zkdvrf.Call} {a : Address} {f : Files} {st : Stage AdminJob}
    (hc : NodeCall c' ∨ AdminCall c')
    (he : exec M.env p ⟨a, 0⟩ c' = some p') (h : AdminWas t n p f st) : AdminWas t n p' f st := by
  cases st with
  | free => trivial
  | stopped => trivial
  | sent c k => exact AdminSentWas.next hc he h
  | decided j =>
    cases j with
    | gpp => exact le_trans h (admin_frame hc he).1
    | _ => trivial

/-- A node's transaction that was in order is accepted only if the services stay in order. -/
theorem SentWas.core (h : Core M o ws t n p ad nd) {a : Address} (ha : a ∈ ws) {k : ℕ} {c : Zkdvrf.Call}
    (hs : SentWas M t n p (nd a) a k c) (he : exec M.env p ⟨a, 0⟩ c = some p') (hl : NoLuck M p a k c) :
    Core M o ws t n p' ad nd := by
  cases c with
  | registerNode pk =>
    obtain ⟨p2, h1, h2⟩ := land_register (k := k) h ha hs
    cases Option.some.inj (he.symm.trans h1)
    exact h2
  | submitPublicParams pp pr =>
    obtain ⟨_, _, _, hst, _⟩ := submitPublicParams_some.1 he
    obtain ⟨p2, h1, h2⟩ := land_deal (k := k) h ha (hs.2 hst)
    cases Option.some.inj (he.symm.trans h1)
    exact h2
  | submitPartialEval e => exact land_eval_any h ha hs.2.2.2.1 hs.2.2.2.2.2.1 he hl
  | _ => exact hs.elim

theorem AdminSentWas.core (h : Core M o ws t n p ad nd) {c : Zkdvrf.Call} (hs : AdminSentWas t n p ad c)
    (he : exec M.env p ⟨o, 0⟩ c = some p') : Core M o ws t n p' ad nd :=
  land_admin_any h hs.call (fun g hg => by subst hg; exact hs.2) he

theorem SentWas.files {f f' : Files} {a : Address} {k : ℕ} {c : Zkdvrf.Call} (hc : ∀ pk, c ≠ .registerNode pk)
    (hf : p.contractPhase = .Ready → HasShare t n p f' a)
    (h : SentWas M t n p f a k c) : SentWas M t n p f' a k c := by
  cases c with
  | registerNode pk => exact absurd rfl (hc pk)
  | submitPublicParams pp pr => exact h
  | submitPartialEval e =>
    obtain ⟨h0, h1, h2, h4, h5⟩ := h
    exact ⟨h0, h1, h2, hf h0, h5⟩
  | _ => exact h

theorem submitPP_files (M : Machine) (p : State) (a : Address) (f : Files) (d : Draw) :
    submitPP M p a f d = .failed f ∨ ∃ pp pr, submitPP M p a f d = .send f (.submitPublicParams pp pr) := by
  unfold submitPP
  dsimp only
  split
  · exact Or.inl rfl
  · split
    · exact Or.inl rfl
    · split
      · exact Or.inl rfl
      · split
        · exact Or.inl rfl
        · exact Or.inr ⟨_, _, rfl⟩

theorem createRandom_files (M : Machine) (p : State) (f : Files) :
    createRandom M p f = .failed f ∨ ∃ rnd, createRandom M p f = .send f (.submitRandom rnd) := by
  unfold createRandom
  dsimp only
  split
  · split
    · exact Or.inl rfl
    · split
      · exact Or.inl rfl
      · split
        · exact Or.inl rfl
        · exact Or.inr ⟨_, rfl⟩
  · exact Or.inl rfl

/-- What the commands of a node lead to. -/
theorem run_node {aux1 : G1} {aux2 : G2} (hM : Faithful M t n aux1 aux2) (h : Core M o ws t n p ad nd)
    {a : Address} (ha : a ∈ ws) {j : Job} (hj : NodeWas M t n p (nd a) a (.decided j)) (d : Draw)
    (hd : GoodDraw t n aux1 aux2 d) :
    ∃ f, (nodeRun M p a (nd a) d j = .failed f ∧ j = .deal ∧ (p.addrToNode a).statusPP = true ∨
        ∃ c, nodeRun M p a (nd a) d j = .send f c ∧ SentWas M t n p f a p.currentRoundNum c) ∧
      Core M o ws t n p ad (Function.update nd a f) ∧
      ∀ c k, (∀ pk, c ≠ .registerNode pk) → SentWas M t n p (nd a) a k c → SentWas M t n p f a k c := by
  cases j with
  | register =>
    have hu := h.unreg ha hj
    obtain ⟨f, c, h1, h2, h3⟩ := run_register h ha hj d hd.sk p.currentRoundNum
    refine ⟨f, Or.inr ⟨c, h1, h2.was (fun k hk => h.ready hk)⟩, h3, fun c k hc hs => ?_⟩
    exact SentWas.files hc (fun hp => absurd (hu.symm.trans hp) Phase.noConfusion) hs
  | deal =>
    refine ⟨nd a, ?_, by rw [Function.update_eq_self]; exact h, fun c k _ hs => hs⟩
    cases hst : (p.addrToNode a).statusPP with
    | true =>
      rcases submitPP_files M p a (nd a) d with h1 | ⟨pp, pr, h1⟩
      · exact Or.inl ⟨h1, rfl, rfl⟩
      · refine Or.inr ⟨_, h1, hj, fun hf => ?_⟩
        rw [hst] at hf; cases hf
    | false =>
      obtain ⟨f, c, h1, h2, h3⟩ := run_deal hM h ha hj hst d hd p.currentRoundNum
      rcases submitPP_files M p a (nd a) d with h4 | ⟨pp, pr, h4⟩
      · rw [h4] at h1; cases h1
      · have h5 := h4.symm.trans h1
        injection h5 with h6 h7
        subst h6 h7
        exact Or.inr ⟨_, h4, h2.was (fun k hk => h.ready hk)⟩
  | eval b =>
    obtain ⟨hp, h0, hb⟩ := hj
    obtain ⟨f, e, h1, h2, h3, h4, h5, h6⟩ := run_eval_any hM.sound h ha hp hb d
    exact ⟨f, Or.inr ⟨_, h1, hp, h0, le_rfl, h2, h3, h4, h5⟩, h6, fun c k hc hs => hs.files hc (fun _ => h2)⟩

/-- What the commands of the admin lead to. -/
theorem run_admin {aux1 : G1} {aux2 : G2} (hM : Faithful M t n aux1 aux2) (h : Core M o ws t n p ad nd)
    {j : AdminJob} (hj : AdminWas t n p ad (.decided j)) :
    ∃ f, (adminRun M p ad j = .failed f ∨ ∃ c, adminRun M p ad j = .send f c ∧ AdminSentWas t n p f c) ∧
      Core M o ws t n p f nd ∧ ∀ c, AdminSentWas t n p ad c → AdminSentWas t n p f c := by
  cases j with
  | start => exact ⟨ad, Or.inr ⟨_, rfl, trivial⟩, h, fun c hc => hc⟩
  | «open» => exact ⟨ad, Or.inr ⟨_, rfl, trivial⟩, h, fun c hc => hc⟩
  | random k =>
    rcases createRandom_files M { p with currentRoundNum := k } ad with h1 | ⟨rnd, h1⟩
    · exact ⟨ad, Or.inl h1, h, fun c hc => hc⟩
    · exact ⟨ad, Or.inr ⟨_, h1, trivial⟩, h, fun c hc => hc⟩
  | gpp =>
    have hthr := h.thr
    have hcnt := h.cnt
    have key : ∀ f, AdminFiles t n p f → Core M o ws t n p f nd := fun f hf => { h with adm := fun _ => hf }
    have key2 : ∀ f, AdminFiles t n p f → ∀ c, AdminSentWas t n p ad c → AdminSentWas t n p f c := by
      intro f hf c hc
      cases c with
      | computeVk g => exact ⟨hc.1, hf⟩
      | _ => exact hc
    have hder : ∃ gf vf, Client.derive ⟨t, n⟩ (Client.instancesFile p.ppList) none = .ok ⟨gf, vf, none⟩ := by
      cases hp : p.contractPhase with
      | NidkgComplete =>
        obtain ⟨f, c, h1, h2, _⟩ := run_gpp hM.sound h hp
        unfold Services.createGpp at h1
        split at h1
        · cases h1
        · dsimp only at h1
          split at h1
          · cases h1
          · injection h1 with h3 h4
            subst h4
            obtain ⟨_, _, gf, vf, h5, _⟩ := h2
            exact ⟨gf, vf, h5⟩
      | Ready =>
        obtain ⟨gf, vf, h1, _⟩ := h.adm hp
        exact ⟨gf, vf, h1⟩
      | Unregistered => change 3 ≤ p.contractPhase.rank at hj; rw [hp] at hj; exact absurd hj (by decide)
      | Registered => change 3 ≤ p.contractPhase.rank at hj; rw [hp] at hj; exact absurd hj (by decide)
      | Nidkg => change 3 ≤ p.contractPhase.rank at hj; rw [hp] at hj; exact absurd hj (by decide)
    obtain ⟨gf, vf, hder⟩ := hder
    have hf : AdminFiles t n p { ad with gpk := some gf, vks := some vf } := ⟨gf, vf, hder, rfl, rfl⟩
    refine ⟨{ ad with gpk := some gf, vks := some vf }, ?_, key _ hf, key2 _ hf⟩
    have hc : config p = ⟨t, n⟩ := by unfold config; rw [hthr, hcnt]
    change Services.createGpp p ad = _ ∨ ∃ c, Services.createGpp p ad = _ ∧ _
    unfold Services.createGpp
    rw [hc, hder]
    dsimp only
    split
    · exact Or.inl rfl
    · exact Or.inr ⟨_, rfl, hj, hf⟩

end

section
variable {M : Machine} {o : Address} {ws : List Address} {t n : ℕ} {aux1 : G1} {aux2 : G2} {s s' : Survivors}

/-- A transaction of a node in `ws` is accepted: what is left, and the other services, stay in order. -/
theorem KInv.next_node (h : KInv M o ws t n s) {a : Address} (_ha : a ∈ ws) {c : Zkdvrf.Call} (hc : NodeCall c)
    {p' : State} (he : exec M.env s.w.p ⟨a, 0⟩ c = some p') :
    (∀ b ∈ ws, b ≠ a ∨ (∀ pk, c ≠ .registerNode pk) →
      NodeWas M t n p' (s.w.node b) b (s.w.nodeAt b)) ∧
    AdminWas t n p' s.w.admin s.w.adminAt ∧
    ∀ g ∈ s.left, LeftOk M o ws t n { s.w with p := p' } g := by
  refine ⟨fun b hb hba => ?_, h.admin.next (Or.inl hc) he, fun g hg => ?_⟩
  · by_cases hba' : b = a
    · subst hba'
      exact (h.nodes b hb).own h.core hb hc (hba.resolve_left (fun hh => hh rfl)) he
    · exact (h.nodes b hb).frame (frame_node hc hba' he) (fun k hk => h.core.ready hk)
  · rcases h.left g hg with ⟨h1, h2, h3⟩ | ⟨h1, h2⟩
    · refine Or.inl ⟨h1, h2, ?_⟩
      by_cases hga : g.1 = a
      · rw [← hga] at he
        exact h3.own h.core h1 hc (Or.inr h2) he
      · have hf := frame_node hc hga he
        exact h3.frame hf (ready_stays hf) (fun k hk => h.core.ready hk)
    · exact Or.inr ⟨h1, h2.next (Or.inl hc) he⟩

/-- A transaction of the admin is accepted. -/
theorem KInv.next_admin (h : KInv M o ws t n s) {c : Zkdvrf.Call} (hc : AdminCall c)
    {p' : State} (he : exec M.env s.w.p ⟨o, 0⟩ c = some p') :
    (∀ b ∈ ws, NodeWas M t n p' (s.w.node b) b (s.w.nodeAt b)) ∧
    AdminWas t n p' s.w.admin s.w.adminAt ∧
    ∀ g ∈ s.left, LeftOk M o ws t n { s.w with p := p' } g := by
  refine ⟨fun b hb => ?_, h.admin.next (Or.inr hc) he, fun g hg => ?_⟩
  · exact (h.nodes b hb).frame (frame_admin hc he) (fun k hk => h.core.ready hk)
  · rcases h.left g hg with ⟨h1, h2, h3⟩ | ⟨h1, h2⟩
    · have hf : Frame g.1 s.w.p p' := frame_admin hc he
      exact Or.inl ⟨h1, h2, h3.frame hf (ready_stays hf) (fun k hk => h.core.ready hk)⟩
    · exact Or.inr ⟨h1, h2.next (Or.inr hc) he⟩

theorem look_was {p : State} {f : Files} {a : Address} {j : Job} (h : Core M o ws t n p ad nd)
    (hj : nodeLook p a = some j) : NodeWas M t n p f a (.decided j) := by
  unfold nodeLook at hj
  dsimp only at hj
  split at hj
  · cases hp : p.contractPhase with
    | Unregistered =>
      rw [hp] at hj
      dsimp only at hj
      split at hj
      · rename_i hs
        cases Option.some.inj hj
        rw [Bool.not_eq_true'] at hs
        exact hs
      · cases hj
    | Registered => rw [hp] at hj; cases hj
    | Nidkg =>
      rw [hp] at hj
      dsimp only at hj
      split at hj
      · cases Option.some.inj hj
        change 2 ≤ p.contractPhase.rank
        rw [hp]; decide
      · cases hj
    | NidkgComplete => rw [hp] at hj; cases hj
    | Ready =>
      rw [hp] at hj
      dsimp only at hj
      split at hj
      · rename_i hs
        cases Option.some.inj hj
        rw [Bool.and_eq_true] at hs
        obtain ⟨_, o1, o2, hz⟩ := sim h.reach h.ht
        have h1 : p.lastSubmittedRound a ≤ p.currentRoundNum := (Zkdvrf.evalInv hz).last_le a
        have h2 := jsGreater_ne hs.1
        refine ⟨hp, by omega, fun hb => ?_⟩
        rw [decide_eq_false_iff_not] at hb
        exact hb
      · cases hj
  · cases hj

theorem AdminOk.was {p : State} {f : Files} {i : AdminJob} (h : AdminOk M t n p f (.decided i)) :
    AdminWas t n p f (.decided i) := by
  cases i with
  | gpp => change 3 ≤ p.contractPhase.rank; rw [show p.contractPhase = _ from h]; decide
  | _ => trivial

theorem KInv.decide (h : KInv M o ws t n s) {j : Option AdminJob}
    (hj : ∀ i, j = some i → AdminWas t n s.w.p s.w.admin (.decided i)) :
    KInv M o ws t n ⟨s.w.adminDecide j, s.left⟩ := by
  unfold Overlap.adminDecide
  split
  · rename_i i _
    exact ⟨h.core, h.nodes, hj i rfl, h.left⟩
  · exact h

theorem KInv.run (hM : Faithful M t n aux1 aux2) (h : KInv M o ws t n s) {w' : Overlap}
    (hs : OverlapStep M o ws t n aux1 aux2 s.w w') : KInv M o ws t n ⟨w', s.left⟩ := by
  cases hs with
  | look a ha =>
    unfold Overlap.look
    split
    · split
      · exact h
      · rename_i j hj
        refine ⟨h.core, fun b hb => ?_, h.admin, h.left⟩
        dsimp only
        by_cases hba : b = a
        · subst hba
          rw [Function.update_self]
          exact look_was h.core hj
        · rw [Function.update_of_ne hba]
          exact h.nodes b hb
    · exact h
  | fetch a d ha hd =>
    unfold Overlap.fetch
    split
    · rename_i j hj
      have hn := h.nodes a ha
      rw [hj] at hn
      obtain ⟨f, h1, h2, h3⟩ := run_node hM h.core ha hn d hd
      have hleft : ∀ st, ∀ g ∈ s.left, LeftOk M o ws t n ⟨s.w.p, s.w.admin, Function.update s.w.node a f,
          s.w.adminAt, Function.update s.w.nodeAt a st⟩ g := by
        intro st g hg
        rcases h.left g hg with ⟨q1, q2, q3⟩ | q
        · refine Or.inl ⟨q1, q2, ?_⟩
          dsimp only
          by_cases hga : g.1 = a
          · rw [hga, Function.update_self]
            rw [hga] at q3
            exact h3 _ _ q2 q3
          · rw [Function.update_of_ne hga]
            exact q3
        · exact Or.inr q
      have hnodes : ∀ st, NodeWas M t n s.w.p f a st → ∀ b ∈ ws,
          NodeWas M t n s.w.p (Function.update s.w.node a f b) b (Function.update s.w.nodeAt a st b) := by
        intro st hst b hb
        by_cases hba : b = a
        · subst hba
          rw [Function.update_self, Function.update_self]
          exact hst
        · rw [Function.update_of_ne hba, Function.update_of_ne hba]
          exact h.nodes b hb
      rcases h1 with ⟨h1, _⟩ | ⟨c, h1, h4⟩
      · rw [h1]
        exact ⟨h2, hnodes _ trivial, h.admin, hleft _⟩
      · rw [h1]
        exact ⟨h2, hnodes _ h4, h.admin, hleft _⟩
    · exact h
  | land a ha hl =>
    unfold Overlap.land
    split
    · rename_i c k hk
      have hn := h.nodes a ha
      have hl := hl c k hk
      rw [hk] at hn
      have hfree : ∀ st, NodeWas M t n s.w.p (s.w.node a) a st → ∀ b ∈ ws,
          NodeWas M t n s.w.p (s.w.node b) b (Function.update s.w.nodeAt a st b) := by
        intro st hst b hb
        by_cases hba : b = a
        · subst hba; rw [Function.update_self]; exact hst
        · rw [Function.update_of_ne hba]; exact h.nodes b hb
      split
      · exact ⟨h.core, hfree .stopped trivial, h.admin, h.left⟩
      · rename_i p' he
        obtain ⟨q1, q2, q3⟩ := h.next_node ha (SentWas.call hn) he
        refine ⟨SentWas.core h.core ha hn he hl, fun b hb => ?_, q2, q3⟩
        dsimp only
        by_cases hba : b = a
        · subst hba; rw [Function.update_self]; trivial
        · rw [Function.update_of_ne hba]; exact q1 b hb (Or.inl hba)
    · exact h
  | adminLook b => exact h.decide (fun i hi => AdminOk.was (M := M) (adminLook_ok hi))
  | adminTick b e he => exact h.decide (fun i hi => AdminOk.was (M := M) (tickLook_ok he hi))
  | adminFetch =>
    unfold Overlap.adminFetch
    split
    · rename_i j hj
      have hn := h.admin
      rw [hj] at hn
      obtain ⟨f, h1, h2, h3⟩ := run_admin hM h.core hn
      have hleft : ∀ st, ∀ g ∈ s.left, LeftOk M o ws t n ⟨s.w.p, f, s.w.node, st, s.w.nodeAt⟩ g := by
        intro st g hg
        rcases h.left g hg with q | ⟨q1, q2⟩
        · exact Or.inl q
        · exact Or.inr ⟨q1, h3 _ q2⟩
      rcases h1 with h1 | ⟨c, h1, h4⟩
      · rw [h1]
        exact ⟨h2, h.nodes, trivial, hleft _⟩
      · rw [h1]
        exact ⟨h2, h.nodes, h4, hleft _⟩
    · exact h
  | adminLand =>
    unfold Overlap.adminLand
    split
    · rename_i c k hk
      have hn := h.admin
      rw [hk] at hn
      split
      · exact ⟨h.core, h.nodes, trivial, h.left⟩
      · rename_i p' he
        obtain ⟨q1, q2, q3⟩ := h.next_admin (AdminSentWas.call hn) he
        exact ⟨AdminSentWas.core h.core hn he, q1, trivial, q3⟩
    · exact h

theorem KInv.mine (h : KInv M o ws t n s) (i : ℕ)
    (hl : ∀ a c k, s.left[i]? = some (a, c, k) → NoLuck M s.w.p a k c) : KInv M o ws t n (s.mine M i) := by
  unfold Survivors.mine
  split
  · exact h
  · rename_i a c k hk
    have hg := h.left _ (List.mem_of_getElem? hk)
    have hsub : ∀ g ∈ s.left.eraseIdx i, g ∈ s.left := fun g hg => List.mem_of_mem_eraseIdx hg
    cases he : exec M.env s.w.p ⟨a, 0⟩ c with
    | none => exact ⟨h.core, h.nodes, h.admin, fun g hg => h.left g (hsub g hg)⟩
    | some p' =>
      rcases hg with ⟨h1, h2, h3⟩ | ⟨h1, h2⟩
      · obtain ⟨q1, q2, q3⟩ := h.next_node h1 h3.call he
        exact ⟨h3.core h.core h1 he (hl a c k hk), fun b hb => q1 b hb (Or.inr h2), q2,
          fun g hg => q3 g (hsub g hg)⟩
      · dsimp only at h1 h2
        subst h1
        obtain ⟨q1, q2, q3⟩ := h.next_admin h2.call he
        exact ⟨h2.core h.core he, q1, q2, fun g hg => q3 g (hsub g hg)⟩

theorem KInv.restart (h : KInv M o ws t n s) (hs : Restart o ws s s') : KInv M o ws t n s' := by
  cases hs with
  | node a lost ha hr =>
    refine ⟨h.core, fun b hb => ?_, h.admin, fun g hg => ?_⟩
    · dsimp only [Survivors.restart]
      by_cases hba : b = a
      · subst hba; rw [Function.update_self]; trivial
      · rw [Function.update_of_ne hba]; exact h.nodes b hb
    · rcases List.mem_append.1 hg with hg | hg
      · have hn := h.nodes a ha
        cases hst : s.w.nodeAt a with
        | sent c k =>
          rw [hst] at hg hn
          unfold Stage.remains at hg
          dsimp only at hg
          cases lost with
          | true => cases hg
          | false =>
            rw [if_neg Bool.noConfusion, List.mem_singleton] at hg
            subst hg
            refine Or.inl ⟨ha, fun pk hpk => ?_, hn⟩
            dsimp only at hpk
            subst hpk
            exact Bool.noConfusion (hr pk k hst)
        | _ => rw [hst] at hg; cases hg
      · exact h.left g hg
  | admin lost =>
    refine ⟨h.core, h.nodes, trivial, fun g hg => ?_⟩
    rcases List.mem_append.1 hg with hg | hg
    · have hn := h.admin
      cases hst : s.w.adminAt with
      | sent c k =>
        rw [hst] at hg hn
        unfold Stage.remains at hg
        dsimp only at hg
        cases lost with
        | true => cases hg
        | false =>
          rw [if_neg Bool.noConfusion, List.mem_singleton] at hg
          subst hg
          exact Or.inr ⟨rfl, hn⟩
      | _ => rw [hst] at hg; cases hg
    · exact h.left g hg

theorem surviving_inv (hM : Faithful M t n aux1 aux2) {w0 : World} (h0 : Fresh M o ws t n w0.p)
    (h : Surviving M o ws t n aux1 aux2 (.begin w0) s) : KInv M o ws t n s := by
  induction h with
  | refl =>
    have := overlap_inv hM h0 (w := .begin w0) .refl
    exact ⟨this.core, fun _ _ => trivial, trivial, fun g hg => by cases hg⟩
  | tail _ hs ih =>
    rcases hs with hs | hs
    · cases hs with
      | run w' hw => exact ih.run hM hw
      | mine i hl => exact ih.mine i hl
    · exact ih.restart hs

/-- A step of a running service that changes something increases the measure, whether or not killed services have
left transactions. -/
theorem KInv.run_measure (hM : Faithful M t n aux1 aux2) (h : KInv M o ws t n s) {w' : Overlap}
    (hs : OverlapStep M o ws t n aux1 aux2 s.w w') (hne : w' ≠ s.w) : measureO ws n s.w < measureO ws n w' := by
  cases hs with
  | look a ha =>
    unfold Overlap.look at hne ⊢
    split
    · rename_i hf
      rw [hf] at hne
      dsimp only at hne
      split
      · rename_i hj
        rw [hj] at hne
        exact absurd rfl hne
      · refine measure_node ha rfl rfl ?_
        rw [hf]
        unfold stageRank
        dsimp only
        omega
    · rename_i hf
      refine absurd ?_ hne
      split
      · rename_i hf'; exact absurd hf' hf
      · rfl
  | fetch a d ha hd =>
    unfold Overlap.fetch at hne ⊢
    split
    · rename_i j hj
      have hn := h.nodes a ha
      rw [hj] at hn
      obtain ⟨f, h1, _⟩ := run_node hM h.core ha hn d hd
      rcases h1 with ⟨h1, _⟩ | ⟨c, h1, _⟩
      all_goals
        rw [h1]
        refine measure_node ha rfl rfl ?_
        rw [hj]
        unfold stageRank
        dsimp only
        omega
    · rename_i hf
      refine absurd ?_ hne
      split
      · rename_i j hj; exact absurd hj (hf j)
      · rfl
  | land a ha hl =>
    unfold Overlap.land at hne ⊢
    split
    · rename_i c k hk
      have hn := h.nodes a ha
      rw [hk] at hn
      have hc := SentWas.call hn
      split
      · refine measure_node ha rfl rfl ?_
        rw [hk]
        unfold stageRank
        dsimp only
        omega
      · rename_i p' he
        have := work_node h.core hc he
        refine measure_node ha rfl rfl ?_
        rw [hk]
        unfold stageRank
        dsimp only
        omega
    · rename_i hf
      refine absurd ?_ hne
      split
      · rename_i c k hk; exact absurd hk (hf c k)
      · rfl
  | adminLook begun => exact decide_measure hne
  | adminTick begun elapsed he => exact decide_measure hne
  | adminFetch =>
    unfold Overlap.adminFetch at hne ⊢
    split
    · rename_i j hj
      have hn := h.admin
      rw [hj] at hn
      obtain ⟨f, h1, _⟩ := run_admin hM h.core hn
      rcases h1 with h1 | ⟨c, h1, _⟩
      all_goals
        rw [h1]
        refine measure_adm rfl ?_
        dsimp only
        rw [hj]
        unfold stageRank
        dsimp only
        omega
    · rename_i hf
      refine absurd ?_ hne
      split
      · rename_i j hj; exact absurd hj (hf j)
      · rfl
  | adminLand =>
    unfold Overlap.adminLand at hne ⊢
    split
    · rename_i c k hk
      have hn := h.admin
      rw [hk] at hn
      split
      · refine measure_adm rfl ?_
        dsimp only
        rw [hk]
        unfold stageRank
        dsimp only
        omega
      · rename_i p' he
        have := work_admin_any h.core hM.hash (AdminSentWas.call hn) he
        refine measure_adm rfl ?_
        dsimp only
        rw [hk]
        unfold stageRank
        dsimp only
        omega
    · rename_i hf
      refine absurd ?_ hne
      split
      · rename_i c k hk; exact absurd hk (hf c k)
      · rfl
where
  decide_measure {w : Overlap} {j : Option AdminJob} (hne : w.adminDecide j ≠ w) :
      measureO ws n w < measureO ws n (w.adminDecide j) := by
    unfold Overlap.adminDecide at hne ⊢
    split
    · rename_i hf
      refine measure_adm rfl ?_
      dsimp only
      rw [hf]
      unfold stageRank
      dsimp only
      omega
    · rename_i hf
      refine absurd ?_ hne
      split
      · rename_i hf' ; exact (hf _ hf' rfl).elim
      · rfl

theorem KInv.step_measure (hM : Faithful M t n aux1 aux2) (h : KInv M o ws t n s)
    (hs : SurvivorStep M o ws t n aux1 aux2 s s') (hne : s' ≠ s) :
    measureO ws n s.w + s'.left.length + 1 ≤ measureO ws n s'.w + s.left.length := by
  cases hs with
  | run w' hw =>
    have := h.run_measure hM hw (by rintro rfl; exact hne rfl)
    dsimp only
    omega
  | mine i hl =>
    unfold Survivors.mine at hne ⊢
    split
    · rename_i hi
      rw [hi] at hne
      exact absurd rfl hne
    · rename_i a c k hk
      obtain ⟨hi, _⟩ := List.getElem?_eq_some_iff.1 hk
      have hlen := List.length_eraseIdx_of_lt hi
      have hw : measureO ws n s.w ≤ measureO ws n
          { s.w with p := (exec M.env s.w.p ⟨a, 0⟩ c).getD s.w.p } := by
        unfold measureO
        dsimp only
        cases he : exec M.env s.w.p ⟨a, 0⟩ c with
        | none => exact le_rfl
        | some p' =>
          have : workO n s.w.p < workO n p' := by
            rcases h.left _ (List.mem_of_getElem? hk) with ⟨_, _, h3⟩ | ⟨_, h2⟩
            · exact work_node h.core h3.call he
            · exact work_admin_any h.core hM.hash h2.call he
          dsimp only [Option.getD]
          omega
      dsimp only
      rw [hlen]
      have hgoal : measureO ws n s.w + (s.left.length - 1) + 1 ≤ measureO ws n
          { s.w with p := (exec M.env s.w.p ⟨a, 0⟩ c).getD s.w.p } + s.left.length := by omega
      exact hgoal

theorem remains_length {J : Type} (st : Stage J) (a : Address) (lost : Bool) :
    stageRank st + (st.remains a lost).length ≤ 3 := by
  unfold Stage.remains stageRank
  cases st with
  | sent c k => cases lost <;> simp
  | _ => simp

theorem KInv.restart_measure (hs : Restart o ws s s') :
    measureO ws n s.w + s'.left.length ≤ measureO ws n s'.w + s.left.length + 3 := by
  cases hs with
  | node a lost ha hr =>
    have h1 := remains_length (s.w.nodeAt a) a lost
    have h2 := sum_rank ha s.w.nodeAt .free
    unfold Survivors.restart measureO
    dsimp only
    rw [List.length_append]
    have h3 : stageRank (Stage.free : Stage Job) = 0 := rfl
    omega
  | admin lost =>
    have h1 := remains_length s.w.adminAt o lost
    unfold Survivors.restartAdmin measureO
    dsimp only
    rw [List.length_append]
    have h3 : stageRank (Stage.free : Stage AdminJob) = 0 := rfl
    omega

theorem KInv.measure_le (h : KInv M o ws t n s) {K : ℕ} (hc : s.w.p.currentRoundNum ≤ K) :
    measureO ws n s.w ≤ 3 * (2 * n + 2 + K * (n + 2)) + 3 * n + 3 := by
  have h1 := h.core.work_le hc
  have h2 : ws.toFinset.sum (fun a => stageRank (s.w.nodeAt a)) ≤ n * 3 := by
    refine (Finset.sum_le_card_nsmul _ _ 3 (fun a _ => stageRank_le _)).trans ?_
    rw [smul_eq_mul, List.toFinset_card_of_nodup h.core.nodup, h.core.len]
  have h3 := stageRank_le s.w.adminAt
  unfold measureO
  omega

end

theorem ncard_below (P : ℕ → Prop) (N : ℕ) :
    (P N → {i | i < N + 1 ∧ P i}.ncard = {i | i < N ∧ P i}.ncard + 1) ∧
    (¬ P N → {i | i < N + 1 ∧ P i}.ncard = {i | i < N ∧ P i}.ncard) := by
  have hfin : {i | i < N ∧ P i}.Finite := (Set.finite_lt_nat N).subset fun i hi => hi.1
  constructor
  · intro hN
    have : {i | i < N + 1 ∧ P i} = insert N {i | i < N ∧ P i} := by
      ext i
      constructor
      · rintro ⟨h1, h2⟩
        rcases Nat.lt_or_ge i N with h3 | h3
        · exact Or.inr ⟨h3, h2⟩
        · exact Or.inl (by omega)
      · rintro (h | ⟨h1, h2⟩)
        · rw [h]; exact ⟨Nat.lt_succ_self _, hN⟩
        · exact ⟨by omega, h2⟩
    rw [this, Set.ncard_insert_of_notMem (fun h => Nat.lt_irrefl _ h.1) hfin]
  · intro hN
    congr 1
    ext i
    constructor
    · rintro ⟨h1, h2⟩
      refine ⟨?_, h2⟩
      rcases Nat.lt_or_ge i N with h3 | h3
      · exact h3
      · obtain rfl : i = N := by omega
        exact absurd h2 hN
    · rintro ⟨h1, h2⟩
      exact ⟨by omega, h2⟩

end Verif.Overlap
