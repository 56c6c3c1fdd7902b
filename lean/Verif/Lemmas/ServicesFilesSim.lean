import Verif.Lemmas.ServicesFiles
import Verif.Spec.ServicesFiles
import Verif.Props.ServicesLive

/-! Services on files are simulated by the services on values. -/

namespace Verif.ServicesFiles
open Disk Disk.Prog ClientFiles Spec Props Serde
open Services (Machine Draw config GoodDraw Files Out Fresh Faithful)
open ZkdvrfPre (State Completed Registered Added getIndexPlus)
open Zkdvrf (Call)

/-- The disk of a node has what the node may still need. -/
structure NodeRel (M : Machine) (p : State) (a : Address) (s : Store) (f : Files) : Prop where
  member : (p.addrToNode a).status = true → load s (.member (memberName M.env.keccak a)) = f.member
  vks : p.lastSubmittedRound a ≠ 0 → load s .vks = f.vks
  share : p.lastSubmittedRound a ≠ 0 → ∀ i, getIndexPlus p a = some i → load s (.share i) = f.share

/-- The disk of the admin has what the admin may still need. -/
structure AdminRel (p : State) (s : Store) (f : Files) : Prop where
  gpk : p.contractPhase = .Ready → load s .gpk = f.gpk
  vks : p.contractPhase = .Ready → load s .vks = f.vks

theorem NodeRel.state {M : Machine} {p p' : State} {a : Address} {s : Store} {f : Files}
    (h : NodeRel M p a s f) (h1 : p'.addrToNode a = p.addrToNode a)
    (h2 : p'.lastSubmittedRound a = p.lastSubmittedRound a) : NodeRel M p' a s f := by
  refine ⟨fun hs => h.member (h1 ▸ hs), fun hs => h.vks (h2 ▸ hs), fun hs i hi => h.share (h2 ▸ hs) i ?_⟩
  unfold getIndexPlus at hi ⊢
  rwa [h1] at hi

/-- Files that are not written stay. -/
theorem NodeRel.disk {M : Machine} {p : State} {a : Address} {s s' : Store} {f : Files}
    (h : NodeRel M p a s f) (hs : ∀ x : DataFile, x.Plain → ¬ nodeWrites M p a x → s' x.name = s x.name) :
    NodeRel M p a s' f := by
  refine ⟨fun h1 => ?_, fun h1 => ?_, fun h1 i hi => ?_⟩
  · rw [← h.member h1]
    refine load_same (hs _ (slash_memberName _ _) (fun hw => ?_))
    have := hw.2.1 rfl
    rw [h1] at this
    cases this
  · rw [← h.vks h1]
    exact load_same (hs _ trivial (fun hw => h1 (hw.2.2 (Or.inl rfl))))
  · rw [← h.share h1 i hi]
    exact load_same (hs _ trivial (fun hw => h1 (hw.2.2 (Or.inr ⟨i, rfl⟩))))

theorem AdminRel.disk {p : State} {s s' : Store} {f : Files}
    (h : AdminRel p s f) (hs : ∀ x : DataFile, x.Plain → ¬ adminWrites p x → s' x.name = s x.name) :
    AdminRel p s' f := by
  refine ⟨fun h1 => ?_, fun h1 => ?_⟩
  · rw [← h.gpk h1]
    refine load_same (hs _ trivial (fun hw => ?_))
    have := hw.2 (Or.inl rfl)
    rw [h1] at this
    cases this
  · rw [← h.vks h1]
    refine load_same (hs _ trivial (fun hw => ?_))
    have := hw.2 (Or.inr rfl)
    rw [h1] at this
    cases this

/-- The result of a pass on values. -/
def resultOf : Out → Except Stop (Option Call)
  | .idle => .ok none
  | .failed _ => .error .script
  | .send _ c => .ok (some c)

/-- The files left behind by a pass on values. -/
def filesOf (f : Files) : Out → Files
  | .idle => f
  | .failed f' => f'
  | .send f' _ => f'

theorem sent_resultOf (o : Out) : sent (resultOf o) = o.sent := by cases o <;> rfl

/-- What the files of a node are after a complete pass that sent something. -/
def After (M : Machine) (p : State) (a : Address) (s' : Store) (f' : Files) : Prop :=
  match p.contractPhase with
  | .Unregistered => load s' (.member (memberName M.env.keccak a)) = f'.member
  | .Ready => load s' (.member (memberName M.env.keccak a)) = f'.member ∧ load s' .vks = f'.vks ∧
      ∀ i, getIndexPlus p a = some i → load s' (.share i) = f'.share
  | _ => True

/-- The call that a node sends in each phase. -/
def CallOf (p : State) (c : Call) : Prop :=
  match p.contractPhase with
  | .Unregistered => ∃ k, c = .registerNode k
  | .Nidkg => ∃ pp pr, c = .submitPublicParams pp pr
  | .Ready => ∃ e, c = .submitPartialEval e
  | _ => False

theorem eval_values {M : Machine} {p : State} {a : Address} {f f' : Files} {d : Draw} {c : Call}
    (h : Services.submitPartialEval M p a f d = .send f' c) :
    ∃ i sh vks e w, getIndexPlus p a = some i ∧ f.share = some sh ∧ f.vks = some vks ∧
      Client.eval M.env.keccak (evalHash M.env.keccak) (config p) i sh (p.roundInput p.currentRoundNum)
        d.nonce = .ok e ∧
      Client.verifyEval M.env.keccak (evalHash M.env.keccak) (config p) i e vks
        (p.roundInput p.currentRoundNum) = .ok () ∧
      Client.evalSubmission e = some w ∧ f' = f ∧ c = .submitPartialEval w := by
  unfold Services.submitPartialEval at h
  dsimp only at h
  split at h
  · rename_i i sh vks h1 h2 h3
    split at h
    · cases h
    · rename_i e h4
      split at h
      · cases h
      · rename_i h5
        split at h
        · cases h
        · rename_i w h6
          cases h
          exact ⟨i, sh, vks, e, w, h1, h2, h3, h4, h5, h6, rfl, rfl⟩
  · cases h

theorem derive_values {p : State} {a : Address} {f f' : Files}
    (h : Services.nidkgDerive p a f = some f') :
    ∃ i m out, getIndexPlus p a = some i ∧ f.member = some m ∧
      Client.derive (config p) (Client.instancesFile p.ppList) (some (i, m)) = .ok out ∧
      f' = { f with gpk := some out.gpk, vks := some out.vks, share := out.share } := by
  unfold Services.nidkgDerive at h
  split at h
  · rename_i i m h1 h2
    split at h
    · rename_i out h3
      cases h
      exact ⟨i, m, out, h1, h2, h3, rfl⟩
    · cases h
  · cases h

theorem deal_values {M : Machine} {p : State} {a : Address} {f f' : Files} {d : Draw} {c : Call}
    (h : Services.submitPP M p a f d = .send f' c) :
    ∃ i proof file pp, getIndexPlus p a = some i ∧
      Client.prove M.prover M.infPanics (config p) i (Client.mpksFile p.pkList) d.stream = .ok (proof, file) ∧
      Client.dkgVerify M.verifier (config p) i proof file (Client.mpksFile p.pkList) = .ok () ∧
      Client.ppSubmission file = some pp ∧ f' = f ∧ c = .submitPublicParams pp proof := by
  unfold Services.submitPP at h
  dsimp only at h
  split at h
  · cases h
  · rename_i i h1
    split at h
    · cases h
    · rename_i proof file h2
      split at h
      · cases h
      · rename_i h3
        split at h
        · cases h
        · rename_i pp h4
          cases h
          exact ⟨i, proof, file, pp, h1, h2, h3, h4, rfl, rfl⟩

theorem register_values {f f' : Files} {d : Draw} {c : Call}
    (h : Services.registerNode f d = .send f' c) :
    ∃ k, Client.registration (Client.keygen d.sk) = some k ∧
      f' = { f with member := some (Client.keygen d.sk) } ∧ c = .registerNode k := by
  unfold Services.registerNode at h
  dsimp only at h
  split at h
  · cases h
  · rename_i k h1
    cases h
    exact ⟨k, h1, rfl, rfl⟩

/-- A node with files does what a node with values does. -/
theorem node_sim {M : Machine} {p : State} (hn : p.memberCount < 2 ^ 64) {a : Address} {s : Store} {f : Files}
    (d : Draw) (hreg : p.contractPhase = .Ready → (p.addrToNode a).status = true)
    (h : NodeRel M p a s f) (hf : ∀ f', Services.nodePass M p a f d ≠ .failed f') :
    ∃ s', (nodePass M p a d).run s = (s', resultOf (Services.nodePass M p a f d)) ∧
      (Services.nodePass M p a f d = .idle → s' = s) ∧
      ∀ f' c, Services.nodePass M p a f d = .send f' c → After M p a s' f' ∧ CallOf p c ∧
        (p.contractPhase = .Nidkg → f' = f) := by
  unfold Services.nodePass at hf ⊢
  unfold nodePass
  dsimp only at hf ⊢
  by_cases h1 : (p.addrToNode a).nodeAddress = a
  swap
  · rw [if_neg h1] at hf ⊢
    rw [if_neg h1]
    exact ⟨s, rfl, fun _ => rfl, fun f' c hc => by cases hc⟩
  rw [if_pos h1] at hf ⊢
  rw [if_pos h1]
  unfold After CallOf
  cases h2 : p.contractPhase with
  | Registered => exact ⟨s, rfl, fun _ => rfl, fun f' c hc => by cases hc⟩
  | NidkgComplete => exact ⟨s, rfl, fun _ => rfl, fun f' c hc => by cases hc⟩
  | Unregistered =>
    rw [h2] at hf
    dsimp only at hf ⊢
    split at hf
    · rename_i h3
      rw [if_pos h3]
      rw [if_pos h3]
      cases h4 : Services.registerNode f d with
      | idle => unfold Services.registerNode at h4; dsimp only at h4; split at h4 <;> cases h4
      | failed f' => exact absurd h4 (hf f')
      | send f' c =>
        obtain ⟨k, h5, rfl, rfl⟩ := register_values h4
        refine ⟨_, sending_run (register_run p a d s h5), (fun h => by cases h), ?_⟩
        intro f'' c hc
        cases hc
        exact ⟨load_save (good_member _ 125) _ _, ⟨k, rfl⟩, fun h => by cases h⟩
    · rename_i h3
      rw [if_neg h3]
      rw [if_neg h3]
      exact ⟨s, rfl, fun _ => rfl, fun f' c hc => by cases hc⟩
  | Nidkg =>
    rw [h2] at hf
    dsimp only at hf ⊢
    split at hf
    · rename_i h3
      rw [if_pos h3]
      rw [if_pos h3]
      cases h4 : Services.submitPP M p a f d with
      | idle =>
        unfold Services.submitPP at h4
        dsimp only at h4
        split at h4
        · cases h4
        · split at h4
          · cases h4
          · split at h4
            · cases h4
            · split at h4 <;> cases h4
      | failed f' => exact absurd h4 (hf f')
      | send f' c =>
        obtain ⟨i, proof, file, pp, h5, h6, h7, h8, rfl, rfl⟩ := deal_values h4
        obtain ⟨s', hs'⟩ := submitPP_run s h5 h6 h7 h8
        refine ⟨s', sending_run hs', (fun h => by cases h), ?_⟩
        intro f'' c hc
        cases hc
        exact ⟨trivial, ⟨_, _, rfl⟩, fun _ => rfl⟩
    · rename_i h3
      rw [if_neg h3]
      rw [if_neg h3]
      exact ⟨s, rfl, fun _ => rfl, fun f' c hc => by cases hc⟩
  | Ready =>
    rw [h2] at hf
    dsimp only at hf ⊢
    have hm := h.member (hreg h2)
    split at hf
    · rename_i h3
      rw [if_pos h3]
      rw [if_pos h3]
      unfold deriveFirst
      by_cases h4 : p.lastSubmittedRound a = 0
      · rw [if_pos h4] at hf ⊢
        rw [if_pos h4]
        cases h5 : Services.nidkgDerive p a f with
        | none => rw [h5] at hf; exact absurd rfl (hf f)
        | some f1 =>
          rw [h5] at hf
          dsimp only at hf ⊢
          obtain ⟨i, m, out, k1, k2, k3, rfl⟩ := derive_values h5
          obtain ⟨s1, r1, r2, r3, r4⟩ := derive_run (d := d) hn k1 (hm.trans k2) k3
          cases h6 : Services.submitPartialEval M p a
              { f with gpk := some out.gpk, vks := some out.vks, share := out.share } d with
          | idle =>
            unfold Services.submitPartialEval at h6
            dsimp only at h6
            split at h6
            · split at h6
              · cases h6
              · split at h6
                · cases h6
                · split at h6 <;> cases h6
            · cases h6
          | failed f' => exact absurd h6 (hf f')
          | send f' c =>
            obtain ⟨j, sh, vks, e, w, e1, e2, e3, e4, e5, e6, rfl, rfl⟩ := eval_values h6
            rw [k1] at e1
            cases e1
            refine ⟨_, sending_run ((run_seq r1).trans (eval_run k1 (r3.trans e2) (r2.trans e3) e4 e5 e6)),
              (fun h => by cases h), ?_⟩
            intro f'' c hc
            cases hc
            refine ⟨⟨?_, ?_, fun j hj => ?_⟩, ⟨_, rfl⟩, fun h => by cases h⟩
            · rw [load_save_ne (x := .eval i) (y := .member (memberName M.env.keccak a)) _ _ trivial (slash_memberName _ _)
              (by simp), r4, k2]
            · rw [load_save_ne (x := .eval i) (y := .vks) _ _ trivial trivial (by simp), r2]
            · rw [k1] at hj
              cases hj
              rw [load_save_ne (x := .eval i) (y := .share i) _ _ trivial trivial (by simp), r3]
      · rw [if_neg h4] at hf ⊢
        rw [if_neg h4]
        cases h6 : Services.submitPartialEval M p a f d with
        | idle =>
          unfold Services.submitPartialEval at h6
          dsimp only at h6
          split at h6
          · split at h6
            · cases h6
            · split at h6
              · cases h6
              · split at h6 <;> cases h6
          · cases h6
        | failed f' => exact absurd h6 (hf f')
        | send f' c =>
          obtain ⟨i, sh, vks, e, w, e1, e2, e3, e4, e5, e6, rfl, rfl⟩ := eval_values h6
          have hv := h.vks h4
          have hsh := h.share h4 i e1
          refine ⟨_, sending_run (eval_run e1 (hsh.trans e2) (hv.trans e3) e4 e5 e6),
            (fun h => by cases h), ?_⟩
          intro f'' c hc
          cases hc
          refine ⟨⟨?_, ?_, fun j hj => ?_⟩, ⟨_, rfl⟩, fun h => by cases h⟩
          · rw [load_save_ne (x := .eval i) (y := .member (memberName M.env.keccak a)) _ _ trivial (slash_memberName _ _)
              (by simp), hm]
          · rw [load_save_ne (x := .eval i) (y := .vks) _ _ trivial trivial (by simp), hv]
          · rw [e1] at hj
            cases hj
            rw [load_save_ne (x := .eval i) (y := .share i) _ _ trivial trivial (by simp), hsh]
    · rename_i h3
      rw [if_neg h3]
      rw [if_neg h3]
      exact ⟨s, rfl, fun _ => rfl, fun f' c hc => by cases hc⟩

theorem gpp_values {p : State} {f f' : Files} {c : Call} (h : Services.createGpp p f = .send f' c) :
    ∃ out g, Client.derive (config p) (Client.instancesFile p.ppList) none = .ok out ∧
      Client.gpkSubmission out.gpk = some g ∧ f' = { f with gpk := some out.gpk, vks := some out.vks } ∧
      c = .computeVk g := by
  unfold Services.createGpp at h
  split at h
  · cases h
  · rename_i out h1
    dsimp only at h
    split at h
    · cases h
    · rename_i g h2
      cases h
      exact ⟨out, g, h1, h2, rfl, rfl⟩

theorem random_values {M : Machine} {p : State} {f f' : Files} {c : Call}
    (h : Services.createRandom M p f = .send f' c) :
    ∃ gpk vks out rnd, f.gpk = some gpk ∧ f.vks = some vks ∧
      Client.combine M.env.E M.env.keccak (evalHash M.env.keccak) (config p)
        (Client.evalsFile p.memberCount (p.roundToEval p.currentRoundNum)) gpk vks
        (p.roundInput p.currentRoundNum) false = .ok out ∧
      Client.verifyFinal M.env.E M.env.keccak (evalHash M.env.keccak) out gpk
        (p.roundInput p.currentRoundNum) = .ok () ∧
      Client.submission out = some rnd ∧ f' = f ∧ c = .submitRandom rnd := by
  unfold Services.createRandom at h
  dsimp only at h
  split at h
  · rename_i gpk vks h1 h2
    split at h
    · cases h
    · rename_i out h3
      split at h
      · cases h
      · rename_i h4
        split at h
        · cases h
        · rename_i rnd h5
          cases h
          exact ⟨gpk, vks, out, rnd, h1, h2, h3, h4, h5, rfl, rfl⟩
  · cases h

/-- What the admin sends in each phase. -/
def AdminCall (p : State) (c : Call) : Prop :=
  match p.contractPhase with
  | .Registered => c = .startNidkg
  | .NidkgComplete => ∃ g, c = .computeVk g
  | .Ready => c = .initiateRandom ∨ ∃ rnd, c = .submitRandom rnd
  | _ => False

/-- An admin with files does what an admin with values does. -/
theorem admin_sim {M : Machine} {p : State} {s : Store} {f : Files}
    (hidx : ∀ i, (p.roundToEval p.currentRoundNum i).indexPlus < 2 ^ 64) (d : Draw) (begun : Bool)
    (h : AdminRel p s f) (hf : ∀ f', Services.adminPass M p f begun ≠ .failed f') :
    ∃ s', (adminPass M p d begun).run s = (s', resultOf (Services.adminPass M p f begun)) ∧
      (Services.adminPass M p f begun = .idle → s' = s) ∧
      ∀ f' c, Services.adminPass M p f begun = .send f' c → AdminCall p c ∧
        (p.contractPhase = .NidkgComplete → load s' .gpk = f'.gpk ∧ load s' .vks = f'.vks) ∧
        (p.contractPhase ≠ .NidkgComplete → f' = f) := by
  unfold Services.adminPass at hf ⊢
  unfold adminPass AdminCall
  cases h2 : p.contractPhase with
  | Unregistered => exact ⟨s, rfl, fun _ => rfl, fun f' c hc => by cases hc⟩
  | Nidkg => exact ⟨s, rfl, fun _ => rfl, fun f' c hc => by cases hc⟩
  | Registered =>
    exact ⟨s, rfl, fun _ => rfl, fun f' c hc => by cases hc; exact ⟨rfl, fun h => (by cases h), fun _ => rfl⟩⟩
  | NidkgComplete =>
    rw [h2] at hf
    dsimp only at hf ⊢
    cases h4 : Services.createGpp p f with
    | idle =>
      unfold Services.createGpp at h4
      split at h4
      · cases h4
      · dsimp only at h4
        split at h4 <;> cases h4
    | failed f' => exact absurd h4 (hf f')
    | send f' c =>
      obtain ⟨out, g, k1, k2, rfl, rfl⟩ := gpp_values h4
      obtain ⟨s', r1, r2, r3⟩ := gpp_run (M := M) d s k1 k2
      refine ⟨s', sending_run r1, (fun h => by cases h), ?_⟩
      intro f'' c hc
      cases hc
      exact ⟨⟨g, rfl⟩, fun _ => ⟨r2, r3⟩, fun h => absurd rfl h⟩
  | Ready =>
    rw [h2] at hf
    dsimp only at hf ⊢
    split at hf
    · rename_i h3
      rw [if_pos h3]
      rw [if_pos h3]
      exact ⟨s, rfl, fun _ => rfl, fun f' c hc => by cases hc⟩
    · rename_i h3
      rw [if_neg h3]
      rw [if_neg h3]
      split at hf
      · rename_i h5
        rw [if_pos h5]
        rw [if_pos h5]
        exact ⟨s, rfl, fun _ => rfl, fun f' c hc => by
          cases hc; exact ⟨Or.inl rfl, fun h => (by cases h), fun _ => rfl⟩⟩
      · rename_i h5
        rw [if_neg h5]
        rw [if_neg h5]
        split at hf
        · rename_i h6
          rw [if_pos h6]
          rw [if_pos h6]
          cases h4 : Services.createRandom M p f with
          | idle =>
            unfold Services.createRandom at h4
            dsimp only at h4
            split at h4
            · split at h4
              · cases h4
              · split at h4
                · cases h4
                · split at h4 <;> cases h4
            · cases h4
          | failed f' => exact absurd h4 (hf f')
          | send f' c =>
            obtain ⟨gpk, vks, out, rnd, k1, k2, k3, k4, k5, rfl, rfl⟩ := random_values h4
            obtain ⟨s', r1⟩ := random_run (M := M) d s hidx ((h.gpk h2).trans k1) ((h.vks h2).trans k2) k3 k4 k5
            refine ⟨s', sending_run r1, (fun h => by cases h), ?_⟩
            intro f'' c hc
            cases hc
            exact ⟨Or.inr ⟨rnd, rfl⟩, fun h => (by cases h), fun _ => rfl⟩
        · rename_i h6
          rw [if_neg h6]
          rw [if_neg h6]
          exact ⟨s, rfl, fun _ => rfl, fun f' c hc => by cases hc⟩

/-! ### Effects of the calls -/

theorem node_effect {M : Machine} {p p' : State} {a : Address} {c : Call} (hc : CallOf p c)
    (he : ZkdvrfPre.exec M.env p ⟨a, 0⟩ c = some p') :
    (p'.contractPhase = .Ready ↔ p.contractPhase = .Ready) ∧
    (∀ b, b ≠ a → p'.addrToNode b = p.addrToNode b ∧ p'.lastSubmittedRound b = p.lastSubmittedRound b) ∧
    (p.contractPhase ≠ .Unregistered → (p'.addrToNode a).status = (p.addrToNode a).status ∧
      getIndexPlus p' a = getIndexPlus p a) := by
  unfold CallOf at hc
  cases h2 : p.contractPhase with
  | Registered => rw [h2] at hc; exact hc.elim
  | NidkgComplete => rw [h2] at hc; exact hc.elim
  | Unregistered =>
    rw [h2] at hc
    obtain ⟨k, rfl⟩ := hc
    obtain ⟨_, _, _, _, _, _, _, rfl⟩ := ZkdvrfPre.registerNode_some.1 he
    dsimp only
    refine ⟨⟨fun h => ?_, fun h => by cases h⟩, fun b hb => ⟨Function.update_of_ne hb _ _, rfl⟩,
      fun h => absurd rfl h⟩
    split at h
    · cases h
    · rw [h2] at h; cases h
  | Nidkg =>
    rw [h2] at hc
    obtain ⟨pp, pr, rfl⟩ := hc
    obtain ⟨_, _, _, _, _, _, _, rfl⟩ := ZkdvrfPre.submitPublicParams_some.1 he
    dsimp only
    refine ⟨⟨fun h => ?_, fun h => by cases h⟩, fun b hb => ⟨Function.update_of_ne hb _ _, rfl⟩, fun _ => ?_⟩
    · split at h
      · cases h
      · rw [h2] at h; cases h
    · unfold getIndexPlus
      dsimp only
      rw [Function.update_self]
      exact ⟨rfl, rfl⟩
  | Ready =>
    rw [h2] at hc
    obtain ⟨e, rfl⟩ := hc
    obtain ⟨_, _, _, _, _, _, _, _, rfl⟩ := ZkdvrfPre.submitPartialEval_some.1 he
    dsimp only
    exact ⟨⟨fun _ => rfl, fun _ => h2⟩, fun b hb => ⟨rfl, Function.update_of_ne hb _ _⟩, fun _ => ⟨rfl, rfl⟩⟩

theorem admin_effect {M : Machine} {p p' : State} {o : Address} {c : Call} (hc : AdminCall p c)
    (he : ZkdvrfPre.exec M.env p ⟨o, 0⟩ c = some p') :
    (p'.contractPhase = .Ready ↔ p.contractPhase = .NidkgComplete ∨ p.contractPhase = .Ready) ∧
    p'.addrToNode = p.addrToNode ∧ p'.lastSubmittedRound = p.lastSubmittedRound := by
  unfold AdminCall at hc
  cases h2 : p.contractPhase with
  | Unregistered => rw [h2] at hc; exact hc.elim
  | Nidkg => rw [h2] at hc; exact hc.elim
  | Registered =>
    rw [h2] at hc
    subst hc
    obtain ⟨_, _, _, rfl⟩ := ZkdvrfPre.startNidkg_some.1 he
    exact ⟨⟨fun h => (by cases h), fun h => (by rcases h with h | h <;> cases h)⟩, rfl, rfl⟩
  | NidkgComplete =>
    rw [h2] at hc
    obtain ⟨g, rfl⟩ := hc
    obtain ⟨_, _, _, _, rfl⟩ := ZkdvrfPre.computeVk_some.1 he
    exact ⟨⟨fun _ => Or.inl rfl, fun _ => rfl⟩, rfl, rfl⟩
  | Ready =>
    rw [h2] at hc
    rcases hc with rfl | ⟨rnd, rfl⟩
    · obtain ⟨_, _, _, _, _, _, _, rfl⟩ := ZkdvrfPre.initiateRandom_some.1 he
      exact ⟨⟨fun _ => Or.inr rfl, fun _ => h2⟩, rfl, rfl⟩
    · obtain ⟨_, _, _, _, _, _, rfl⟩ := ZkdvrfPre.submitRandom_some.1 he
      exact ⟨⟨fun _ => Or.inr rfl, fun _ => h2⟩, rfl, rfl⟩

/-! ### Histories -/

theorem facts {M : Machine} {o : Address} {ws : List Address} {t n N : ℕ} {v : Services.World}
    (h : SInv M o ws t n N v) (ht : 1 ≤ t) (htn : t ≤ n) :
    v.p.memberCount < 2 ^ 64 ∧ v.p.threshold < 2 ^ 64 ∧
    (∀ k i, (v.p.roundToEval k i).indexPlus < 2 ^ 64) ∧
    (v.p.contractPhase = .Ready → ∀ a ∈ ws, (v.p.addrToNode a).status = true) ∧
    (v.p.contractPhase ≠ .Ready → ∀ a, v.p.lastSubmittedRound a = 0) := by
  have ht' : 1 ≤ v.p.threshold := by rw [h.thr]; exact ht
  obtain ⟨_, o1, o2, hz⟩ := ZkdvrfPre.sim h.reach ht'
  have hreg := Zkdvrf.regInv hz
  have hb : 7 * v.p.memberCount + 14 < 2 ^ 32 := hreg.bound
  have hn : v.p.memberCount < 2 ^ 64 := by omega
  refine ⟨hn, ?_, ?_, ?_, fun hp a => (early h.reach ht' hp).1 a⟩
  · rw [h.thr]
    rw [h.cnt] at hn
    omega
  · intro k i
    by_cases h0 : (v.p.roundToEval k i).indexPlus = 0
    · rw [h0]; exact (by norm_num)
    · obtain ⟨-, h1, -, h2, -⟩ := (Zkdvrf.evalInv hz).stored k i h0
      have h2 : (v.p.roundToEval k i).indexPlus = i + 1 := h2
      have h1 : i < v.p.registeredCount := h1
      have h3 : v.p.registeredCount ≤ v.p.currentIndex := hreg.reg_card
      have h4 : v.p.currentIndex ≤ v.p.memberCount := hreg.idx_le
      omega
  · intro hp a ha
    refine hreg.all_registered (hreg.started ?_) a ((h.added a).2 ha)
    show v.p.contractPhase.toZk ≠ _
    rw [ZkdvrfPre.toZk_ready.2 hp]
    exact Zkdvrf.Phase.noConfusion

theorem not_failed {M : Machine} {p : State} {a : Address} {out : Out} (h : Services.Fine M p a out) :
    ∀ f, out ≠ .failed f := by
  rintro f rfl
  exact h

theorem mine_some {M : Machine} {p p' : State} {a : Address} {c : Call}
    (h : ZkdvrfPre.exec M.env p ⟨a, 0⟩ c = some p') : Services.mine M p a c = p' := by
  unfold Services.mine
  exact ZkdvrfPre.step_some h

/-- The world with values that has done the same transactions. -/
structure Sim (M : Machine) (o : Address) (ws : List Address) (t n : ℕ) (aux1 : G1) (aux2 : G2)
    (v₀ : Services.World) (N : ℕ) (w : World) (v : Services.World) : Prop where
  state : v.p = w.p
  honest : Services.Honest M o ws t n aux1 aux2 v₀ N v
  admin : AdminRel w.p w.admin v.admin
  node : ∀ a, NodeRel M w.p a (w.node a) (v.node a)

section
variable {M : Machine} {o : Address} {ws : List Address} {t n : ℕ} {aux1 : G1} {aux2 : G2}
  {v₀ v : Services.World} {N : ℕ} {w : World}

theorem Sim.inv (hM : Faithful M t n aux1 aux2) (h0 : Fresh M o ws t n v₀.p)
    (h : Sim M o ws t n aux1 aux2 v₀ N w v) (hN : N < 2 ^ 255) : SInv M o ws t n N v :=
  honest_inv hM h0 h.honest hN.le

theorem Sim.nodeRun (hM : Faithful M t n aux1 aux2) (h0 : Fresh M o ws t n v₀.p)
    (h : Sim M o ws t n aux1 aux2 v₀ N w v) (hN : N < 2 ^ 255) {a : Address} (ha : a ∈ ws) {d : Draw}
    (hd : GoodDraw t n aux1 aux2 d) :
    ∃ s', (nodePass M w.p a d).run (w.node a) = (s', resultOf (Services.nodePass M w.p a (v.node a) d)) ∧
      (Services.nodePass M w.p a (v.node a) d = .idle → s' = w.node a) ∧
      ∀ f' c, Services.nodePass M w.p a (v.node a) d = .send f' c → After M w.p a s' f' ∧ CallOf w.p c ∧
        (w.p.contractPhase = .Nidkg → f' = v.node a) := by
  have hi := h.inv hM h0 hN
  obtain ⟨h1, h2, h3, h4, h5⟩ := facts hi h0.t_pos h0.t_le
  have hf := (C55_no_failure M hM h0 h.honest hN).1 a ha d hd
  rw [h.state] at h1 h4 hf
  exact node_sim h1 d (fun hp => h4 hp a ha) (h.node a) (not_failed hf)

theorem Sim.adminRun (hM : Faithful M t n aux1 aux2) (h0 : Fresh M o ws t n v₀.p)
    (h : Sim M o ws t n aux1 aux2 v₀ N w v) (hN : N < 2 ^ 255) (d : Draw) (begun : Bool) :
    ∃ s', (adminPass M w.p d begun).run w.admin = (s', resultOf (Services.adminPass M w.p v.admin begun)) ∧
      (Services.adminPass M w.p v.admin begun = .idle → s' = w.admin) ∧
      ∀ f' c, Services.adminPass M w.p v.admin begun = .send f' c → AdminCall w.p c ∧
        (w.p.contractPhase = .NidkgComplete → load s' .gpk = f'.gpk ∧ load s' .vks = f'.vks) ∧
        (w.p.contractPhase ≠ .NidkgComplete → f' = v.admin) := by
  have hi := h.inv hM h0 hN
  obtain ⟨h1, h2, h3, h4, h5⟩ := facts hi h0.t_pos h0.t_le
  have hf := (C55_no_failure M hM h0 h.honest hN).2.1 begun
  rw [h.state] at h3 hf
  exact admin_sim (h3 _) d begun h.admin (not_failed hf)

theorem Sim.nodeStep (hM : Faithful M t n aux1 aux2) (h0 : Fresh M o ws t n v₀.p)
    (h : Sim M o ws t n aux1 aux2 v₀ N w v) (hN : N < 2 ^ 255) {a : Address} (ha : a ∈ ws) {d : Draw}
    (hd : GoodDraw t n aux1 aux2 d) :
    Sim M o ws t n aux1 aux2 v₀ (N + sent ((nodePass M w.p a d).run (w.node a)).2) (w.nodeStep M a d)
      (v.nodeStep M a d) := by
  have hi := h.inv hM h0 hN
  obtain ⟨h1, h2, -, h4, h5⟩ := facts hi h0.t_pos h0.t_le
  obtain ⟨s', r1, r2, r3⟩ := h.nodeRun hM h0 hN ha hd
  have hf := (C55_no_failure M hM h0 h.honest hN).1 a ha d hd
  have hh := Services.Honest.node a d ha hd h.honest
  have hw : w.nodeStep M a d = { w with
      p := mined M w.p a (resultOf (Services.nodePass M w.p a (v.node a) d)),
      node := Function.update w.node a s' } := by
    unfold World.nodeStep
    dsimp only
    rw [r1]
  rw [hw, r1]
  dsimp only
  rw [sent_resultOf]
  rw [h.state] at hf hh h1 h2 h4 h5
  have hv : v.nodeStep M a d = match Services.nodePass M w.p a (v.node a) d with
      | .idle => v
      | .failed f => { v with node := Function.update v.node a f }
      | .send f c => { v with p := Services.mine M w.p a c, node := Function.update v.node a f } := by
    unfold Services.World.nodeStep
    rw [h.state]
    cases Services.nodePass M w.p a (v.node a) d <;> rfl
  cases ho : Services.nodePass M w.p a (v.node a) d with
  | failed f => exact absurd ho (not_failed hf f)
  | idle =>
    rw [ho] at hv hh
    dsimp only at hv
    rw [hv] at hh ⊢
    rw [r2 ho, Function.update_eq_self]
    exact ⟨h.state, hh, h.admin, h.node⟩
  | send f' c =>
    rw [ho] at hv hh hf
    obtain ⟨p', he⟩ := hf
    obtain ⟨k1, k2, k3⟩ := r3 f' c ho
    obtain ⟨e1, e2, e3⟩ := node_effect k2 he
    dsimp only at hv
    rw [mine_some he] at hv
    rw [hv] at hh ⊢
    have hp : mined M w.p a (resultOf (.send f' c)) = p' := mine_some he
    rw [hp]
    have h5' : p'.contractPhase ≠ .Ready → ∀ b, p'.lastSubmittedRound b = 0 := by
      intro hp'
      have hq : w.p.contractPhase ≠ .Ready := fun h => hp' (e1.2 h)
      unfold CallOf at k2
      cases h2 : w.p.contractPhase with
      | Registered => rw [h2] at k2; exact k2.elim
      | NidkgComplete => rw [h2] at k2; exact k2.elim
      | Ready => exact absurd h2 hq
      | Unregistered =>
        rw [h2] at k2
        obtain ⟨k, rfl⟩ := k2
        obtain ⟨_, _, _, _, _, _, _, rfl⟩ := ZkdvrfPre.registerNode_some.1 he
        exact h5 hq
      | Nidkg =>
        rw [h2] at k2
        obtain ⟨pp, pr, rfl⟩ := k2
        obtain ⟨_, _, _, _, _, _, _, rfl⟩ := ZkdvrfPre.submitPublicParams_some.1 he
        exact h5 hq
    refine ⟨rfl, hh, ⟨fun hr => h.admin.gpk (e1.1 hr), fun hr => h.admin.vks (e1.1 hr)⟩, fun b => ?_⟩
    dsimp only
    by_cases hb : b = a
    · subst hb
      rw [Function.update_self, Function.update_self]
      have hs' : ∀ x : DataFile, x.Plain → ¬ nodeWrites M w.p b x → s' x.name = w.node b x.name := by
        intro x hx hnw
        have := run_other (nodePass_writes (M := M) h2 h1 b d) (w.node b) (not_names (fun _ h => h.1) hx hnw)
        rw [r1] at this
        exact this
      have hd' := (h.node b).disk hs'
      unfold After at k1
      cases hph : w.p.contractPhase with
      | Registered => unfold CallOf at k2; rw [hph] at k2; exact k2.elim
      | NidkgComplete => unfold CallOf at k2; rw [hph] at k2; exact k2.elim
      | Unregistered =>
        rw [hph] at k1
        have hq : p'.contractPhase ≠ .Ready := fun h => by
          rw [e1, hph] at h; cases h
        exact ⟨fun _ => k1, fun h => absurd (h5' hq b) h, fun h => absurd (h5' hq b) h⟩
      | Nidkg =>
        have hq : p'.contractPhase ≠ .Ready := fun h => by
          rw [e1, hph] at h; cases h
        refine ⟨fun hst => ?_, fun h => absurd (h5' hq b) h, fun h => absurd (h5' hq b) h⟩
        rw [(e3 (by rw [hph]; exact ZkdvrfPre.Phase.noConfusion)).1] at hst
        rw [k3 hph]
        exact hd'.member hst
      | Ready =>
        rw [hph] at k1
        obtain ⟨-, e4⟩ := e3 (by rw [hph]; exact ZkdvrfPre.Phase.noConfusion)
        exact ⟨fun _ => k1.1, fun _ => k1.2.1, fun _ i hi => k1.2.2 i (e4 ▸ hi)⟩
    · rw [Function.update_of_ne hb, Function.update_of_ne hb]
      exact (h.node b).state (e2 b hb).1 (e2 b hb).2

theorem Sim.nodeStopped (hM : Faithful M t n aux1 aux2) (h0 : Fresh M o ws t n v₀.p)
    (h : Sim M o ws t n aux1 aux2 v₀ N w v) (hN : N < 2 ^ 255) {a : Address} {d : Draw} {s : Store}
    (hs : Stopped (nodePass M w.p a d) (w.node a) s) :
    Sim M o ws t n aux1 aux2 v₀ N { w with node := Function.update w.node a s } v := by
  have hi := h.inv hM h0 hN
  obtain ⟨h1, h2, -, -, -⟩ := facts hi h0.t_pos h0.t_le
  rw [h.state] at h1 h2
  refine ⟨h.state, h.honest, h.admin, fun b => ?_⟩
  dsimp only
  by_cases hb : b = a
  · subst hb
    rw [Function.update_self]
    exact (h.node b).disk (fun x hx hnw =>
      stopped_other (nodePass_writes (M := M) h2 h1 b d) hs (not_names (fun _ h => h.1) hx hnw))
  · rw [Function.update_of_ne hb]
    exact h.node b

theorem Sim.adminStopped (hM : Faithful M t n aux1 aux2) (h0 : Fresh M o ws t n v₀.p)
    (h : Sim M o ws t n aux1 aux2 v₀ N w v) (hN : N < 2 ^ 255) {d : Draw} {begun : Bool} {s : Store}
    (hs : Stopped (adminPass M w.p d begun) w.admin s) :
    Sim M o ws t n aux1 aux2 v₀ N { w with admin := s } v := by
  have hi := h.inv hM h0 hN
  obtain ⟨h1, h2, -, -, -⟩ := facts hi h0.t_pos h0.t_le
  rw [h.state] at h1 h2
  refine ⟨h.state, h.honest, ?_, h.node⟩
  exact h.admin.disk (fun x hx hnw =>
    stopped_other (adminPass_writes (M := M) h2 h1 d begun) hs (not_names (fun _ h => h.1) hx hnw))

theorem Sim.adminStep (hM : Faithful M t n aux1 aux2) (h0 : Fresh M o ws t n v₀.p)
    (h : Sim M o ws t n aux1 aux2 v₀ N w v) (hN : N < 2 ^ 255) (d : Draw) (begun : Bool) :
    Sim M o ws t n aux1 aux2 v₀ (N + sent ((adminPass M w.p d begun).run w.admin).2) (w.adminStep M o d begun)
      (v.adminStep M o (Services.adminPass M v.p v.admin begun)) := by
  have hi := h.inv hM h0 hN
  obtain ⟨h1, h2, -, h4, h5⟩ := facts hi h0.t_pos h0.t_le
  obtain ⟨s', r1, r2, r3⟩ := h.adminRun hM h0 hN d begun
  have hf := (C55_no_failure M hM h0 h.honest hN).2.1 begun
  have hh := Services.Honest.admin begun h.honest
  have hw : w.adminStep M o d begun = { w with
      p := mined M w.p o (resultOf (Services.adminPass M w.p v.admin begun)), admin := s' } := by
    unfold World.adminStep
    dsimp only
    rw [r1]
  rw [hw, r1]
  dsimp only
  rw [sent_resultOf]
  rw [h.state] at hf hh h1 h2 h4 h5 ⊢
  cases ho : Services.adminPass M w.p v.admin begun with
  | failed f => exact absurd ho (not_failed hf f)
  | idle =>
    rw [ho] at hh
    rw [r2 ho]
    exact ⟨h.state, hh, h.admin, h.node⟩
  | send f' c =>
    rw [ho] at hh hf
    obtain ⟨p', he⟩ := hf
    obtain ⟨k1, k2, k3⟩ := r3 f' c ho
    obtain ⟨e1, e2, e3⟩ := admin_effect k1 he
    have hp : mined M w.p o (resultOf (.send f' c)) = p' := mine_some he
    rw [hp]
    have hp2 : v.adminStep M o (.send f' c) = { v with p := p', admin := f' } := by
      unfold Services.World.adminStep
      dsimp only
      rw [h.state, mine_some he]
    rw [hp2] at hh ⊢
    have hs' : ∀ x : DataFile, x.Plain → ¬ adminWrites w.p x → s' x.name = w.admin x.name := by
      intro x hx hnw
      have := run_other (adminPass_writes (M := M) h2 h1 d begun) w.admin (not_names (fun _ h => h.1) hx hnw)
      rw [r1] at this
      exact this
    have hd' := h.admin.disk hs'
    refine ⟨rfl, hh, ?_, fun b => ?_⟩
    · dsimp only
      by_cases hc : w.p.contractPhase = .NidkgComplete
      · exact ⟨fun _ => (k2 hc).1, fun _ => (k2 hc).2⟩
      · rw [k3 hc]
        refine ⟨fun hr => hd'.gpk ?_, fun hr => hd'.vks ?_⟩
        · exact (e1.1 hr).resolve_left hc
        · exact (e1.1 hr).resolve_left hc
    · exact (h.node b).state (congrFun e2 b) (congrFun e3 b)

theorem tick_out (p : State) (f f' : Files) (begun elapsed : Bool) :
    (Services.adminTick p f begun elapsed = .idle ∧ Services.adminTick p f' begun elapsed = .idle) ∨
    (p.contractPhase = .Ready ∧ Services.adminTick p f begun elapsed = .send f .initiateRandom ∧
      Services.adminTick p f' begun elapsed = .send f' .initiateRandom) := by
  unfold Services.adminTick
  cases hp : p.contractPhase with
  | Ready =>
    dsimp only
    split
    · exact Or.inr ⟨rfl, rfl, rfl⟩
    · exact Or.inl ⟨rfl, rfl⟩
  | _ => exact Or.inl ⟨rfl, rfl⟩

theorem Sim.tickStep (hM : Faithful M t n aux1 aux2) (h0 : Fresh M o ws t n v₀.p)
    (h : Sim M o ws t n aux1 aux2 v₀ N w v) (hN : N < 2 ^ 255) (begun elapsed : Bool)
    (hel : elapsed = true → Completed w.p w.p.currentRoundNum) :
    Sim M o ws t n aux1 aux2 v₀ (N + (Services.adminTick w.p .none begun elapsed).sent)
      (w.tickStep M o begun elapsed) (v.adminStep M o (Services.adminTick v.p v.admin begun elapsed)) := by
  have hel' : elapsed = true → Completed v.p v.p.currentRoundNum := by rw [h.state]; exact hel
  have hf := (C55_no_failure M hM h0 h.honest hN).2.2 begun elapsed hel'
  have hh := Services.Honest.tick begun elapsed hel' h.honest
  rw [h.state] at hf hh ⊢
  unfold World.tickStep
  rcases tick_out w.p .none v.admin begun elapsed with ⟨k1, k2⟩ | ⟨k0, k1, k2⟩
  · rw [k1]
    rw [k2] at hh ⊢
    exact ⟨h.state, hh, h.admin, h.node⟩
  · rw [k1]
    rw [k2] at hh hf ⊢
    obtain ⟨p', he⟩ := hf
    have hp2 : v.adminStep M o (.send v.admin .initiateRandom) = { v with p := p', admin := v.admin } := by
      unfold Services.World.adminStep
      dsimp only
      rw [h.state, mine_some he]
    rw [hp2] at hh ⊢
    have hc : AdminCall w.p .initiateRandom := by
      unfold AdminCall
      rw [k0]
      exact Or.inl rfl
    obtain ⟨e1, e2, e3⟩ := admin_effect hc he
    dsimp only
    rw [mine_some he]
    exact ⟨rfl, hh, ⟨fun _ => h.admin.gpk k0, fun _ => h.admin.vks k0⟩,
      fun b => (h.node b).state (congrFun e2 b) (congrFun e3 b)⟩

end

/-- Every history on files, with stops, has the transactions of a history on values without stops. -/
theorem simulated {M : Machine} {o : Address} {ws : List Address} {t n : ℕ} {aux1 : G1} {aux2 : G2}
    (hM : Faithful M t n aux1 aux2) {w w' : World} (h0 : Fresh M o ws t n w.p) {N : ℕ}
    (h : Honest M o ws t n aux1 aux2 w N w') (hN : N < 2 ^ 255) :
    ∃ v, Sim M o ws t n aux1 aux2 ⟨w.p, .none, fun _ => .none⟩ N w' v := by
  have h0' : Fresh M o ws t n (⟨w.p, .none, fun _ => .none⟩ : Services.World).p := h0
  induction h with
  | refl =>
    refine ⟨_, rfl, .refl, ⟨fun hp => ?_, fun hp => ?_⟩, fun a => ?_⟩
    · rw [h0.phase] at hp; cases hp
    · rw [h0.phase] at hp; cases hp
    · have ht' : 1 ≤ w.p.threshold := by rw [h0.threshold]; exact h0.t_pos
      have he := (early h0.reachable ht' (by rw [h0.phase]; exact ZkdvrfPre.Phase.noConfusion)).1 a
      refine ⟨fun hs => ?_, fun hl => absurd he hl, fun hl => absurd he hl⟩
      have := (C31_pre_registration M.env h0.reachable ht').2.1 a hs
      rw [h0.keys] at this
      exact absurd this (Nat.not_lt_zero _)
  | node a d ha hd _ ih =>
    have hN' := lt_of_le_of_lt (Nat.le_add_right _ _) hN
    obtain ⟨v, hv⟩ := ih hN'
    exact ⟨_, hv.nodeStep hM h0' hN' ha hd⟩
  | nodeStopped a d s hs _ ih =>
    obtain ⟨v, hv⟩ := ih hN
    exact ⟨_, hv.nodeStopped hM h0' hN hs⟩
  | admin d begun _ ih =>
    have hN' := lt_of_le_of_lt (Nat.le_add_right _ _) hN
    obtain ⟨v, hv⟩ := ih hN'
    exact ⟨_, hv.adminStep hM h0' hN' d begun⟩
  | adminStopped d begun s hs _ ih =>
    obtain ⟨v, hv⟩ := ih hN
    exact ⟨_, hv.adminStopped hM h0' hN hs⟩
  | tick begun elapsed he _ ih =>
    have hN' := lt_of_le_of_lt (Nat.le_add_right _ _) hN
    obtain ⟨v, hv⟩ := ih hN'
    exact ⟨_, hv.tickStep hM h0' hN' begun elapsed he⟩

end Verif.ServicesFiles
