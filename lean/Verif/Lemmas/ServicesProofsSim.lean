import Verif.Lemmas.ServicesProofs
import Verif.Props.ServicesFiles
import Verif.Props.Draws

/-! Services with any proof system: their histories are histories with an ideal one. -/

namespace Verif.ServicesFiles
open Disk Disk.Prog ClientFiles Props Spec
open Services (Machine Draw GoodDraw Faithful Fresh config)
open ZkdvrfPre (State Completed Registered Added indexOf getIndexPlus)
open Zkdvrf (Call)

variable {M : Machine} {o : Address} {ws : List Address} {t n : ℕ} {aux1 : G1} {aux2 : G2}

theorem landed_le (M : Machine) (p : State) (a : Address) (res : Except Stop (Option Call)) :
    landed M p a res ≤ sent res := by
  unfold landed
  split
  · split
    · exact le_rfl
    · exact Nat.zero_le _
  · exact Nat.zero_le _

theorem landedTick_le (M : Machine) (p : State) (a : Address) (out : Services.Out) :
    landedTick M p a out ≤ out.sent := by
  unfold landedTick
  split
  · split
    · exact le_rfl
    · exact Nat.zero_le _
  · exact Nat.zero_le _

theorem landed_of_fine {p : State} {a : Address} {res : Except Stop (Option Call)} (h : Fine M p a res)
    (hs : sent res = 1) : landed M p a res = 1 := by
  cases res with
  | error e => cases hs
  | ok c =>
    cases c with
    | none => cases hs
    | some c =>
      obtain ⟨p', h⟩ := h
      unfold landed
      dsimp only
      rw [h]
      rfl

theorem landedTick_of_fine {p : State} {a : Address} {out : Services.Out} (h : Services.Fine M p a out)
    (hs : out.sent = 1) : landedTick M p a out = 1 := by
  cases out with
  | idle => cases hs
  | failed f => cases hs
  | send f c =>
    obtain ⟨p', h⟩ := h
    unfold landedTick
    dsimp only
    rw [h]
    rfl

/-- One complete pass of a node, seen from the ideal world. -/
theorem node_ideal (hM : Sane M aux1 aux2) {w w' : World} (h0 : Fresh M o ws t n w.p) {N : ℕ}
    (h : Honest (ideal M t n aux1 aux2) o ws t n aux1 aux2 w N w') (hN : N < 2 ^ 255) {a : Address} {d : Draw}
    (ha : a ∈ ws) (hd : GoodDraw t n aux1 aux2 d) :
    Honest (ideal M t n aux1 aux2) o ws t n aux1 aux2 w
      (N + landed M w'.p a ((nodePass M w'.p a d).run (w'.node a)).2) (w'.nodeStep M a d) := by
  have hi := ideal_faithful (t := t) (n := n) hM
  have hf := (C91_no_failure _ hi (ideal_fresh h0) h hN).1 a ha d hd
  have he := nodePass_early (M := M) (t := t) (n := n) (aux1 := aux1) (aux2 := aux2) w'.p a d
  have hstop : ∀ c, landed M w'.p a c = 0 → mined M w'.p a c = w'.p →
      ((nodePass M w'.p a d).run (w'.node a)).2 = c →
      Honest (ideal M t n aux1 aux2) o ws t n aux1 aux2 w
      (N + landed M w'.p a ((nodePass M w'.p a d).run (w'.node a)).2) (w'.nodeStep M a d) := by
    intro c h1 h2 h3
    have : w'.nodeStep M a d = { w' with node := Function.update w'.node a ((nodePass M w'.p a d).run (w'.node a)).1 } := by
      unfold World.nodeStep
      dsimp only
      rw [h3, h2]
    rw [this, h3, h1]
    exact .nodeStopped a d _ (he.stopped (stopped_run _ _)) h
  have hh := Honest.node a d ha hd h
  have hr := he.run (w'.node a)
  generalize hx : (nodePass M w'.p a d).run (w'.node a) = x at hr hstop ⊢
  generalize hy : (nodePass (ideal M t n aux1 aux2) w'.p a d).run (w'.node a) = y at hr hf hh
  rcases hr with rfl | ⟨e, hr⟩
  · obtain ⟨s, res⟩ := x
    cases res with
    | error e => exact hf.elim
    | ok res =>
      cases res with
      | none => exact hstop _ rfl rfl rfl
      | some c =>
        obtain ⟨p', hp'⟩ := hf
        cases hc : ZkdvrfPre.exec M.env w'.p ⟨a, 0⟩ c with
        | none =>
          refine hstop _ ?_ ?_ rfl
          · unfold landed
            dsimp only
            rw [hc]; rfl
          · unfold mined
            dsimp only
            exact ZkdvrfPre.step_none hc
        | some p'' =>
          obtain rfl := exec_both hp' hc
          have e1 : landed M w'.p a (.ok (some c)) = 1 := by
            unfold landed
            dsimp only
            rw [hc]; rfl
          have e2 : w'.nodeStep M a d = w'.nodeStep (ideal M t n aux1 aux2) a d := by
            unfold World.nodeStep
            dsimp only
            rw [hx, hy]
            unfold mined
            dsimp only
            rw [mine_some hc, mine_some hp']
          dsimp only
          rw [e1, e2]
          exact hh
  · exact hstop (.error e) rfl rfl hr

theorem admin_ideal (hM : Sane M aux1 aux2) {w w' : World} (h0 : Fresh M o ws t n w.p) {N : ℕ}
    (h : Honest (ideal M t n aux1 aux2) o ws t n aux1 aux2 w N w') (hN : N < 2 ^ 255) (d : Draw) (begun : Bool) :
    Honest (ideal M t n aux1 aux2) o ws t n aux1 aux2 w
      (N + landed M w'.p o ((adminPass M w'.p d begun).run w'.admin).2) (w'.adminStep M o d begun) ∧
    Fine M w'.p o ((adminPass M w'.p d begun).run w'.admin).2 := by
  have hi := ideal_faithful (t := t) (n := n) hM
  have hf := (C91_no_failure _ hi (ideal_fresh h0) h hN).2 d begun
  have hh := Honest.admin d begun h
  have hp : ∀ c, ((adminPass M w'.p d begun).run w'.admin).2 = .ok (some c) →
      ZkdvrfPre.exec (ideal M t n aux1 aux2).env w'.p ⟨o, 0⟩ c = ZkdvrfPre.exec M.env w'.p ⟨o, 0⟩ c := by
    intro c hc
    refine exec_outside c (fun hp => ?_)
    unfold adminPass at hc
    rw [hp] at hc
    cases hc
  have hr : (adminPass (ideal M t n aux1 aux2) w'.p d begun).run w'.admin = (adminPass M w'.p d begun).run w'.admin := rfl
  unfold World.adminStep at hh ⊢
  dsimp only at hh ⊢
  rw [hr] at hf hh
  generalize hx : (adminPass M w'.p d begun).run w'.admin = x at hf hh hp ⊢
  obtain ⟨s, res⟩ := x
  cases res with
  | error e => exact hf.elim
  | ok res =>
    cases res with
    | none => exact ⟨hh, trivial⟩
    | some c =>
      obtain ⟨p', hp'⟩ := hf
      have hc := (hp c rfl).symm.trans hp'
      have e1 : landed M w'.p o (.ok (some c)) = 1 := by
        unfold landed
        dsimp only
        rw [hc]; rfl
      have e2 : mined M w'.p o (.ok (some c)) = mined (ideal M t n aux1 aux2) w'.p o (.ok (some c)) := by
        unfold mined
        dsimp only
        rw [mine_some hc, mine_some hp']
      dsimp only at hh ⊢
      rw [e1, e2]
      exact ⟨hh, p', hc⟩

theorem tick_ideal (hM : Sane M aux1 aux2) {w w' : World} (h0 : Fresh M o ws t n w.p) {N : ℕ}
    (h : Honest (ideal M t n aux1 aux2) o ws t n aux1 aux2 w N w') (hN : N < 2 ^ 255) (begun elapsed : Bool)
    (hel : elapsed = true → Completed w'.p w'.p.currentRoundNum) :
    Honest (ideal M t n aux1 aux2) o ws t n aux1 aux2 w
      (N + landedTick M w'.p o (Services.adminTick w'.p .none begun elapsed)) (w'.tickStep M o begun elapsed) ∧
    Services.Fine M w'.p o (Services.adminTick w'.p .none begun elapsed) := by
  have hi := ideal_faithful (t := t) (n := n) hM
  have h0' : Fresh (ideal M t n aux1 aux2) o ws t n (⟨w.p, .none, fun _ => .none⟩ : Services.World).p := ideal_fresh h0
  obtain ⟨v, hv⟩ := simulated hi (ideal_fresh h0) h hN
  have hel' : elapsed = true → Completed v.p v.p.currentRoundNum := by rw [hv.state]; exact hel
  have hf := (C55_no_failure _ hi h0' hv.honest hN).2.2 begun elapsed hel'
  rw [hv.state] at hf
  have hh := Honest.tick begun elapsed hel h
  unfold World.tickStep at hh ⊢
  rcases tick_out w'.p .none v.admin begun elapsed with ⟨k1, k2⟩ | ⟨k0, k1, k2⟩
  · rw [k1] at hh ⊢
    exact ⟨hh, trivial⟩
  · rw [k1] at hh ⊢
    rw [k2] at hf
    obtain ⟨p', hp'⟩ := hf
    have hc : ZkdvrfPre.exec M.env w'.p ⟨o, 0⟩ .initiateRandom = some p' := hp'
    have e1 : landedTick M w'.p o (.send .none .initiateRandom) = 1 := by
      unfold landedTick
      dsimp only
      rw [hc]; rfl
    dsimp only at hh ⊢
    rw [mine_some hp'] at hh
    rw [e1, mine_some hc]
    exact ⟨hh, p', hc⟩

/-- Every history with any proof system is a history with the ideal one. -/
theorem to_ideal (hM : Sane M aux1 aux2) {w w' : World} (h0 : Fresh M o ws t n w.p) {N : ℕ}
    (h : Accepting M o ws t n aux1 aux2 w N w') (hN : N < 2 ^ 255) :
    Honest (ideal M t n aux1 aux2) o ws t n aux1 aux2 w N w' := by
  induction h with
  | refl => exact .refl
  | node a d ha hd _ ih =>
    have hN' := lt_of_le_of_lt (Nat.le_add_right _ _) hN
    exact node_ideal hM h0 (ih hN') hN' ha hd
  | nodeStopped a d s hs _ ih => exact .nodeStopped a d s ((nodePass_early _ a d).stopped hs) (ih hN)
  | admin d begun _ ih =>
    have hN' := lt_of_le_of_lt (Nat.le_add_right _ _) hN
    exact (admin_ideal hM h0 (ih hN') hN' d begun).1
  | adminStopped d begun s hs _ ih => exact .adminStopped d begun s hs (ih hN)
  | tick begun elapsed he _ ih =>
    have hN' := lt_of_le_of_lt (Nat.le_add_right _ _) hN
    exact (tick_ideal hM h0 (ih hN') hN' begun elapsed he).1

/-! ### The dealing pass -/

/-- What a dealing pass that sends something has computed. -/
theorem submitPP_values {p : State} {a : Address} {d : Draw} {s s' : Store} {c : Call}
    (h : (submitPP M p a d).run s = (s', .ok c)) : ∃ i proof file pp, getIndexPlus p a = some i ∧
      Client.prove M.prover M.infPanics (config p) i (Client.mpksFile p.pkList) d.stream = .ok (proof, file) ∧
      Client.dkgVerify M.verifier (config p) i proof file (Client.mpksFile p.pkList) = .ok () ∧
      Client.ppSubmission file = some pp ∧ c = .submitPublicParams pp proof := by
  have hk : load (save s .memberKeys (Client.mpksFile p.pkList)) .memberKeys = some (Client.mpksFile p.pkList) :=
    load_save (Serde.good_points _ 125) s _
  unfold submitPP at h
  simp only [bind_eq] at h
  rw [show writeJson mpksPath (Client.mpksFile p.pkList) =
    writeJson (DataFile.memberKeys).path (Client.mpksFile p.pkList) from rfl, run_write] at h
  cases hi : getIndexPlus p a with
  | none => rw [hi] at h; cases h
  | some i =>
    rw [hi] at h
    rw [run_orThrow rfl, run_bind] at h
    generalize hx : (exec M p d (Command.prove i)).run (save s .memberKeys (Client.mpksFile p.pkList)) = x at h
    obtain ⟨s1, res⟩ := x
    cases res with
    | error e => cases h
    | ok u =>
      obtain ⟨mpks, proof, file, l1, l2, l3⟩ := (C89_prove (tools M) (config p) (random d) i _ _).1 hx
      rw [hk] at l1
      obtain rfl := Option.some.inj l1
      dsimp only at h
      rw [run_bind] at h
      generalize hy : (exec M p d (Command.dkgVerify i)).run s1 = y at h
      obtain ⟨s2, res⟩ := y
      cases res with
      | error e => cases h
      | ok u =>
        obtain ⟨e0, proof', file', mpks', m1, m2, m3, m4⟩ :=
          (C89_dkgVerify (tools M) (config p) (random d) i _ _).1 hy
        subst e0
        have hp : s2 (DataFile.proof i).name = some proof := by
          rw [l3]
          unfold save
          rw [put_ne _ (fun e => by cases DataFile.name_inj (x := .proof i) (y := .instance_ i) trivial trivial e),
            put_eq]
        have hf : load s2 (.instance_ i) = some file := by
          rw [l3]
          exact load_save (Serde.good_strs _ (by omega : 1 ≤ 127)) _ _
        have hm : load s2 .memberKeys = some (Client.mpksFile p.pkList) := by
          rw [← hk, l3]
          refine load_same ?_
          unfold save
          rw [put_ne _ (fun e => by cases DataFile.name_inj (x := .memberKeys) (y := .instance_ i) trivial trivial e),
            put_ne _ (fun e => by cases DataFile.name_inj (x := .memberKeys) (y := .proof i) trivial trivial e)]
        rw [hp] at m1
        rw [hf] at m2
        rw [hm] at m3
        obtain rfl := Option.some.inj m1
        obtain rfl := Option.some.inj m2
        obtain rfl := Option.some.inj m3
        dsimp only at h
        replace h := (run_bytes (.proof i) hp).symm.trans h
        replace h := (run_json (.instance_ i) hf).symm.trans h
        cases hpp : Client.ppSubmission file with
        | none => rw [hpp] at h; cases h
        | some pp =>
          rw [hpp, run_orThrow rfl] at h
          refine ⟨i, proof, file, pp, rfl, l2, m4, hpp, ?_⟩
          exact (Except.ok.inj (congrArg Prod.snd h)).symm

theorem keys_ok {N : ℕ} {v : Services.World} (ht : 1 ≤ t) (h : SInv M o ws t n N v) :
    ∀ k ∈ v.p.pkList, ∃ P : Gk, P ≠ 0 ∧ k = Zkdvrf.keyWords P := by
  intro k hk
  obtain ⟨i, hi, rfl⟩ := List.mem_iff_getElem.1 hk
  obtain ⟨a, ha, hai⟩ := (C31_pre_registration M.env h.reach (by rw [h.thr]; exact ht)).2.2.2.1 i hi
  obtain ⟨sk, k1, _, k3⟩ := h.keys a ha
  refine ⟨sk • gk, ?_, ?_⟩
  · intro h0
    rcases smul_Gk_eq_zero h0 with h0 | h0
    · exact k1 h0
    · exact gk_ne_zero h0
  · rw [hai, List.getElem?_eq_getElem hi] at k3
    exact Option.some.inj k3

/-- Values of `prove`. -/
theorem prove_ins {prover : List Fr → Option (List Byte)} {b : Bool} {cfg : DkgConfig} {i : ℕ}
    {mpks : List PointSerde} {draw : ℕ → Fr} {proof : List Byte} {file : List (List Char)} :
    Client.prove prover b cfg i mpks draw = .ok (proof, file) ↔
      ∃ ins, Client.proveInstance b cfg i mpks draw = .ok ins ∧ prover ins = some proof ∧
        file = ins.map writeField := by
  cases h : Client.proveInstance b cfg i mpks draw with
  | error e =>
    have e : Client.prove prover b cfg i mpks draw = .error e := by
      unfold Client.prove
      rw [h]
      rfl
    rw [e]
    constructor
    · intro h; cases h
    · rintro ⟨_, h, _⟩; cases h
  | ok ins =>
    have e : Client.prove prover b cfg i mpks draw = match prover ins with
        | none => .error (.lib .panic)
        | some proof => .ok (proof, ins.map writeField) := by
      unfold Client.prove
      rw [h]
      rfl
    rw [e]
    cases h2 : prover ins with
    | none =>
      constructor
      · intro h; cases h
      · rintro ⟨_, h, h', _⟩
        obtain rfl := Except.ok.inj h
        rw [h2] at h'
        cases h'
    | some pr =>
      constructor
      · intro h
        obtain ⟨rfl, rfl⟩ := Prod.mk.inj (Except.ok.inj h)
        exact ⟨ins, rfl, h2, rfl⟩
      · rintro ⟨_, h, h', rfl⟩
        obtain rfl := Except.ok.inj h
        rw [h2] at h'
        rw [Option.some.inj h']

/-- The verifier is the last thing that `dkg verify` asks. -/
theorem dkgVerify_last {verifier : List Byte → List Fr → Bool} {cfg : DkgConfig} {i : ℕ}
    {mpks : List PointSerde} {proof proof' : List Byte} {ins : List Fr}
    (h : Client.dkgVerify (fun _ _ => true) cfg i proof' (ins.map writeField) mpks = .ok ()) :
    Client.dkgVerify verifier cfg i proof (ins.map writeField) mpks = .ok () ↔ verifier proof ins = true := by
  have hread : (ins.map writeField).mapM (readField r) = .ok ins :=
    (Client.mapM_map_ok (readField r) writeField id ins (fun x _ => read_write_Fr x)).trans
      (by rw [List.map_id])
  unfold Client.dkgVerify at h ⊢
  cases h1 : Client.checkIndex cfg i with
  | error e => rw [h1] at h; cases h
  | ok u =>
    have e0 : ∀ {α β : Type} (a : α) (f : α → Except (Option Client.CliFail) β),
      (Except.mapError some (.ok a : Except Client.CliFail α) >>= f) = f a := fun _ _ => rfl
    have e0' : ∀ {α β : Type} (a : α) (f : α → Except (Option Client.CliFail) β),
      (Except.mapError some (Client.lift (.ok a : Res α)) >>= f) = f a := fun _ _ => rfl
    rw [h1, e0, hread, e0'] at h
    rw [e0, hread, e0']
    cases h2 : mpks.mapM PointSerde.toGk with
    | error e => rw [h2] at h; cases h
    | ok pks =>
      rw [h2, e0'] at h
      rw [e0']
      cases h3 : clientPublicKeys cfg ins with
      | error e => rw [h3] at h; cases h
      | ok keys =>
        rw [h3, e0'] at h
        rw [e0']
        by_cases h4 : keys ≠ pks
        · rw [if_pos h4] at h; cases h
        · rw [if_neg h4]
          cases verifier proof ins with
          | true => exact ⟨fun _ => rfl, fun _ => rfl⟩
          | false => exact ⟨(fun h => by cases h), (fun h => by cases h)⟩

theorem pp_of_instance (ins : List Fr) : Client.ppSubmission (ins.map writeField) = some (wordsOf ins) := by
  unfold Client.ppSubmission wordsOf
  induction ins with
  | nil => rfl
  | cons x l ih => rw [List.map_cons, List.mapM_cons, Client.wordOfHex_Fr, ih]; rfl

open Classical in
/-- In a dealing pass, what can go wrong is the proof. -/
theorem dealing (hM : Sane M aux1 aux2) {w w' : World} (h0 : Fresh M o ws t n w.p) {N : ℕ}
    (h : Honest (ideal M t n aux1 aux2) o ws t n aux1 aux2 w N w') (hN : N < 2 ^ 255) {a : Address} {d : Draw}
    (ha : a ∈ ws) (hd : GoodDraw t n aux1 aux2 d) (hp : w'.p.contractPhase = .Nidkg)
    (hst : (w'.p.addrToNode a).statusPP = false) :
    ∃ ins, Deals M w'.p d ins ∧ DkgCircuit.synthesize ⟨t, n⟩ aux1 aux2 ins ∧
      (Fine M w'.p a ((nodePass M w'.p a d).run (w'.node a)).2 ↔ ProofAccepted M ins) := by
  have hi := ideal_faithful (t := t) (n := n) hM
  have h0' : Fresh (ideal M t n aux1 aux2) o ws t n (⟨w.p, .none, fun _ => .none⟩ : Services.World).p := ideal_fresh h0
  obtain ⟨v, hv⟩ := simulated hi (ideal_fresh h0) h hN
  have hf := (C55_no_failure _ hi h0' hv.honest hN).1 a ha d hd
  have hinv := hv.inv hi h0' hN
  have hself := (self_of h0.t_pos hinv ha).1
  rw [hv.state] at hf hself
  have hpass : ∀ M' : Machine, nodePass M' w'.p a d = sending (submitPP M' w'.p a d) := by
    intro M'
    unfold nodePass
    dsimp only
    rw [if_pos hself, hp]
    dsimp only
    rw [hst]
    rfl
  have hpassV : Services.nodePass (ideal M t n aux1 aux2) w'.p a (v.node a) d =
      Services.submitPP (ideal M t n aux1 aux2) w'.p a (v.node a) d := by
    unfold Services.nodePass
    dsimp only
    rw [if_pos hself, hp]
    dsimp only
    rw [hst]
    rfl
  rw [hpassV] at hf
  cases hs : Services.submitPP (ideal M t n aux1 aux2) w'.p a (v.node a) d with
  | idle => 
    exfalso
    unfold Services.submitPP at hs
    dsimp only at hs
    repeat' (split at hs)
    all_goals cases hs
  | failed f => rw [hs] at hf; exact hf.elim
  | send f c =>
    rw [hs] at hf
    obtain ⟨i, proof, file, pp, g1, g2, g3, g4, -, rfl⟩ := deal_values hs
    obtain ⟨ins, g5, g6, rfl⟩ := prove_ins.1 g2
    rw [pp_of_instance] at g4
    obtain rfl := Option.some.inj g4
    obtain ⟨p', hf⟩ := hf
    obtain ⟨c1, c2, c3, c4, c5, c6, c7, -⟩ := ZkdvrfPre.submitPublicParams_some.1 hf
    have hsyn : DkgCircuit.synthesize ⟨t, n⟩ aux1 aux2 ins := by
      obtain ⟨ins', e, hs⟩ := of_decide_eq_true (Option.some.inj c6)
      rw [wordsOf_inj e]
      exact hs
    refine ⟨ins, ?_, hsyn, ?_⟩
    · unfold Client.proveInstance at g5
      cases k1 : Client.checkIndex (config w'.p) i with
      | error e => rw [k1] at g5; cases g5
      | ok u =>
        cases k2 : (Client.mpksFile w'.p.pkList).mapM PointSerde.toGk with
        | error e => rw [k1, k2] at g5; cases g5
        | ok pks =>
          cases k3 : DkgMemberParams.new Poseidon.hash2 (config w'.p) pks d.stream with
          | error e => rw [k1, k2] at g5; change (Client.lift _ >>= _) = _ at g5; rw [k3] at g5; cases g5
          | ok mp =>
            refine ⟨pks, mp, (C54_keys_file (ZkdvrfPre.State.toZk w'.p [] []) pks).1 k2, k3, ?_⟩
            rw [k1, k2] at g5
            change (Client.lift _ >>= _) = _ at g5
            rw [k3] at g5
            change Client.lift (mp.publicParams.toInstance M.infPanics mp.publicKeys) = _ at g5
            cases k4 : mp.publicParams.toInstance M.infPanics mp.publicKeys with
            | error e => rw [k4] at g5; cases g5
            | ok ins' => rw [k4] at g5; exact congrArg _ (Except.ok.inj g5)
    · rw [hpass]
      constructor
      · intro hf
        unfold sending at hf
        rw [run_bind] at hf
        generalize hx : (submitPP M w'.p a d).run (w'.node a) = x at hf
        obtain ⟨s1, res⟩ := x
        cases res with
        | error e => exact hf.elim
        | ok c =>
          obtain ⟨p'', hf⟩ := hf
          obtain ⟨i', proof', file', pp', j1, j2, j3, j4, rfl⟩ := submitPP_values hx
          rw [g1] at j1
          obtain rfl := Option.some.inj j1
          obtain ⟨ins', j5, j6, rfl⟩ := prove_ins.1 j2
          obtain rfl : ins = ins' := Except.ok.inj (g5.symm.trans j5)
          rw [pp_of_instance] at j4
          obtain rfl := Option.some.inj j4
          exact ⟨proof', j6, (dkgVerify_last g3).1 j3, (ZkdvrfPre.submitPublicParams_some.1 hf).2.2.2.2.2.1⟩
      · rintro ⟨pr, j1, j2, j3⟩
        obtain ⟨s', hrun⟩ := submitPP_run (M := M) (w'.node a) g1 (prove_ins.2 ⟨ins, g5, j1, rfl⟩)
          ((dkgVerify_last g3).2 j2) (pp_of_instance ins)
        rw [sending_run hrun]
        exact ⟨_, ZkdvrfPre.submitPublicParams_some.2 ⟨c1, c2, c3, c4, c5, j3, c7, rfl⟩⟩

/-- A dealing pass that does not fail sends something. -/
theorem dealing_landed (hM : Sane M aux1 aux2) {w w' : World} (h0 : Fresh M o ws t n w.p) {N : ℕ}
    (h : Honest (ideal M t n aux1 aux2) o ws t n aux1 aux2 w N w') (hN : N < 2 ^ 255) {a : Address} {d : Draw}
    (ha : a ∈ ws) (hp : w'.p.contractPhase = .Nidkg) (hst : (w'.p.addrToNode a).statusPP = false)
    (hf : Fine M w'.p a ((nodePass M w'.p a d).run (w'.node a)).2) :
    landed M w'.p a ((nodePass M w'.p a d).run (w'.node a)).2 = 1 := by
  have hi := ideal_faithful (t := t) (n := n) hM
  have h0' : Fresh (ideal M t n aux1 aux2) o ws t n (⟨w.p, .none, fun _ => .none⟩ : Services.World).p := ideal_fresh h0
  obtain ⟨v, hv⟩ := simulated hi (ideal_fresh h0) h hN
  have hinv := hv.inv hi h0' hN
  have hself := (self_of h0.t_pos hinv ha).1
  rw [hv.state] at hself
  refine landed_of_fine hf ?_
  have hpass : nodePass M w'.p a d = sending (submitPP M w'.p a d) := by
    unfold nodePass
    dsimp only
    rw [if_pos hself, hp]
    dsimp only
    rw [hst]
    rfl
  rw [hpass] at hf ⊢
  unfold sending at hf ⊢
  rw [run_bind] at hf ⊢
  generalize (submitPP M w'.p a d).run (w'.node a) = x at hf ⊢
  obtain ⟨s1, res⟩ := x
  cases res with
  | error e => exact hf.elim
  | ok c => rfl

end Verif.ServicesFiles
