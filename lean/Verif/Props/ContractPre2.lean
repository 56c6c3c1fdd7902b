import Verif.Props.ContractPre
import Verif.Props.Blocking
import Verif.Props.Client

/-!
More of the registration, accounting and blocking properties for contracts/zkdvrf_pre.sol, the contract that
scripts/deploy.ts deploys.
-/

namespace Verif.Props
open ZkdvrfPre
open Zkdvrf (Tx Call keyWords)

/-- C16. The check of submitted public parameters succeeds exactly for lists of `7n+14` words that end with
the coordinates of all registered keys in order, when all members are registered; otherwise it reverts. -/
theorem C16_pre_checkPublicParams_iff (env : Env) {p : State} (hr : Reachable env p)
    (ht : 1 ≤ p.threshold) (pp : List Word) :
    (checkPublicParams p pp = some true ↔ p.pkList.length = p.memberCount ∧
      pp.length = 7 * p.memberCount + 14 ∧
      pp.drop (pp.length - 2 * p.memberCount) = p.pkList.flatMap (fun k => [k.x, k.y])) ∧
    checkPublicParams p pp ≠ some false := by
  obtain ⟨_, o1, o2, hz⟩ := sim hr ht
  rw [check_eq p o1 o2]
  exact C16_checkPublicParams_iff env hz pp

/-- C31. A successful registration is by an added, unregistered node with at least the minimum deposit;
its key keeps its position in the list forever and the node cannot register again. -/
theorem C31_pre_register_once (env : Env) {p p1 p2 : State} (hr : Reachable env p)
    (ht : 1 ≤ p.threshold) (m : Msg) (hm : m.sender ≠ 0) (pk : GrumpkinSol.Point)
    (he : exec env p m (.registerNode pk) = some p1) (hl : Later env p1 p2) :
    Added p m.sender ∧ ¬ Registered p m.sender ∧ p.minNodeDeposit ≤ m.value ∧
    Registered p2 m.sender ∧ indexOf p2 m.sender = p.pkList.length ∧
    p2.pkList[p.pkList.length]? = some pk ∧
    ∀ v pk', exec env p2 ⟨m.sender, v⟩ (.registerNode pk') = none := by
  obtain ⟨hx, o1, o2, hz⟩ := sim hr ht
  obtain ⟨a1, a2, hz1⟩ := sim_exec hz hx ht he
  have ht1 : 1 ≤ p1.threshold := by rw [(exec_threshold he).1]; exact ht
  have hx1 := exec_extra hx he
  obtain ⟨hx2, b1, b2, hl'⟩ := sim_later (hz.call hm hz1) hx1 ht1 hl
  obtain ⟨h1, h2, h3, h4, h5, h6, h7⟩ := C31_register_once env hz m hm pk hz1 hl'
  refine ⟨h1, h2, h3, h4, h5, h6, fun v pk' => ?_⟩
  cases h : exec env p2 ⟨m.sender, v⟩ (.registerNode pk') with
  | none => rfl
  | some p3 =>
    obtain ⟨c1, c2, h'⟩ := sim_exec (hl'.reachable (hz.call hm hz1)) hx2
      (by rw [hl.threshold.1]; exact ht1) h
    rw [h7 v pk'] at h'
    exact nomatch h'

/-- C31. Nodes are added only by the owner, up to the member count, and registered only by themselves. -/
theorem C31_pre_only_owner_adds (env : Env) (p : State) (tx : Tx) (a : Address) :
    (¬ Added p a → Added (step env p tx) a → ∃ m, tx = .call m (.addPermissionedNodes a) ∧
      m.sender = p.owner ∧ p.currentIndex < p.memberCount) ∧
    (¬ Registered p a → Registered (step env p tx) a →
      ∃ v pk, tx = .call ⟨a, v⟩ (.registerNode pk)) := by
  cases tx with
  | forceEther x => exact ⟨fun h h' => absurd h' h, fun h h' => absurd h' h⟩
  | call m c =>
    unfold step
    dsimp only
    cases he : exec env p m c with
    | none => exact ⟨fun h h' => absurd h' h, fun h h' => absurd h' h⟩
    | some p' =>
      rw [Option.getD_some]
      have same : p'.addrToNode = p.addrToNode → (¬ Added p a → Added p' a → False) ∧
          (¬ Registered p a → Registered p' a → False) := by
        intro e
        unfold Added Registered
        rw [e]
        exact ⟨fun h h' => h h', fun h h' => h h'⟩
      cases c with
      | addPermissionedNodes b =>
        obtain ⟨_, h2, h3, _, h5, _, rfl⟩ := addPermissionedNodes_some.1 he
        unfold Added Registered
        dsimp only
        by_cases hb : a = b
        · subst hb
          refine ⟨fun _ _ => ⟨m, rfl, h2, h3⟩, fun _ h => ?_⟩
          rw [Function.update_self] at h
          exact absurd h Bool.noConfusion
        · rw [Function.update_of_ne hb]
          exact ⟨fun h h' => absurd h' h, fun h h' => absurd h' h⟩
      | registerNode pk =>
        obtain ⟨_, h2, _, _, _, _, _, rfl⟩ := registerNode_some.1 he
        unfold Added Registered
        dsimp only
        by_cases hb : a = m.sender
        · subst hb
          rw [Function.update_self]
          refine ⟨fun h h' => absurd h' h, fun _ _ => ⟨m.value, pk, rfl⟩⟩
        · rw [Function.update_of_ne hb]
          exact ⟨fun h h' => absurd h' h, fun h h' => absurd h' h⟩
      | submitPublicParams pp pr =>
        obtain ⟨_, h2, _, _, _, _, _, rfl⟩ := submitPublicParams_some.1 he
        unfold Added Registered
        dsimp only
        by_cases hb : a = m.sender
        · subst hb
          rw [Function.update_self]
          exact ⟨fun h h' => absurd h' h, fun h h' => absurd h' h⟩
        · rw [Function.update_of_ne hb]
          exact ⟨fun h h' => absurd h' h, fun h h' => absurd h' h⟩
      | startNidkg =>
        obtain ⟨_, _, _, rfl⟩ := startNidkg_some.1 he
        exact ⟨fun h h' => absurd h' h, fun h h' => absurd h' h⟩
      | computeVk gpk =>
        obtain ⟨_, _, _, _, rfl⟩ := computeVk_some.1 he
        exact ⟨fun h h' => absurd h' h, fun h h' => absurd h' h⟩
      | initiateRandom =>
        obtain ⟨_, _, _, _, _, _, _, rfl⟩ := initiateRandom_some.1 he
        exact ⟨fun h h' => absurd h' h, fun h h' => absurd h' h⟩
      | submitPartialEval pe =>
        have := submitPartialEval_some.1 he
        obtain ⟨_, _, _, _, _, _, _, _, rfl⟩ := this
        exact ⟨fun h h' => absurd h' h, fun h h' => absurd h' h⟩
      | submitRandom pr =>
        obtain ⟨_, _, _, _, _, _, rfl⟩ := submitRandom_some.1 he
        exact ⟨fun h h' => absurd h' h, fun h h' => absurd h' h⟩
      | transferOwnership b =>
        obtain ⟨_, _, _, rfl⟩ := transferOwnership_some.1 he
        exact ⟨fun h h' => absurd h' h, fun h h' => absurd h' h⟩
      | renounceOwnership =>
        obtain ⟨_, _, rfl⟩ := renounceOwnership_some.1 he
        exact ⟨fun h h' => absurd h' h, fun h h' => absurd h' h⟩

/-- C32. An accepted dealing keeps its position in the list of public parameters and its sender cannot
submit another one; when it was the last one the list is final. -/
theorem C32_pre_submission_kept (env : Env) {p p1 p2 : State} (hr : Reachable env p)
    (ht : 1 ≤ p.threshold) (m : Msg) (hm : m.sender ≠ 0) (pp : List Word) (pr : List Byte)
    (he : exec env p m (.submitPublicParams pp pr) = some p1) (hl : Later env p1 p2) :
    Registered p m.sender ∧ (p.addrToNode m.sender).statusPP = false ∧
    p2.ppList[p.ppList.length]? = some pp ∧ (p2.addrToNode m.sender).statusPP = true ∧
    (∀ v pp' pr', exec env p2 ⟨m.sender, v⟩ (.submitPublicParams pp' pr') = none) ∧
    (p1.contractPhase = .NidkgComplete → p2.ppList = p1.ppList) := by
  obtain ⟨hx, o1, o2, hz⟩ := sim hr ht
  obtain ⟨a1, a2, hz1⟩ := sim_exec hz hx ht he
  have ht1 : 1 ≤ p1.threshold := by rw [(exec_threshold he).1]; exact ht
  have hx1 := exec_extra hx he
  have hzr := hz.call hm hz1
  obtain ⟨hx2, b1, b2, hl'⟩ := sim_later hzr hx1 ht1 hl
  obtain ⟨h1, h2, h3, h4, h5, h6⟩ := C32_submission_kept env hz m hm pp pr hz1 hl'
  have hs := (submitPublicParams_some.1 he).2.2.2.1
  have h7 : (p2.addrToNode m.sender).statusPP = true := by
    have hd := Zkdvrf.dkgInv (hl'.reachable hzr)
    have hmem : m.sender ∈ (p2.toZk b1 b2).ppListOrder := List.mem_of_getElem? h4
    exact (hd.ppMem m.sender).1 hmem
  refine ⟨h1, hs, h3, h7, fun v pp' pr' => ?_, fun hc => h6 (toZk_complete.2 hc)⟩
  cases h : exec env p2 ⟨m.sender, v⟩ (.submitPublicParams pp' pr') with
  | none => rfl
  | some p3 =>
    have := (submitPublicParams_some.1 h).2.2.2.1
    rw [h7] at this
    exact nomatch this

/-- C39. Whoever is not the owner can neither change the owner, add nodes, start the key generation, open a
round nor publish a random. -/
theorem C39_pre_owner_only (env : Env) (p : State) (m : Msg) (c : Call) (ho : m.sender ≠ p.owner) :
    let p' := step env p (.call m c)
    p'.owner = p.owner ∧ p'.currentRoundNum = p.currentRoundNum ∧
    p'.roundToRandom = p.roundToRandom ∧ p'.roundInput = p.roundInput ∧
    p'.currentIndex = p.currentIndex ∧ (p.contractPhase = .Registered → p'.contractPhase = .Registered) := by
  dsimp only
  unfold step
  dsimp only
  cases he : exec env p m c with
  | none => exact ⟨rfl, rfl, rfl, rfl, rfl, id⟩
  | some p' =>
    rw [Option.getD_some]
    cases c with
    | addPermissionedNodes b => exact absurd (addPermissionedNodes_some.1 he).2.1 ho
    | registerNode pk =>
      obtain ⟨h1, _, _, _, _, _, _, rfl⟩ := registerNode_some.1 he
      refine ⟨rfl, rfl, rfl, rfl, rfl, fun h => ?_⟩
      rw [h1] at h
      exact nomatch h
    | submitPublicParams pp pr =>
      obtain ⟨_, _, h1, _, _, _, _, rfl⟩ := submitPublicParams_some.1 he
      refine ⟨rfl, rfl, rfl, rfl, rfl, fun h => ?_⟩
      rw [h1] at h
      exact nomatch h
    | startNidkg => exact absurd (startNidkg_some.1 he).2.1 ho
    | computeVk gpk =>
      obtain ⟨_, h1, _, _, rfl⟩ := computeVk_some.1 he
      refine ⟨rfl, rfl, rfl, rfl, rfl, fun h => ?_⟩
      rw [h1] at h
      exact nomatch h
    | initiateRandom => exact absurd (initiateRandom_some.1 he).2.1 ho
    | submitPartialEval pe =>
      obtain ⟨_, _, _, _, _, _, _, _, rfl⟩ := submitPartialEval_some.1 he
      exact ⟨rfl, rfl, rfl, rfl, rfl, id⟩
    | submitRandom pr => exact absurd (submitRandom_some.1 he).2.1 ho
    | transferOwnership b => exact absurd (transferOwnership_some.1 he).2.1 ho
    | renounceOwnership => exact absurd (renounceOwnership_some.1 he).2.1 ho

/-- Sum of the recorded deposits. -/
def preDeposits (p : State) : ℕ :=
  ((List.range p.pkList.length).map (fun i => (p.addrToNode (p.nodes i)).deposit)).sum

/-- C40. After any history from deployment the balance is the sum of the recorded deposits plus the ether
forced in from outside; every registered node's deposit is at least the minimum. -/
theorem C40_pre_balance (env : Env) (m : Msg) (t n : ℕ) (o : Address) (x y z : Bool) (d : ℕ) (p0 : State)
    (h0 : ZkdvrfPre.constructor m t n o x y z d = some p0) (ht : 1 ≤ t) (txs : List Tx)
    (hv : ∀ tx ∈ txs, tx.valid) :
    (run env p0 txs).balance = preDeposits (run env p0 txs) + (txs.map Zkdvrf.forced).sum ∧
    ∀ a, Registered (run env p0 txs) a → d ≤ ((run env p0 txs).addrToNode a).deposit := by
  have key : ∀ (txs : List Tx), (∀ tx ∈ txs, tx.valid) →
      Reachable env (run env p0 txs) ∧ (run env p0 txs).minNodeDeposit = d ∧
      1 ≤ (run env p0 txs).threshold ∧
      (run env p0 txs).balance = preDeposits (run env p0 txs) + (txs.map Zkdvrf.forced).sum := by
    intro txs
    induction txs using List.reverseRecOn with
    | nil =>
      intro _
      refine ⟨.deploy h0, ?_, ?_, ?_⟩
      · obtain ⟨_, _, _, _, _, _, _, rfl⟩ := constructor_some.1 h0; rfl
      · obtain ⟨_, _, _, _, _, _, _, rfl⟩ := constructor_some.1 h0; exact ht
      · obtain ⟨_, _, _, _, _, _, _, rfl⟩ := constructor_some.1 h0; rfl
    | append_singleton txs tx ih =>
      intro hv
      obtain ⟨r, hmin, hthr, hbal⟩ := ih (fun tx htx => hv tx (List.mem_append_left _ htx))
      have hvt : tx.valid := hv tx (by simp)
      have hrun : run env p0 (txs ++ [tx]) = step env (run env p0 txs) tx := by
        simp [run]
      rw [hrun]
      obtain ⟨hx, o1, o2, hz⟩ := sim r hthr
      refine ⟨.step tx hvt r, ?_⟩
      rw [List.map_append, List.sum_append]
      cases tx with
      | forceEther a =>
        refine ⟨hmin, hthr, ?_⟩
        change (run env p0 txs).balance + a = preDeposits (run env p0 txs) + _
        rw [hbal]
        simp [Zkdvrf.forced]
        ring
      | call m' c =>
        simp only [Zkdvrf.forced, List.map_cons, List.map_nil, List.sum_cons, List.sum_nil, add_zero]
        unfold step
        dsimp only
        cases he : exec env (run env p0 txs) m' c with
        | none => exact ⟨hmin, hthr, hbal⟩
        | some p' =>
          rw [Option.getD_some]
          obtain ⟨a1, a2, hz'⟩ := sim_exec hz hx hthr he
          have h1 : p'.balance + preDeposits (run env p0 txs) =
              (run env p0 txs).balance + preDeposits p' := deposits_step hz hvt hz'
          have h2 : p'.minNodeDeposit = (run env p0 txs).minNodeDeposit :=
            (Zkdvrf.keeps_exec hz hvt hz').minDep
          refine ⟨h2.trans hmin, by rw [(exec_threshold he).1]; exact hthr, ?_⟩
          omega
  obtain ⟨r, hmin, hthr, hbal⟩ := key txs hv
  refine ⟨hbal, fun a ha => ?_⟩
  obtain ⟨hx, o1, o2, hz⟩ := sim r hthr
  rw [← hmin]
  exact ((Zkdvrf.regInv hz).reg_idx a ha).2.2.2

/-- C41 (violation). A single accepted dealing with a coordinate that is not reduced keeps the contract from
becoming ready, forever. -/
theorem C41_pre_violation_unreduced_blocks (env : Env) {p : State} (hr : Reachable env p)
    (ht : 1 ≤ p.threshold) (w : List Word) (hw : w ∈ p.ppList) (hn : ¬ Spec.Reduced p.memberCount w)
    {p' : State} (hl : Later env p p') : p'.contractPhase ≠ .Ready := by
  obtain ⟨hx, o1, o2, hz⟩ := sim hr ht
  obtain ⟨_, a1, a2, hl'⟩ := sim_later hz hx ht hl
  exact fun h => C41_violation_unreduced_blocks env hz w hw hn hl' (toZk_ready.2 h)

/-- C41 (violation). If every satisfiable instance has a proof, each registered member that has not yet
submitted can block the contract forever with one accepted transaction. -/
theorem C41_pre_violation_member_can_block (env : Env) {p : State} (hr : Reachable env p)
    (hp : p.contractPhase = .Nidkg) (ht : 1 ≤ p.threshold)
    (auxG1 : G1) (auxG2 : G2) (h1 : Spec.TableFits 3 g1 auxG1) (h2 : r • auxG2 = 0)
    (h3 : Spec.TableFits 3 g2 auxG2) (hu1 : Spec.Usable g1 auxG1 1) (hu2 : Spec.Usable g2 auxG2 1)
    (hc : ∀ ins, DkgCircuit.synthesize ⟨p.threshold, p.memberCount⟩ auxG1 auxG2 ins →
      ∃ proof, env.verifyProof proof (wordsOf ins) = some true)
    (hk : ∀ k ∈ p.pkList, ∃ P : Gk, P ≠ 0 ∧ k = keyWords P)
    (a : Address) (ha0 : a ≠ 0) (ha : Registered p a) (hnew : (p.addrToNode a).statusPP = false) :
    ∃ pp proof p1, exec env p ⟨a, 0⟩ (.submitPublicParams pp proof) = some p1 ∧
      ∀ p2, Later env p1 p2 → p2.contractPhase ≠ .Ready := by
  obtain ⟨hx, o1, o2, hz⟩ := sim hr ht
  obtain ⟨pp, proof, s1, e1, e2⟩ := C41_violation_member_can_block env hz (toZk_nidkg.2 hp) ht auxG1 auxG2
    h1 h2 h3 hu1 hu2 hc hk a ha hnew
  have hn : p.memberCount ≠ 0 := by
    obtain ⟨_, g1, _, _, g2, _⟩ := C31_pre_registration env hr ht
    have := g1 a ha
    omega
  obtain ⟨p1, a1, a2, f1, rfl⟩ := sim_back (m := ⟨a, 0⟩) hz hx ha0 hn (Or.inl rfl) e1
  refine ⟨pp, proof, p1, f1, fun p2 hl h => ?_⟩
  obtain ⟨_, b1, b2, hl'⟩ := sim_later (hz.call (m := ⟨a, 0⟩) ha0 e1) (exec_extra hx f1)
    (by rw [(exec_threshold f1).1]; exact ht) hl
  exact e2 _ hl' (toZk_ready.2 h)

/-- C46 (violation). In an open round a member that has not submitted can submit its evaluation with an
unreduced response; from then on the client cannot combine the evaluations of this round. -/
theorem C46_pre_violation_noncanonical_z (env : Env) {p : State} (hr : Reachable env p)
    (ht : 1 ≤ p.threshold) (hopen : ¬ Completed p p.currentRoundNum) (a : Address)
    (ha0 : a ≠ 0) (ha : Registered p a) (hl : p.lastSubmittedRound a < p.currentRoundNum)
    (sk nonce : Fr) (hvk : p.vkList[indexOf p a]? = some (encodeG1 (sk • g1))) :
    let pe := DkgShareKey.evaluate env.keccak (evalHash env.keccak) ⟨indexOf p a + 1, sk, sk • g1⟩
      (p.roundInput p.currentRoundNum) nonce
    ∃ p', exec env p ⟨a, 0⟩ (.submitPartialEval
        { evalWords pe with z := BitVec.ofNat 256 (pe.proof.z.val + r) }) = some p' ∧
      ∀ p'', Later env p' p'' → ∀ (cfg : DkgConfig) gf vf input skip,
        Client.combine env.E env.keccak (evalHash env.keccak) cfg
          (Client.evalsFile p''.memberCount (p''.roundToEval p.currentRoundNum)) gf vf input skip = .error (.lib .panic) := by
  intro pe
  obtain ⟨hx, o1, o2, hz⟩ := sim hr ht
  obtain ⟨s', e1, e2⟩ := C46_violation_noncanonical_z env hz hopen a ha0 ha hl sk nonce hvk
  have hn : p.memberCount ≠ 0 := by
    obtain ⟨_, g1, _, _, g2, _⟩ := C31_pre_registration env hr ht
    have := g1 a ha
    omega
  obtain ⟨p', a1, a2, f1, rfl⟩ := sim_back (m := ⟨a, 0⟩) hz hx ha0 hn (Or.inl rfl) e1
  refine ⟨p', f1, fun p2 hl => ?_⟩
  obtain ⟨_, b1, b2, hl'⟩ := sim_later (hz.call (m := ⟨a, 0⟩) ha0 e1) (exec_extra hx f1)
    (by rw [(exec_threshold f1).1]; exact ht) hl
  exact e2 _ hl'

end Verif.Props
