import Verif.Spec.HonestProver
import Verif.Props.LayoutExact
import Verif.Props.ServicesProofs
import Verif.Props.OverlapProofs
import Verif.Lemmas.OverlapOthers
import Verif.Props.LayoutWitness

/-! C82, C94, C98: services with the deployed verifier and an honest prover. -/

namespace Verif.Props
open Verif.Spec Verif.Layout Verif.DkgCircuit Polynomial
open ServicesFiles (Sane Deals ProofAccepted)
open Services (Machine Draw GoodDraw)

/-- All but few secrets can be handled by the honest prover. -/
theorem few_secrets {t : ℕ} (ht : 0 < t) (n : ℕ) (auxG1 : G1) (auxG2 : G2) (draw : ℕ → Fr) :
    ∃ badSecret : Finset Fr, badSecret.card ≤ 69 * (n + 2) ∧ ∀ a ∉ badSecret,
      AuxFits 3 (Function.update draw 0 a 0).val g1 auxG1 ∧ AuxFits 3 (Function.update draw 0 a 0).val g2 auxG2 ∧
      ∀ i, 1 ≤ i → i ≤ n →
        AuxFits 3 (poly ((List.range t).map (Function.update draw 0 a)) (i : Fr)).val g1 auxG1 := by
  classical
  obtain ⟨b1, hb1, hu1⟩ := FixedPoint.few_bad_val addOrderOf_g1 auxG1
  obtain ⟨b2, hb2, hu2⟩ := FixedPoint.few_bad_val addOrderOf_g2 auxG2
  have hp : ∀ a x : Fr, poly ((List.range t).map (Function.update draw 0 a)) x =
      a + poly ((List.range t).map (Function.update draw 0 0)) x := fun a x => poly_update ht draw a x
  refine ⟨b1 ∪ b2 ∪ (Finset.Icc 1 n).biUnion (fun i => b1.image (fun b =>
    b - poly ((List.range t).map (Function.update draw 0 0)) (i : Fr))), ?_, ?_⟩
  · have e1 : ((Finset.Icc 1 n).biUnion (fun i => b1.image (fun b =>
        b - poly ((List.range t).map (Function.update draw 0 0)) (i : Fr)))).card ≤ n * 69 := by
      have := Finset.card_biUnion_le_card_mul (Finset.Icc 1 n) (fun i => b1.image (fun b =>
        b - poly ((List.range t).map (Function.update draw 0 0)) (i : Fr))) 69
        (fun i _ => le_trans Finset.card_image_le hb1)
      rwa [Nat.card_Icc, Nat.add_sub_cancel] at this
    have e2 := Finset.card_union_le b1 b2
    refine le_trans (Finset.card_union_le _ _) ?_
    omega
  · intro a ha
    simp only [Finset.mem_union, Finset.mem_biUnion, Finset.mem_image, Finset.mem_Icc, not_or,
      not_exists, not_and] at ha
    obtain ⟨⟨ha1, ha2⟩, ha3⟩ := ha
    refine ⟨by rw [Function.update_self]; exact hu1 a ha1, by rw [Function.update_self]; exact hu2 a ha2, fun i hi1 hi2 => ?_⟩
    apply hu1
    rw [hp]
    intro hm
    exact ha3 i ⟨hi1, hi2⟩ _ hm (add_sub_cancel_right _ _)

/-- C82 (acceptance). With the deployed verifier and a key that belongs exactly to the layout of the circuit, the proofs
of honest provers are accepted, with few exceptions. -/
theorem C82_accepted {env : Env} {t n : ℕ} {aux1 : G1} {aux2 : G2} {V : Halo2.Key} {K : Halo2.KeyPolys}
    {J : IntegerImpl} {S : Shape} {start : ℕ → ℕ} {s : Fr} {sel : List Byte} {addr : Word}
    (hD : DeployedVerifier env t n aux1 aux2 V K J S start s sel addr) (ip : Bool) (ht : 0 < t) (hn : 1 ≤ n)
    (h1 : TableFits 3 g1 aux1) (h2 : r • aux2 = 0) (h3 : TableFits 3 g2 aux2)
    (pks : List Gk) (hl : pks.length = n) (hpk : ∀ pk ∈ pks, pk ≠ 0) (draw : ℕ → Fr) (hr : draw t ≠ 0)
    (hf1 : AuxFits 3 (draw 0).val g1 aux1) (hf2 : AuxFits 3 (draw 0).val g2 aux2)
    (hfs : ∀ i, 1 ≤ i → i ≤ n → AuxFits 3 (poly ((List.range t).map draw) (i : Fr)).val g1 aux1) :
    ∃ mp ins, DkgMemberParams.new Poseidon.hash2 ⟨t, n⟩ pks draw = .ok mp ∧
      mp.publicParams.toInstance ip pks = .ok ins ∧
      ForHonestProofs env.keccak t n aux1 aux2 V K J S start s mp ins
        (fun pr => env.verifyProof pr (wordsOf ins) = some true) := by
  obtain ⟨mp, ins, e1, e2, bad, hb2, hgood⟩ :=
    C80_honest_prover J (keyRange V K) hD.complete ip t n ht hn aux1 aux2 h1 h2 h3 pks hl hpk draw hr hf1 hf2 hfs
  refine ⟨mp, ins, e1, e2, bad, hb2, fun A hA rows => ?_⟩
  obtain ⟨inp, S', T, e3, e4, e5, hT⟩ := hgood A hA (fun _ => 0)
  have e6 := Option.some.inj (e5.symm.trans hD.layout)
  have e7 : S' = S := congrArg Prod.fst e6
  have e8 : ins.length = V.instances := congrArg Prod.snd e6
  subst e7
  have e9 : T.inst = (fun j => ins.getD j 0) ∧ T.range = keyRange V K := by
    unfold honestTable at e4
    obtain ⟨o, -, ho⟩ := Option.map_eq_some_iff.1 e4
    have ho : _ = T := congrArg Prod.snd ho
    rw [← ho]
    exact ⟨rfl, rfl⟩
  obtain ⟨advice, a1, a2, a3, a4⟩ := C82_columns V hD.valid K S' start hD.exact T hT ins (fun j => by rw [e9.1])
    (fun t x h => by rw [e9.2] at h; exact h) rows
  obtain ⟨Bβ, Bγ, b1, b2, b3⟩ := C65_on_chain V hD.valid K hD.bound hD.permutes ins e8 hD.instances advice a1 a4
  refine ⟨inp, T, advice, e3, e4, a3, a2, Bβ, Bγ, b1, b2, fun b hb => ?_⟩
  obtain ⟨P, p1, p2, p3⟩ := b3 b hb
  obtain ⟨c1, c2⟩ := p3 env.E s hD.keyFor env.keccak
  refine ⟨P, p1, p2, c1, fun C hC g1 g2 g3 g4 => ?_⟩
  rw [hD.verifies]
  exact c2 C hC g1 g2 g3 g4 sel addr hD.selector

/-- What holds for the proofs of honest provers carries over to what follows from it. -/
theorem honestProofs_imp {keccak : List Byte → Word} {t n : ℕ} {aux1 : G1} {aux2 : G2} {V : Halo2.Key}
    {K : Halo2.KeyPolys} {J : IntegerImpl} {S : Shape} {start : ℕ → ℕ} {s : Fr} {mp : DkgMemberParams} {ins : List Fr}
    {Q Q' : List Byte → Prop} (h : ForHonestProofs keccak t n aux1 aux2 V K J S start s mp ins Q)
    (hq : ∀ pr, Q pr → Q' pr) : ForHonestProofs keccak t n aux1 aux2 V K J S start s mp ins Q' := by
  obtain ⟨bad, hb, h⟩ := h
  refine ⟨bad, hb, fun A hA rows => ?_⟩
  obtain ⟨inp, T, advice, e1, e2, e3, e4, Bβ, Bγ, b1, b2, h⟩ := h A hA rows
  refine ⟨inp, T, advice, e1, e2, e3, e4, Bβ, Bγ, b1, b2, fun b hb => ?_⟩
  obtain ⟨P, p1, p2, p3, h⟩ := h b hb
  exact ⟨P, p1, p2, p3, fun C h1 h2 h3 h4 h5 => hq _ (h C h1 h2 h3 h4 h5)⟩

private theorem usual {M : Machine} {t n : ℕ} {aux1 : G1} {aux2 : G2}
    (hM : Sane M aux1 aux2) {V : Halo2.Key} {K : Halo2.KeyPolys} {J : IntegerImpl} {S : Shape} {start : ℕ → ℕ} {s : Fr}
    {sel : List Byte} {addr : Word} (hD : DeployedVerifier M.env t n aux1 aux2 V K J S start s sel addr)
    {env : Env} {p : ZkdvrfPre.State} (hr : ZkdvrfPre.Reachable env p) (ht : 1 ≤ t) (htn : t ≤ n) (h1 : p.threshold = t)
    (h2 : p.memberCount = n) (hp : p.contractPhase ≠ .Unregistered) (d : Draw) (hsk : d.sk ≠ 0) (henc : d.stream t ≠ 0) :
    ∃ badSecret : Finset Fr, badSecret.card ≤ 69 * (n + 2) ∧ ∀ b ∉ badSecret,
      GoodDraw t n aux1 aux2 (withSecret d b) ∧ ∀ ins, Deals M p (withSecret d b) ins → ∃ pks mp,
        p.pkList = pks.map Zkdvrf.keyWords ∧
        DkgMemberParams.new Poseidon.hash2 ⟨t, n⟩ pks (Function.update d.stream 0 b) = .ok mp ∧
        mp.publicParams.toInstance M.infPanics pks = .ok ins ∧
        ForHonestProofs M.env.keccak t n aux1 aux2 V K J S start s mp ins
          (fun pr => M.env.verifyProof pr (wordsOf ins) = some true) := by
  have hn : 1 ≤ n := ht.trans htn
  obtain ⟨badSecret, hb, hgood⟩ := few_secrets ht n aux1 aux2 d.stream
  refine ⟨badSecret, hb, fun b hb => ?_⟩
  obtain ⟨f1, f2, f3⟩ := hgood b hb
  have henc' : Function.update d.stream 0 b t ≠ 0 := by
    rw [Function.update_of_ne (by omega)]; exact henc
  refine ⟨⟨hsk, henc', FixedPoint.usable_of_val f1, FixedPoint.usable_of_val f2,
    fun i hi1 hi2 => FixedPoint.usable_of_val (f3 i hi1 hi2)⟩, ?_⟩
  rintro ins ⟨pks, mp, k1, k2, k3⟩
  rw [h1, h2] at k2
  have ht' : 1 ≤ p.threshold := by rw [h1]; exact ht
  have hl : pks.length = n := by
    have := ((C31_pre_registration env hr ht').2.2.2.2.2.2 hp).1
    rwa [k1, List.length_map, h2] at this
  obtain ⟨mp', ins', e1, e2, e3⟩ := C82_accepted hD M.infPanics ht hn hM.table1 hM.order2 hM.table2 pks hl
    (fun pk hpk => by
      obtain ⟨P, hP, e⟩ := Verif.Overlap.keyWords_ne_zero hr ht' k1 _ (by rw [k1]; exact List.mem_map_of_mem hpk)
      rwa [Verif.Client.keyWords_inj e]) _ henc' f1 f2 f3
  have k2' : DkgMemberParams.new Poseidon.hash2 ⟨t, n⟩ pks (Function.update d.stream 0 b) = .ok mp := k2
  obtain rfl : mp' = mp := Except.ok.inj (e1.symm.trans k2')
  have hk : mp'.publicKeys = pks := by
    rw [memberParams_eq Poseidon.hash2 ⟨t, n⟩ ht hn pks hl] at e1
    rw [← Except.ok.inj e1]
  rw [hk] at k3
  obtain rfl : ins' = ins := Except.ok.inj (e2.symm.trans k3)
  exact ⟨pks, mp', k1, e1, e2, e3⟩

/-- C94 (honest prover). Let the contract check proofs with the deployed verifier, with a key that belongs exactly to
the layout of the circuit.  Then for all but few secrets, whatever else a node draws, its dealing pass sends a
transaction that the contract accepts, if the prover of its client returns a proof that an honest prover makes (with few
exceptions for its choices) and its client accepts it. -/
theorem C94_honest_prover (M : Machine) {o : Address} {ws : List Address} {t n : ℕ} {aux1 : G1} {aux2 : G2}
    (hM : Sane M aux1 aux2) {V : Halo2.Key} {K : Halo2.KeyPolys} {J : IntegerImpl} {S : Shape} {start : ℕ → ℕ} {s : Fr}
    {sel : List Byte} {addr : Word} (hD : DeployedVerifier M.env t n aux1 aux2 V K J S start s sel addr)
    {w w' : ServicesFiles.World} (h0 : Services.Fresh M o ws t n w.p) {N : ℕ}
    (h : ServicesFiles.Accepting M o ws t n aux1 aux2 w N w') (hN : N < 2 ^ 255) (a : Address) (ha : a ∈ ws)
    (hp : w'.p.contractPhase = .Nidkg) (hst : (w'.p.addrToNode a).statusPP = false)
    (d : Draw) (hsk : d.sk ≠ 0) (henc : d.stream t ≠ 0) :
    ∃ badSecret : Finset Fr, badSecret.card ≤ 69 * (n + 2) ∧ ∀ b ∉ badSecret,
      GoodDraw t n aux1 aux2 (withSecret d b) ∧ ∃ pks mp ins, w'.p.pkList = pks.map Zkdvrf.keyWords ∧
        DkgMemberParams.new Poseidon.hash2 ⟨t, n⟩ pks (Function.update d.stream 0 b) = .ok mp ∧
        mp.publicParams.toInstance M.infPanics pks = .ok ins ∧
        ForHonestProofs M.env.keccak t n aux1 aux2 V K J S start s mp ins (fun pr =>
          M.prover ins = some pr → M.verifier pr ins = true →
          ∃ c p', ((ServicesFiles.nodePass M w'.p a (withSecret d b)).run (w'.node a)).2 = .ok (some c) ∧
            ZkdvrfPre.exec M.env w'.p ⟨a, 0⟩ c = some p') := by
  have hi := ServicesFiles.to_ideal hM h0 h hN
  obtain ⟨v, hv⟩ := ServicesFiles.simulated (ServicesFiles.ideal_faithful hM) (ServicesFiles.ideal_fresh h0) hi hN
  have hinv := hv.inv (ServicesFiles.ideal_faithful hM) (ServicesFiles.ideal_fresh h0) hN
  have h1 := hinv.reach
  have h2 := hinv.thr
  have h3 := hinv.cnt
  rw [hv.state] at h1 h2 h3
  obtain ⟨badSecret, hb, hgood⟩ := usual hM hD h1 h0.t_pos h0.t_le h2 h3 (by rw [hp]; exact ZkdvrfPre.Phase.noConfusion)
    d hsk henc
  refine ⟨badSecret, hb, fun b hb => ?_⟩
  obtain ⟨hg, hgood⟩ := hgood b hb
  refine ⟨hg, ?_⟩
  obtain ⟨ins, hdeal, -, hfine⟩ := C94_dealing M hM h0 h hN a ha _ hg hp hst
  obtain ⟨pks, mp, e1, e2, e3, e4⟩ := hgood ins hdeal
  refine ⟨pks, mp, ins, e1, e2, e3, honestProofs_imp e4 fun pr hpr j1 j2 => ?_⟩
  have hf := hfine.2 ⟨pr, j1, j2, hpr⟩
  have hl := ServicesFiles.dealing_landed hM h0 hi hN ha hp hst hf
  generalize ((ServicesFiles.nodePass M w'.p a (withSecret d b)).run (w'.node a)).2 = res at hf hl
  cases res with
  | error e => exact hf.elim
  | ok c =>
    cases c with
    | none => cases hl
    | some c =>
      obtain ⟨p', hp'⟩ := hf
      exact ⟨c, p', rfl, hp'⟩

/-- C98 (honest prover). The same for overlapping services that are killed and started again: the commands of the dealing
succeed, and wherever the transaction is on its way, of the running node or of a killed one, the contract accepts it
unless the node has dealt already. -/
theorem C98_honest_prover (M : Machine) {o : Address} {ws : List Address} {t n : ℕ} {aux1 : G1} {aux2 : G2}
    (hM : Sane M aux1 aux2) {V : Halo2.Key} {K : Halo2.KeyPolys} {J : IntegerImpl} {S : Shape} {start : ℕ → ℕ} {s : Fr}
    {sel : List Byte} {addr : Word} (hD : DeployedVerifier M.env t n aux1 aux2 V K J S start s sel addr) (ho : o ∉ ws)
    {w0 : Services.World} (h0 : Services.Fresh M o ws t n w0.p) {q : Services.Survivors}
    (h : Services.Surviving M o ws t n aux1 aux2 (.begin w0) q) {a : Address} (ha : a ∈ ws)
    (hj : q.w.nodeAt a = .decided .deal) (hst : (q.w.p.addrToNode a).statusPP = false)
    (d : Draw) (hsk : d.sk ≠ 0) (henc : d.stream t ≠ 0) :
    ∃ badSecret : Finset Fr, badSecret.card ≤ 69 * (n + 2) ∧ ∀ b ∉ badSecret,
      GoodDraw t n aux1 aux2 (withSecret d b) ∧ ∃ pks mp ins, q.w.p.pkList = pks.map Zkdvrf.keyWords ∧
        DkgMemberParams.new Poseidon.hash2 ⟨t, n⟩ pks (Function.update d.stream 0 b) = .ok mp ∧
        mp.publicParams.toInstance M.infPanics pks = .ok ins ∧
        ForHonestProofs M.env.keccak t n aux1 aux2 V K J S start s mp ins (fun pr =>
          M.prover ins = some pr → M.verifier pr ins = true →
          Services.nodeRun M q.w.p a (q.w.node a) (withSecret d b) .deal =
            .send (q.w.node a) (.submitPublicParams (wordsOf ins) pr) ∧
          ∀ q', Services.Surviving M o ws t n aux1 aux2 (.begin w0) q' → ∀ k,
            q'.w.nodeAt a = .sent (.submitPublicParams (wordsOf ins) pr) k ∨
              (a, .submitPublicParams (wordsOf ins) pr, k) ∈ q'.left →
            (∃ p', ZkdvrfPre.exec M.env q'.w.p ⟨a, 0⟩ (.submitPublicParams (wordsOf ins) pr) = some p') ∨
              (q'.w.p.addrToNode a).statusPP = true) := by
  obtain ⟨q2, h1, h2⟩ := Verif.Overlap.surviving_ideal hM h0 h
  have hi := Verif.Overlap.surviving_inv (ServicesFiles.ideal_faithful hM) (ServicesFiles.ideal_fresh h0) h1
  have hc := hi.core
  rw [h2.state] at hc
  have hn := hi.nodes a ha
  have hj' : q2.w.nodeAt a = .decided .deal := by
    rcases h2.nodes a with h3 | ⟨_, h3, _⟩
    · exact h3.trans hj
    · rw [hj] at h3; cases h3
  rw [hj', h2.state] at hn
  have hph : q.w.p.contractPhase ≠ .Unregistered := by
    intro e
    have hn : 2 ≤ q.w.p.contractPhase.rank := hn
    rw [e] at hn
    exact absurd hn (by decide)
  obtain ⟨badSecret, hb, hgood⟩ := usual hM hD hc.reach h0.t_pos h0.t_le hc.thr hc.cnt hph d hsk henc
  refine ⟨badSecret, hb, fun b hb => ?_⟩
  obtain ⟨hg, hgood⟩ := hgood b hb
  refine ⟨hg, ?_⟩
  obtain ⟨ins, hdeal, -, hrun⟩ := C98_any_dealing hM h0 h ha hj hst _ hg
  obtain ⟨pks, mp, e1, e2, e3, e4⟩ := hgood ins hdeal
  refine ⟨pks, mp, ins, e1, e2, e3, honestProofs_imp e4 fun pr hpr j1 j2 => ⟨(hrun _ _).2 ⟨pr, j1, j2, rfl, rfl⟩, ?_⟩⟩
  intro q' h' k hk
  rcases C98_any_transactions hM ho h0 h' ha hk with h3 | ⟨-, h3⟩ | ⟨ins', pr', h3, -, h4⟩ | ⟨⟨e, h3⟩, -⟩
  · exact Or.inl h3
  · exact Or.inr h3
  · obtain ⟨h5, h6⟩ := Zkdvrf.Call.submitPublicParams.inj h3
    rw [← h5, ← h6] at h4
    exact absurd hpr h4
  · cases h3

/-- The services with the deployed verifier and the key `V`. -/
noncomputable def deployed (V : Halo2.Key) : Machine :=
  { toyMachine with env := { toyMachine.env with
      verifyProof := Verif.Halo2.verifyProof toyMachine.env.E toyMachine.env.keccak V.words [1, 2, 3, 4] 5 } }

theorem deployed_sane (V : Halo2.Key) : Sane (deployed V) (5 • g1) FixedPoint.aux2 :=
  ⟨toy_sane.1, toy_sane.2, toy_sane.3, toy_sane.4⟩

theorem deployed_fresh (V : Halo2.Key) : ∃ p, Services.Fresh (deployed V) 7 [1, 2, 3] 2 3 p := by
  obtain ⟨p, hp⟩ := toy_fresh
  exact ⟨p, { hp with reachable :=
    ServicesFiles.reachable_verifier _ hp.reachable (by rw [hp.threshold]; norm_num) hp.phase }⟩

theorem deployed_verifier (s : Fr) : ∃ V K J S start,
    DeployedVerifier (deployed V).env 2 3 (5 • g1) FixedPoint.aux2 V K J S start s [1, 2, 3, 4] 5 := by
  obtain ⟨J, S, start, K, -, hJ', hL, h⟩ := C83_deployment_exists 2 3 (by norm_num) (by norm_num) (by norm_num)
  obtain ⟨V, hV, hn, hi, hF, hB, hP, hR⟩ := h s
  exact ⟨V, K, J, S, start, hV, hB, hP, by rw [hn, hi]; norm_num, fun _ _ => hJ' _, by rw [hL, hi], hR, hF, rfl, rfl⟩

/-- With the deployed verifier for `2` of `3`, the services come to the dealing; then the hypotheses of
`C94_honest_prover` are met. -/
example (s : Fr) (s₀ : Disk.Store) : ∃ V K J S start w w',
    DeployedVerifier (deployed V).env 2 3 (5 • g1) FixedPoint.aux2 V K J S start s [1, 2, 3, 4] 5 ∧
    Sane (deployed V) (5 • g1) FixedPoint.aux2 ∧ Services.Fresh (deployed V) 7 [1, 2, 3] 2 3 w.p ∧
    (∀ a, w.node a = s₀) ∧
    ServicesFiles.Accepting (deployed V) 7 [1, 2, 3] 2 3 (5 • g1) FixedPoint.aux2 w 4 w' ∧
    w'.p.contractPhase = .Nidkg ∧ (∀ a, (w'.p.addrToNode a).statusPP = false) ∧
    toyDraw.sk ≠ 0 ∧ toyDraw.stream 2 ≠ 0 := by
  obtain ⟨V, K, J, S, start, hD⟩ := deployed_verifier s
  obtain ⟨p, hp⟩ := deployed_fresh V
  obtain ⟨w', h1, h2, h5⟩ := C94_starts (deployed V) (deployed_sane V) toyDraw toy_good (w := ⟨p, s₀, fun _ => s₀⟩) hp
  exact ⟨V, K, J, S, start, _, w', hD, deployed_sane V, hp, fun _ => rfl, h1, h2, h5, toy_good.sk, toy_good.enc⟩

/-- Overlapping services with the deployed verifier come to a decision to deal: the hypotheses of `C98_honest_prover`
are met. -/
example (s : Fr) : ∃ V K J S start w0 q,
    DeployedVerifier (deployed V).env 2 3 (5 • g1) FixedPoint.aux2 V K J S start s [1, 2, 3, 4] 5 ∧
    Services.Fresh (deployed V) 7 [1, 2, 3] 2 3 w0.p ∧
    Services.Surviving (deployed V) 7 [1, 2, 3] 2 3 (5 • g1) FixedPoint.aux2 (.begin w0) q ∧
    q.w.nodeAt 1 = .decided .deal ∧ (q.w.p.addrToNode 1).statusPP = false := by
  obtain ⟨V, K, J, S, start, hD⟩ := deployed_verifier s
  obtain ⟨w0, q, h0, h1, h2, h3⟩ := deciding (deployed_sane V) (deployed_fresh V)
  exact ⟨V, K, J, S, start, w0, q, hD, h0, h1, h2, h3⟩

end Verif.Props
