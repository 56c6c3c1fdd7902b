import Verif.Lemmas.ZkdvrfLive
import Verif.Props.OnChain
import Verif.Props.DkgCircuit

/-! Property C41 for contracts/zkdvrf.sol, and concrete reachable states. -/

namespace Verif.Props
open Verif Zkdvrf WeierstrassCurve.Affine DkgCircuit

/-! ### C41: setup and rounds can be completed -/

theorem key_on_curve {P : Gk} (hP : P ≠ 0) : GrumpkinSol.isOnCurve (keyWords P) = true :=
  (C51_canonical _ (wordOf_lt_r _) (wordOf_lt_r _)).2 ⟨P, hP, rfl, rfl⟩

theorem keys_exist (l : List GrumpkinSol.Point) (h : ∀ k ∈ l, ∃ P : Gk, P ≠ 0 ∧ k = keyWords P) :
    ∃ pks : List Gk, l = pks.map keyWords ∧ ∀ P ∈ pks, P ≠ 0 := by
  induction l with
  | nil => exact ⟨[], rfl, by simp⟩
  | cons k l ih =>
    obtain ⟨pks, h1, h2⟩ := ih (fun k hk => h k (List.mem_cons_of_mem _ hk))
    obtain ⟨P, h3, h4⟩ := h k List.mem_cons_self
    refine ⟨P :: pks, by rw [List.map_cons, ← h1, ← h4], ?_⟩
    intro Q hQ
    rcases List.mem_cons.1 hQ with rfl | hQ
    · exact h3
    · exact h2 Q hQ

/-- The coordinates in an instance made by the library are reduced. -/
theorem reduced_instance {infPanics : Bool} {n : ℕ} {pp : DkgMemberPublicParams} {pks : List Gk}
    {ins : List Fr} (hls : pp.publicShares.length = n) (hl : pks.length = n)
    (hins : pp.toInstance infPanics pks = .ok ins) : Spec.Reduced n (wordsOf ins) := by
  have hins' : ins = encParams pp pks := by
    rw [toInstance_eq infPanics _ pks (by rw [hls, hl])] at hins
    split at hins
    · cases hins
    · exact (Except.ok.inj hins).symm
  rw [hins', reduced_iff]
  have := redN_enc (pp.ga :: pp.publicShares)
    (wordsOf (enc2 pp.g2a ++ (encGk pp.gr ++ (pp.ciphers ++ pks.flatMap encGk))))
  rw [List.length_cons, hls] at this
  convert this using 1
  simp only [encParams, wordsOf, List.map_append, List.append_assoc, List.flatMap_cons]

/-- An honest dealing to the given keys that is accepted by the proof check. -/
theorem honest_submission {env : Env} {t n : ℕ} (ht : 0 < t) (hn : 1 ≤ n) (hb : n < 2 ^ 32)
    (hc : Spec.SnarkComplete env t n) (pks : List Gk) (hl : pks.length = n) (hpk : ∀ P ∈ pks, P ≠ 0) :
    ∃ w pr, env.verifyProof pr w = some true ∧ w.length = 7 * n + 14 ∧
      w.drop (5 * n + 14) = (pks.map keyWords).flatMap (fun k => [k.x, k.y]) ∧ Spec.Reduced n w := by
  obtain ⟨auxG1, auxG2, h1, h2, h3, hc⟩ := hc
  obtain ⟨bad, hbad, hgood⟩ := C29_honest_provable true t n ht hn (lt_trans hb (by norm_num)) auxG1 auxG2
    h1 h2 h3 pks hl hpk (fun _ => 1) one_ne_zero
  have hex : ∃ a, a ∉ bad := by
    by_contra hall
    push Not at hall
    have hu : bad = Finset.univ := Finset.eq_univ_iff_forall.2 hall
    rw [hu, Finset.card_univ, ZMod.card] at hbad
    have h0 : 69 * (2 ^ 32 + 2) < r := by decide +kernel
    exact absurd (lt_of_lt_of_le h0 hbad) (not_lt.2 (Nat.mul_le_mul_left _ (by omega)))
  obtain ⟨a, ha⟩ := hex
  obtain ⟨mp, ins, hnew, hins, hsyn⟩ := hgood a ha
  obtain ⟨pr, hpr⟩ := hc ins hsyn
  have hd := new_eq_dealt t n ht hn pks hl _ mp hnew
  obtain ⟨hls, hlc⟩ := length_dealt n ((List.range t).map (Function.update (fun _ => (1 : Fr)) 0 a))
    (Function.update (fun _ => (1 : Fr)) 0 a t).val pks
  rw [← hd] at hls hlc
  obtain ⟨e1, e2⟩ := instance_keys hls hlc hl hins
  exact ⟨_, pr, hpr, e1, e2, reduced_instance hls hl hins⟩

private theorem dkg_completes (env : Env) {s : State} (hr : Reachable env s)
    (hp : s.contractPhase = .Nidkg) (hn : s.memberCount ≠ 0) (ht : 0 < s.threshold)
    (hs : Spec.SnarkSound env s.threshold s.memberCount)
    (hc : Spec.SnarkComplete env s.threshold s.memberCount)
    (hk : ∀ k ∈ s.pkList, ∃ P : Gk, P ≠ 0 ∧ k = keyWords P)
    (hred : ∀ w ∈ s.ppList, Spec.Reduced s.memberCount w) :
    ∃ s', SetupLater env s s' ∧ s'.contractPhase = .Ready ∧ s'.owner = s.owner ∧
      s'.currentRoundNum = 0 := by
  have hreg := regInv hr
  have hb := hreg.bound
  obtain ⟨pks, h1, h2⟩ := keys_exist _ hk
  have hl : pks.length = s.memberCount := by
    have := hreg.pkLen
    rw [h1, List.length_map] at this
    rw [this]
    exact hreg.started (by rw [hp]; exact Phase.noConfusion)
  obtain ⟨pp, pr, hv, e1, e2, hpr⟩ := honest_submission ht (by omega) (by omega) hc pks hl h2
  have hchk : checkPublicParams s pp = some true :=
    (checkPublicParams_true hreg.len hreg.bound pp).2
      ⟨by rw [h1, List.length_map, hl], e1, by rw [e2, h1]⟩
  obtain ⟨s1, a1, a2, a3, a4⟩ := submit_all (t := s.threshold) pp pr hv _ s hr hp hn hchk rfl
  have hkp := a1.keeps hr
  obtain ⟨s2, b1, b2, b3, b4⟩ := finish (a1.reachable hr) a2
    (by rw [hkp.threshold, hkp.memberCount]; exact hs)
    (by
      intro w hw
      rw [hkp.memberCount]
      rcases a4 w hw with rfl | h
      · exact hpr
      · exact hred w h)
  exact ⟨s2, a1.trans b1, b2, b3.trans a3, b4⟩

theorem setup_completes (env : Env) {s : State} (hr : Reachable env s)
    (hnr : s.contractPhase ≠ .Ready) (hn : s.memberCount ≠ 0) (ht : 0 < s.threshold) (ho : s.owner ≠ 0)
    (hs : Spec.SnarkSound env s.threshold s.memberCount)
    (hc : Spec.SnarkComplete env s.threshold s.memberCount)
    (hk : ∀ k ∈ s.pkList, ∃ P : Gk, P ≠ 0 ∧ k = keyWords P)
    (hred : ∀ w ∈ s.ppList, Spec.Reduced s.memberCount w) :
    ∃ s', SetupLater env s s' ∧ s'.contractPhase = .Ready ∧ s'.owner = s.owner ∧
      s'.currentRoundNum = 0 := by
  cases hp : s.contractPhase with
  | Ready => exact absurd hp hnr
  | NidkgComplete => exact finish hr hp hs hred
  | Nidkg => exact dkg_completes env hr hp hn ht hs hc hk hred
  | Unregistered =>
    obtain ⟨s1, a1, a2, a3, d, a4, a5⟩ := start (keyWords gk) (key_on_curve gk_ne_zero) hr hp ho
    have hkp := a1.keeps hr
    obtain ⟨s2, b1, b2, b3, b4⟩ := dkg_completes env (a1.reachable hr) a2
      (by rw [hkp.memberCount]; exact hn) (by rw [hkp.threshold]; exact ht)
      (by rw [hkp.threshold, hkp.memberCount]; exact hs)
      (by rw [hkp.threshold, hkp.memberCount]; exact hc)
      (by
        intro k hk'
        rw [a4] at hk'
        rcases List.mem_append.1 hk' with h | h
        · exact hk k h
        · exact ⟨gk, gk_ne_zero, List.eq_of_mem_replicate h⟩)
      (by rw [a5, hkp.memberCount]; exact hred)
    exact ⟨s2, a1.trans b1, b2, b3.trans a3, b4⟩

/-- C41 (setup). From every reachable state before `Ready`, with positive numbers of members and of
the threshold, an owner, and only canonical keys and reduced coordinates submitted so far, some
continuation reaches `Ready` under the same owner and with no round opened, provided the proof system
is sound and complete for the circuit. -/
theorem C41_setup_completes (env : Env) {s : State} (hr : Reachable env s)
    (hnr : s.contractPhase ≠ .Ready) (hn : s.memberCount ≠ 0) (ht : 0 < s.threshold) (ho : s.owner ≠ 0)
    (hs : Spec.SnarkSound env s.threshold s.memberCount)
    (hc : Spec.SnarkComplete env s.threshold s.memberCount)
    (hk : ∀ k ∈ s.pkList, ∃ P : Gk, P ≠ 0 ∧ k = keyWords P)
    (hred : ∀ w ∈ s.ppList, Spec.Reduced s.memberCount w) :
    ∃ s', Later env s s' ∧ s'.contractPhase = .Ready ∧ s'.owner = s.owner ∧
      s'.currentRoundNum = 0 := by
  obtain ⟨s', h1, h2⟩ := setup_completes env hr hnr hn ht ho hs hc hk hred
  exact ⟨s', h1.later, h2⟩

/-- Words of a library evaluation, as the client submits them. -/
noncomputable def evalWords (p : PartialEval) : SolEval :=
  ⟨p.index, encodeG1 p.value, wordOf p.proof.z, wordOf p.proof.c⟩

theorem input_ok {env : Env} {s : State} (hr : Reachable env s) (k : ℕ) :
    (s.roundInput k).length < 2 ^ 64 := by
  rw [(roundInv hr).input k]
  split
  · rename_i h
    exact input_length (lt_of_le_of_lt h.2 (roundInv hr).bound)
  · simp

/-- C41 (evaluation). In an open round without random, every registered node that has not submitted
yet can submit the library's evaluation with the share key behind its verification key, whatever
others have submitted. -/
theorem C41_node_can_submit (env : Env) {s : State} (hr : Reachable env s)
    (hp : s.contractPhase = .Ready) (hopen : ¬ Completed s s.currentRoundNum) (a : Address)
    (_ha0 : a ≠ 0) (ha : Registered s a) (hl : s.lastSubmittedRound a < s.currentRoundNum)
    (sk nonce : Fr) (hvk : s.vkList[indexOf s a]? = some (encodeG1 (sk • g1))) :
    let pe := DkgShareKey.evaluate env.keccak (evalHash env.keccak) ⟨indexOf s a + 1, sk, sk • g1⟩
      (s.roundInput s.currentRoundNum) nonce
    ∃ s', exec env s ⟨a, 0⟩ (.submitPartialEval (evalWords pe)) = some s' ∧
      s'.roundToEval s.currentRoundNum (indexOf s a) = evalWords pe ∧
      s'.roundSubmissionCount s.currentRoundNum = s.roundSubmissionCount s.currentRoundNum + 1 := by
  intro pe
  have hreg := regInv hr
  have hidx := hreg.reg_idx a ha
  have hcard := hreg.reg_card
  have hle := hreg.idx_le
  have hb := hreg.bound
  have hcount : s.roundSubmissionCount s.currentRoundNum ≤ s.memberCount := by
    rw [(evalInv hr).count]
    exact (Finset.card_filter_le _ _).trans (by simp)
  have hi : indexOf s a < s.registeredCount := hidx.1
  have he : exec env s ⟨a, 0⟩ (.submitPartialEval (evalWords pe)) = some _ :=
    submitPartialEval_some.2 ⟨rfl, hidx.2.2.1.symm, not_not.1 hopen, hl,
      by change indexOf s a + 1 < _; omega, rfl, ⟨_, hvk,
      C21_honest_accepted env.keccak _ (input_ok hr _) sk nonce _⟩, by omega, rfl⟩
  refine ⟨_, he, ?_, ?_⟩
  · simp only [Function.update_self]
    exact Function.update_self _ _ _
  · simp only [Function.update_self]

/-- C41 (round). In phase `Ready`, with a sound proof system, the library's combination of the
evaluations of any `threshold` members (indices strictly increasing) holding the share keys behind
the stored verification keys is accepted by `submitRandom` for the open round; the round is then
complete (unless the hash of the proof is the zero word). -/
theorem C41_round_completes (env : Env) {s : State} (hr : Reachable env s)
    (hp : s.contractPhase = .Ready) (hopen : ¬ Completed s s.currentRoundNum) (ho : s.owner ≠ 0)
    (ht : 0 < s.threshold) (hs : Spec.SnarkSound env s.threshold s.memberCount)
    (quorum : List ℕ) (hq : quorum.length = s.threshold)
    (hv : Spec.ValidIndices s.memberCount quorum) (sk nonce : ℕ → Fr)
    (hsk : ∀ i ∈ quorum, s.vkList[i - 1]? = some (encodeG1 (sk i • g1))) :
    ∃ pr, combinePartialEvaluations env.keccak ⟨s.threshold, s.memberCount⟩ (quorum.map (fun i =>
        DkgShareKey.evaluate env.keccak (evalHash env.keccak) ⟨i, sk i, sk i • g1⟩
          (s.roundInput s.currentRoundNum) (nonce i))) = .ok pr ∧
      ∃ w : Word, pr.value = Word.bytes w ∧
      ∃ s', exec env s ⟨s.owner, 0⟩ (.submitRandom ⟨encodeG1 pr.proof, w⟩) = some s' ∧
        s'.roundToRandom s.currentRoundNum = ⟨encodeG1 pr.proof, w⟩ ∧
        (w ≠ 0 → Completed s' s.currentRoundNum) := by
  obtain ⟨F, hF, hgpk, hvk⟩ := group_poly hr hp hs
  have hreg := regInv hr
  have hb := hreg.bound
  obtain ⟨a0, rest, rfl⟩ : ∃ a0 rest, F = a0 :: rest := by
    cases F with
    | nil => rw [← hF] at ht; exact absurd ht (lt_irrefl _)
    | cons a l => exact ⟨a, l, rfl⟩
  have hski : ∀ i ∈ quorum, sk i = Spec.poly (a0 :: rest) (i : Fr) := by
    intro i hi
    have h1 := hsk i hi
    obtain ⟨hi1, hi2⟩ := hv.2 i hi
    rw [hvk, List.getElem?_map, List.getElem?_range (by omega), Option.map_some,
      Option.some.injEq] at h1
    have := smul_g1_inj (encodeG1_inj h1)
    rw [← this, Nat.sub_add_cancel hi1]
  obtain ⟨pr, h1, h2, h3⟩ := C03_recombination env.keccak ⟨s.threshold, s.memberCount⟩ ht
    (by change s.memberCount < 2 ^ 64; omega) a0 rest hF
    (evalHash env.keccak (s.roundInput s.currentRoundNum))
    (quorum.map (fun i =>
        DkgShareKey.evaluate env.keccak (evalHash env.keccak) ⟨i, sk i, sk i • g1⟩
          (s.roundInput s.currentRoundNum) (nonce i)))
    (by simpa using hq)
    (by
      rw [List.map_map]
      have : (PartialEval.index ∘ fun i : ℕ => DkgShareKey.evaluate env.keccak
        (evalHash env.keccak) ⟨i, sk i, sk i • g1⟩ (s.roundInput s.currentRoundNum) (nonce i)) = id :=
        rfl
      rw [this, List.map_id]
      exact hv)
    (by
      intro p hp
      obtain ⟨i, hi, rfl⟩ := List.mem_map.1 hp
      change sk i • _ = _
      rw [hski i hi]
      rfl)
  have hbe : ∀ x : Fq, beBytes 32 x.val = Word.bytes (wordOf x) := fun x => (wordBytes_wordOf x).symm
  have hval : pr.value = Word.bytes (env.keccak
      (Word.bytes (encodeG1 pr.proof).x ++ Word.bytes (encodeG1 pr.proof).y)) := by
    rw [h3, ← h2, hbe, hbe]
    rfl
  have hver : PseudoRandSol.verifyPseudoRand env.E env.keccak (s.roundInput s.currentRoundNum)
      (encodeG1 pr.proof) s.gpkVal = some true := by
    rw [hgpk, poly_zero_eval]
    exact (C22_unique env.E env.keccak _ (input_ok hr _) _ _).2 (by rw [h2])
  have he : exec env s ⟨s.owner, 0⟩ (.submitRandom ⟨encodeG1 pr.proof, env.keccak
      (Word.bytes (encodeG1 pr.proof).x ++ Word.bytes (encodeG1 pr.proof).y)⟩) = some _ :=
    submitRandom_some.2 ⟨rfl, rfl, not_not.1 hopen, hver, rfl, rfl⟩
  refine ⟨pr, h1, _, hval, _, he, ?_, ?_⟩
  · simp only [Function.update_self]
  · intro hw
    unfold Completed
    simp only [Function.update_self]
    exact hw

/-- C41 (next round). In phase `Ready` the owner can open the next round as soon as the current one
(if any) is complete. -/
theorem C41_round_opens (env : Env) {s : State} (hp : s.contractPhase = .Ready)
    (hb : s.currentRoundNum + 1 < 2 ^ 256)
    (hdone : s.currentRoundNum = 0 ∨ Completed s s.currentRoundNum) :
    ∃ s', exec env s ⟨s.owner, 0⟩ .initiateRandom = some s' ∧
      s'.currentRoundNum = s.currentRoundNum + 1 ∧
      s'.roundInput (s.currentRoundNum + 1) =
        strBytes "zkRand-v1-2024:" ++ decimal (s.currentRoundNum + 1) := by
  have he : exec env s ⟨s.owner, 0⟩ .initiateRandom = some _ :=
    initiateRandom_some.2 ⟨rfl, rfl, hp, hdone, hb, rfl⟩
  refine ⟨_, he, rfl, ?_⟩
  simp only [Function.update_self]
  rfl

open Classical in
/-- A concrete environment meeting the hypotheses: a proof check that accepts exactly the instances
with which the circuit can be satisfied, a concrete pairing, a constant hash. -/
noncomputable def toyEnv (t n : ℕ) : Env where
  E := toyPairing
  keccak := fun _ => 1
  verifyProof := fun _ pp => some (decide (∃ ins, pp = wordsOf ins ∧
    DkgCircuit.synthesize ⟨t, n⟩ (5 • g1) FixedPoint.aux2 ins))

open Classical in
theorem toy_sound (t n : ℕ) : Spec.SnarkSound (toyEnv t n) t n := by
  refine ⟨5 • g1, FixedPoint.aux2, fun proof pp h _ => ?_⟩
  have := Option.some.inj h
  exact of_decide_eq_true this

open Classical in
theorem toy_complete (t n : ℕ) : Spec.SnarkComplete (toyEnv t n) t n := by
  refine ⟨5 • g1, FixedPoint.aux2, FixedPoint.tableFitsN_spec addOrderOf_g1 (by decide +kernel), FixedPoint.r_nsmul_aux2,
    FixedPoint.aux2_tableFits, fun ins h => ⟨[], ?_⟩⟩
  exact congrArg some (decide_eq_true ⟨ins, rfl, h⟩)

/-- A fresh deployment of 2 members, threshold 1, by address 7. -/
theorem toy_deploy : ∃ s, Reachable (toyEnv 1 2) s ∧ s.contractPhase = .Unregistered ∧
    s.memberCount = 2 ∧ s.threshold = 1 ∧ s.owner = 7 ∧ s.pkList = [] ∧ s.ppList = [] := by
  have hc : Zkdvrf.constructor ⟨7, 0⟩ 1 2 true true true 5 = some _ :=
    constructor_some.2 ⟨rfl, by decide, rfl, by norm_num, by norm_num, by norm_num, by norm_num, rfl⟩
  exact ⟨_, .deploy (m := ⟨7, 0⟩) (by decide) hc, rfl, rfl, rfl, rfl, rfl, rfl⟩

/-- A ready deployment without rounds. -/
theorem toy_ready : ∃ s, Reachable (toyEnv 1 2) s ∧ s.contractPhase = .Ready ∧
    s.memberCount = 2 ∧ s.threshold = 1 ∧ s.owner = 7 ∧ s.currentRoundNum = 0 := by
  obtain ⟨s, h1, h2, h3, h4, h5, h6, h6'⟩ := toy_deploy
  obtain ⟨s', a1, a2, a3, a4⟩ := C41_setup_completes (toyEnv 1 2) h1
    (by rw [h2]; exact Phase.noConfusion) (by rw [h3]; norm_num) (by rw [h4]; norm_num)
    (by rw [h5]; decide) (by rw [h3, h4]; exact toy_sound 1 2)
    (by rw [h3, h4]; exact toy_complete 1 2) (by rw [h6]; simp) (by rw [h6']; simp)
  have hk := a1.keeps h1
  exact ⟨s', a1.reachable h1, a2, hk.memberCount.trans h3, hk.threshold.trans h4, a3.trans h5, a4⟩

/-- Round 1 open, no random yet. -/
theorem toy_open : ∃ s, Reachable (toyEnv 1 2) s ∧ s.contractPhase = .Ready ∧
    s.memberCount = 2 ∧ s.threshold = 1 ∧ s.owner = 7 ∧ s.currentRoundNum = 1 ∧
    ¬ Completed s 1 ∧ ∀ a, s.lastSubmittedRound a = 0 := by
  obtain ⟨s, h1, h2, h3, h4, h5, h6⟩ := toy_ready
  have hz : ∀ a, s.lastSubmittedRound a = 0 := fun a => by
    have := (evalInv h1).last_le a; omega
  have hf : s.roundToRandom 1 = .empty := (roundInv h1).future 1 (by omega)
  have he : exec (toyEnv 1 2) s ⟨7, 0⟩ .initiateRandom = some _ :=
    initiateRandom_some.2 ⟨rfl, h5.symm, h2, Or.inl h6, by rw [h6]; norm_num, rfl⟩
  refine ⟨_, h1.call (m := ⟨7, 0⟩) (by decide) he, h2, h3, h4, h5, by rw [h6], ?_, hz⟩
  unfold Completed
  simp only
  rw [hf]
  exact fun h => h rfl

/-- Every node and every quorum of one has the keys required by `C41_node_can_submit` and
`C41_round_completes`; round 1 gets completed. -/
theorem toy_done : ∃ s, Reachable (toyEnv 1 2) s ∧ s.contractPhase = .Ready ∧
    s.memberCount = 2 ∧ s.threshold = 1 ∧ s.owner = 7 ∧ s.currentRoundNum = 1 ∧
    Completed s 1 ∧ Submitted s 1 0 := by
  obtain ⟨s, h1, h2, h3, h4, h5, h6, h7, h8⟩ := toy_open
  have hs : Spec.SnarkSound (toyEnv 1 2) s.threshold s.memberCount := by
    rw [h3, h4]; exact toy_sound 1 2
  obtain ⟨F, _, _, hvk⟩ := group_poly h1 h2 hs
  have hreg := regInv h1
  have hrc : s.registeredCount = 2 := by
    rw [← h3]; exact hreg.started (by rw [h2]; exact Phase.noConfusion)
  obtain ⟨hst, hidx⟩ := hreg.reg_node 0 (by omega)
  have hself := (hreg.reg_idx _ hst).2.2.1
  have h0 : s.nodes 0 ≠ 0 := by
    intro h0
    rw [h0] at hst hself
    rw [hreg.empty 0 hself] at hst
    cases hst
  have hv0 : s.vkList[0]? = some (encodeG1 (Spec.poly F ((0 + 1 : ℕ) : Fr) • g1)) := by
    rw [hvk, h3]; rfl
  obtain ⟨s1, e1, e2, e3⟩ := C41_node_can_submit (toyEnv 1 2) h1 h2 (by rw [h6]; exact h7)
    (s.nodes 0) h0 hst (by rw [h8, h6]; norm_num) (Spec.poly F ((0 + 1 : ℕ) : Fr)) 5
    (by rw [indexOf, hidx]; exact hv0)
  have r1 := h1.call (m := ⟨s.nodes 0, 0⟩) h0 e1
  have hk := keeps_exec h1 (m := ⟨s.nodes 0, 0⟩) h0 e1
  obtain ⟨_, _, _, _, _, _, _, _, hs1⟩ := submitPartialEval_some.1 e1
  have c1 : s1.currentRoundNum = 1 := by rw [← hs1]; exact h6
  have c2 : s1.contractPhase = .Ready := by rw [← hs1]; exact h2
  have c3 : s1.threshold = 1 := hk.threshold.trans h4
  have c4 : s1.memberCount = 2 := hk.memberCount.trans h3
  have c5 : s1.owner = 7 := by rw [← hs1]; exact h5
  have c6 : s1.vkList = s.vkList := (hk.keys h2).1
  have c7 : ¬ Completed s1 1 := by unfold Completed at h7 ⊢; rw [← hs1]; exact h7
  have c8 : Submitted s1 1 0 := by
    unfold Submitted
    rw [h6, indexOf, hidx] at e2
    rw [e2]
    exact Nat.succ_ne_zero _
  clear hs1
  obtain ⟨pr, _, w, hw, s2, f1, f2, f3⟩ := C41_round_completes (toyEnv 1 2) r1 c2
    (by rw [c1]; exact c7) (by rw [c5]; decide)
    (by rw [c3]; norm_num) (by rw [c3, c4]; exact toy_sound 1 2) [1] c3.symm
    (by rw [c4]; simp [Spec.ValidIndices])
    (fun _ => Spec.poly F ((0 + 1 : ℕ) : Fr)) (fun _ => 3)
    (by
      intro i hi
      rw [List.mem_singleton.1 hi, c6]
      exact hv0)
  have r2 := r1.call (m := ⟨s1.owner, 0⟩) (by change s1.owner ≠ 0; rw [c5]; decide) f1
  have hk2 := keeps_exec r1 (m := ⟨s1.owner, 0⟩) (by change s1.owner ≠ 0; rw [c5]; decide) f1
  obtain ⟨_, _, _, _, hval, hs2⟩ := submitRandom_some.1 f1
  have hw0 : w ≠ 0 := by rw [show w = 1 from hval]; decide
  refine ⟨s2, r2, ?_, hk2.memberCount.trans c4, hk2.threshold.trans c3, ?_, ?_, ?_, ?_⟩
  · rw [← hs2]; exact c2
  · rw [← hs2]; exact c5
  · rw [← hs2]; exact c1
  · have := f3 hw0; rw [c1] at this; exact this
  · unfold Submitted at c8 ⊢
    rw [hk2.eval 1 0 c8]; exact c8

end Verif.Props
