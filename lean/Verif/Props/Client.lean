import Verif.Lemmas.Client
import Verif.Props.ContractRounds
import Verif.Props.Liveness
import Verif.Props.Serialise
import Verif.Props.Dkg

/-! Property C46: the client's `rand combine` command, alone and fed from the contract. -/

namespace Verif.Props
open Verif

/-- C46. When the files are readable and there is a verification key per member, `combine` writes
`out` exactly when all indices are in range, at least `t` evaluations verify under the key of their
own index, the first `t` of these (in file order) combine to a pseudorandom that verifies under the
group key, and `out` is that pseudorandom.  With fewer than `t` verifying it fails with that message,
and with an index out of range it fails naming the first such index. -/
theorem C46_combine_spec (E : BnPairing) (keccak : Keccak) (h2c : List Byte → G1) (cfg : DkgConfig)
    (ef : List PartialEvalSerde) (gf : Point2Serde) (vf : List PointSerde) (input : List Byte)
    (evals : List PartialEval) (gpk : G2) (vks : List G1)
    (he : ef.mapM PartialEvalSerde.read = .ok evals) (hg : gf.toG2 = .ok gpk)
    (hv : vf.mapM PointSerde.toG1 = .ok vks) (hl : vks.length = cfg.numberOfMembers) :
    let good := Spec.verifying keccak h2c cfg input vks evals
    let out := Client.combine E keccak h2c cfg ef gf vf input false
    (∀ o, out = .ok o ↔ (∀ e ∈ evals, 1 ≤ e.index ∧ e.index ≤ cfg.numberOfMembers) ∧
      cfg.threshold ≤ good.length ∧ ∃ p,
        combinePartialEvaluations keccak cfg (good.take cfg.threshold) = .ok p ∧
        p.verify E keccak h2c input gpk = .ok () ∧ o = .of p) ∧
    ((∀ e ∈ evals, 1 ≤ e.index ∧ e.index ≤ cfg.numberOfMembers) → good.length < cfg.threshold →
      out = .error .notEnough) ∧
    (∀ pre e post, evals = pre ++ e :: post →
      (∀ a ∈ pre, 1 ≤ a.index ∧ a.index ≤ cfg.numberOfMembers) →
      ¬ (1 ≤ e.index ∧ e.index ≤ cfg.numberOfMembers) → out = .error (.badIndex e.index)) := by
  intro good out
  have hout : ∀ sel, Client.verifyLoop keccak h2c cfg input vks evals = sel → out = (do
      let verified ← sel
      if verified.length < cfg.threshold then .error .notEnough
      else do
        let pseudo ← Client.lift
          (combinePartialEvaluations keccak cfg (verified.take cfg.threshold))
        Client.lift (pseudo.verify E keccak h2c input gpk)
        return PseudoRandomSerde.of pseudo) := by
    intro sel hs
    refine Client.combine_eq E keccak h2c cfg ef gf vf input false evals gpk sel he hg ?_
    rw [if_neg (by decide), hv]
    exact hs
  have hbad : ∀ pre e post, evals = pre ++ e :: post →
      (∀ a ∈ pre, 1 ≤ a.index ∧ a.index ≤ cfg.numberOfMembers) →
      ¬ (1 ≤ e.index ∧ e.index ≤ cfg.numberOfMembers) → out = .error (.badIndex e.index) := by
    intro pre e post hs hp hb
    have hb' : Client.verifyLoop keccak h2c cfg input vks evals = .error (.badIndex e.index) := by
      rw [hs]; exact Client.verifyLoop_bad keccak h2c cfg input vks hl pre e post hp hb
    rw [hout _ hb']
    rfl
  have hgood : (∀ e ∈ evals, 1 ≤ e.index ∧ e.index ≤ cfg.numberOfMembers) → out = _ :=
    fun h => hout _ (Client.verifyLoop_ok keccak h2c cfg input vks hl evals h)
  refine ⟨fun o => ?_, fun h hlen => ?_, hbad⟩
  · by_cases h : ∀ e ∈ evals, 1 ≤ e.index ∧ e.index ≤ cfg.numberOfMembers
    · rw [hgood h]
      exact Client.tail_ok.trans ⟨fun a => ⟨h, a⟩, fun a => a.2⟩
    · constructor
      · intro ho
        exfalso
        -- split at the first index out of range
        have split : ∀ l : List PartialEval,
            (¬ ∀ e ∈ l, 1 ≤ e.index ∧ e.index ≤ cfg.numberOfMembers) →
            ∃ pre e post, l = pre ++ e :: post ∧
              (∀ a ∈ pre, 1 ≤ a.index ∧ a.index ≤ cfg.numberOfMembers) ∧
              ¬ (1 ≤ e.index ∧ e.index ≤ cfg.numberOfMembers) := by
          intro l
          induction l with
          | nil => intro h; exact absurd (by simp) h
          | cons a l ih =>
            intro h
            by_cases ha : 1 ≤ a.index ∧ a.index ≤ cfg.numberOfMembers
            · obtain ⟨pre, e, post, h1, h2, h3⟩ := ih (fun hl => h (by
                intro e he
                rcases List.mem_cons.1 he with rfl | he
                · exact ha
                · exact hl e he))
              refine ⟨a :: pre, e, post, by rw [h1]; rfl, ?_, h3⟩
              intro b hb
              rcases List.mem_cons.1 hb with rfl | hb
              · exact ha
              · exact h2 b hb
            · exact ⟨[], a, l, rfl, by simp, ha⟩
        obtain ⟨pre, e, post, h1, h2, h3⟩ := split evals h
        rw [hbad pre e post h1 h2 h3] at ho
        cases ho
      · exact fun a => absurd a.1 h
  · rw [hgood h]
    change (if good.length < cfg.threshold then _ else _) = _
    rw [if_pos hlen]

/-- C46. With `--skip` the first `t` evaluations of the file are used as they are. -/
theorem C46_skip_spec (E : BnPairing) (keccak : Keccak) (h2c : List Byte → G1) (cfg : DkgConfig)
    (ef : List PartialEvalSerde) (gf : Point2Serde) (vf : List PointSerde) (input : List Byte)
    (evals : List PartialEval) (gpk : G2)
    (he : ef.mapM PartialEvalSerde.read = .ok evals) (hg : gf.toG2 = .ok gpk) :
    ∀ o, Client.combine E keccak h2c cfg ef gf vf input true = .ok o ↔
      cfg.threshold ≤ evals.length ∧ ∃ p,
        combinePartialEvaluations keccak cfg (evals.take cfg.threshold) = .ok p ∧
        p.verify E keccak h2c input gpk = .ok () ∧ o = .of p := by
  intro o
  rw [Client.combine_eq E keccak h2c cfg ef gf vf input true evals gpk (.ok evals) he hg rfl]
  exact Client.tail_ok

/-- C46. Whatever the files contain (adversarial evaluations, wrong keys, too few or unordered
entries) and whether or not verification is skipped: what `combine` writes is a pseudorandom that the
library's verifier, and the `verify-final` command, accept for this input under the group key of the
key file. -/
theorem C46_output_verifies (E : BnPairing) (keccak : Keccak) (h2c : List Byte → G1)
    (cfg : DkgConfig) (ef : List PartialEvalSerde) (gf : Point2Serde) (vf : List PointSerde)
    (input : List Byte) (skip : Bool) (out : PseudoRandomSerde)
    (h : Client.combine E keccak h2c cfg ef gf vf input skip = .ok out) :
    (∃ p gpk, out.read = .ok p ∧ gf.toG2 = .ok gpk ∧ p.verify E keccak h2c input gpk = .ok ()) ∧
    Client.verifyFinal E keccak h2c out gf input = .ok () := by
  have key : ∃ p gpk, out = .of p ∧ gf.toG2 = .ok gpk ∧
      p.verify E keccak h2c input gpk = .ok () := by
    cases he : ef.mapM PartialEvalSerde.read with
    | error f => unfold Client.combine at h; rw [he] at h; cases h
    | ok evals =>
      cases hg : gf.toG2 with
      | error f => unfold Client.combine at h; rw [he, hg] at h; cases h
      | ok gpk =>
        rw [Client.combine_eq E keccak h2c cfg ef gf vf input skip evals gpk _ he hg rfl] at h
        cases hs : (if skip then .ok evals else do
            let vks ← Client.lift (vf.mapM PointSerde.toG1)
            Client.verifyLoop keccak h2c cfg input vks evals :
            Except Client.CliFail (List PartialEval)) with
        | error f => rw [hs] at h; cases h
        | ok v =>
          rw [hs] at h
          obtain ⟨_, p, _, hv, ho⟩ := Client.tail_ok.1 h
          exact ⟨p, gpk, ho, rfl, hv⟩
  obtain ⟨p, gpk, rfl, hg, hv⟩ := key
  have hr := C17_roundtrip.2.2.2.2.2.2 p
  refine ⟨⟨p, gpk, hr, hg, hv⟩, ?_⟩
  unfold Client.verifyFinal
  rw [hr, hg]
  change Client.lift (p.verify E keccak h2c input gpk) = _
  rw [hv]
  rfl

/-- C46. The output does not depend on which evaluations were supplied: two successful runs for the
same input and the same group key (a point of the prime-order group) write the same file, whatever
evaluation files, verification keys, configuration and flags they used. -/
theorem C46_output_unique (E : BnPairing) (keccak : Keccak) (h2c : List Byte → G1)
    (cfg cfg' : DkgConfig) (ef ef' : List PartialEvalSerde) (gf : Point2Serde)
    (vf vf' : List PointSerde) (input : List Byte) (skip skip' : Bool) (gpk : G2)
    (hg : gf.toG2 = .ok gpk) (ho : r • gpk = 0) (out out' : PseudoRandomSerde)
    (h : Client.combine E keccak h2c cfg ef gf vf input skip = .ok out)
    (h' : Client.combine E keccak h2c cfg' ef' gf vf' input skip' = .ok out') : out = out' := by
  have key : ∀ {cfg ef vf skip out},
      Client.combine E keccak h2c cfg ef gf vf input skip = .ok out →
      ∃ p, out.read = .ok p ∧ p.verify E keccak h2c input gpk = .ok () := by
    intro cfg ef vf skip out h
    obtain ⟨⟨p, g, h1, h2, h3⟩, _⟩ := C46_output_verifies E keccak h2c cfg ef gf vf input skip out h
    rw [hg] at h2
    cases h2
    exact ⟨p, h1, h3⟩
  have of : ∀ {cfg ef vf skip out},
      Client.combine E keccak h2c cfg ef gf vf input skip = .ok out →
      ∃ p, out = .of p := by
    intro cfg ef vf skip out h
    cases he : ef.mapM PartialEvalSerde.read with
    | error f => unfold Client.combine at h; rw [he] at h; cases h
    | ok evals =>
      rw [Client.combine_eq E keccak h2c cfg ef gf vf input skip evals gpk _ he hg rfl] at h
      cases hs : (if skip then .ok evals else do
          let vks ← Client.lift (vf.mapM PointSerde.toG1)
          Client.verifyLoop keccak h2c cfg input vks evals :
          Except Client.CliFail (List PartialEval)) with
      | error f => rw [hs] at h; cases h
      | ok v =>
        rw [hs] at h
        obtain ⟨_, p, _, _, ho⟩ := Client.tail_ok.1 h
        exact ⟨p, ho⟩
  obtain ⟨p, h1, h2⟩ := key h
  obtain ⟨p', h1', h2'⟩ := key h'
  have e := C07_unique_output E keccak h2c p p' input gpk ho h2 h2'
  obtain ⟨a, rfl⟩ := of h
  obtain ⟨b, rfl⟩ := of h'
  rw [C17_roundtrip.2.2.2.2.2.2] at h1 h1'
  cases h1
  cases h1'
  rw [e]

/-- C46. Success: with evaluations in index order, of which at least `t` verify, the verifying ones
being correct (value `f(i)·H` for the polynomial behind the keys; other entries arbitrary), `combine`
writes `f(0)·H` with its hash. -/
theorem C46_succeeds (E : BnPairing) (keccak : Keccak) (h2c : List Byte → G1) (cfg : DkgConfig)
    (ef : List PartialEvalSerde) (gf : Point2Serde) (vf : List PointSerde) (input : List Byte)
    (evals : List PartialEval) (vks : List G1) (F : List Fr)
    (he : ef.mapM PartialEvalSerde.read = .ok evals)
    (hg : gf.toG2 = .ok (smul2 (Spec.poly F 0) g2))
    (hv : vf.mapM PointSerde.toG1 = .ok vks) (hl : vks.length = cfg.numberOfMembers)
    (ht : 0 < cfg.threshold) (hn : cfg.numberOfMembers < 2 ^ 64) (hF : F.length = cfg.threshold)
    (hidx : Spec.ValidIndices cfg.numberOfMembers (evals.map (·.index)))
    (hgood : cfg.threshold ≤ (Spec.verifying keccak h2c cfg input vks evals).length)
    (hval : ∀ e ∈ evals, Spec.Verifies keccak h2c cfg input vks e →
      e.value = Spec.poly F (e.index : Fr) • h2c input) :
    ∃ p, Client.combine E keccak h2c cfg ef gf vf input false = .ok (.of p) ∧
      p.proof = Spec.poly F 0 • h2c input ∧
      p.value = Word.bytes (keccak
        (beBytes 32 (coords p.proof).1.val ++ beBytes 32 (coords p.proof).2.val)) := by
  obtain ⟨a0, rest, rfl⟩ : ∃ a0 rest, F = a0 :: rest := by
    cases F with
    | nil => rw [← hF] at ht; exact absurd ht (lt_irrefl _)
    | cons a l => exact ⟨a, l, rfl⟩
  have hsub : ((Spec.verifying keccak h2c cfg input vks evals).take cfg.threshold).Sublist evals :=
    (List.take_sublist _ _).trans List.filter_sublist
  obtain ⟨p, h1, h2, h3⟩ := C03_recombination keccak cfg ht hn a0 rest hF (h2c input)
    ((Spec.verifying keccak h2c cfg input vks evals).take cfg.threshold)
    (by rw [List.length_take]; omega)
    (by
      have hs := hsub.map (·.index)
      exact ⟨hidx.1.sublist hs, fun i hi => hidx.2 i (hs.subset hi)⟩)
    (by
      intro e hm
      have hm' := List.mem_of_mem_take hm
      have hm2 := Client.mem_verifying.1 hm'
      exact hval e hm2.1 hm2.2)
  have hp0 : Spec.poly (a0 :: rest) 0 = a0 := poly_zero_eval a0 rest
  rw [hp0] at hg
  rw [hp0]
  refine ⟨p, ?_, h2, by rw [h2]; exact h3⟩
  refine ((C46_combine_spec E keccak h2c cfg ef gf vf input evals _ vks he hg hv hl).1 _).2
    ⟨fun e he => hidx.2 _ (List.mem_map_of_mem he), hgood, p, h1, ?_, rfl⟩
  exact (C07_pseudorandom_verify_iff E keccak h2c p input a0).1.2 ⟨h2, by rw [h2]; exact h3⟩

/-- C46. If the first `t` verifying evaluations of the file are not in strictly increasing index order
(in particular if one is repeated), the command fails with the order error. -/
theorem C46_unordered_rejected (E : BnPairing) (keccak : Keccak) (h2c : List Byte → G1)
    (cfg : DkgConfig) (ef : List PartialEvalSerde) (gf : Point2Serde) (vf : List PointSerde)
    (input : List Byte) (evals : List PartialEval) (gpk : G2) (vks : List G1)
    (he : ef.mapM PartialEvalSerde.read = .ok evals) (hg : gf.toG2 = .ok gpk)
    (hv : vf.mapM PointSerde.toG1 = .ok vks) (hl : vks.length = cfg.numberOfMembers)
    (ht : 0 < cfg.threshold)
    (hr : ∀ e ∈ evals, 1 ≤ e.index ∧ e.index ≤ cfg.numberOfMembers)
    (hgood : cfg.threshold ≤ (Spec.verifying keccak h2c cfg input vks evals).length)
    (hbad : ¬ (((Spec.verifying keccak h2c cfg input vks evals).take cfg.threshold).map
      (·.index)).Pairwise (· < ·)) :
    ∃ pos, Client.combine E keccak h2c cfg ef gf vf input false =
      .error (.lib (.err (.InvalidOrder pos))) := by
  let sel := (Spec.verifying keccak h2c cfg input vks evals).take cfg.threshold
  have hsub : sel.Sublist evals := (List.take_sublist _ _).trans List.filter_sublist
  have hlen : sel.length = cfg.threshold := by simp only [sel, List.length_take]; omega
  obtain ⟨c1, c2, _, c4, c5⟩ := C04_index_checks keccak cfg ht sel
  have hne : ∃ pos, combinePartialEvaluations keccak cfg sel = .error (.err (.InvalidOrder pos)) := by
    cases hc : combinePartialEvaluations keccak cfg sel with
    | ok p => exact absurd (c2.1 ⟨p, hc⟩).2.1 hbad
    | error f =>
      cases f with
      | panic => exact absurd hlen (c1.1 hc)
      | err e =>
        rcases c5 e hc with ⟨p, rfl⟩ | ⟨a, rfl⟩
        · exact ⟨p, rfl⟩
        · obtain ⟨_, p, _, _, h4, h5⟩ := (c4 a).1 hc
          exfalso
          rw [List.getElem?_map] at h4
          cases hs : sel[p]? with
          | none => rw [hs] at h4; cases h4
          | some x =>
            rw [hs] at h4
            cases h4
            exact h5 (hr x (hsub.subset (List.mem_of_getElem? hs)))
  obtain ⟨pos, hp⟩ := hne
  refine ⟨pos, ?_⟩
  rw [Client.combine_eq E keccak h2c cfg ef gf vf input false evals gpk
    (.ok (Spec.verifying keccak h2c cfg input vks evals)) he hg
    (by
      rw [if_neg (by decide), hv]
      exact Client.verifyLoop_ok keccak h2c cfg input vks hl evals hr)]
  change (if (Spec.verifying keccak h2c cfg input vks evals).length < cfg.threshold then _ else
    (do
      let pseudo ← Client.lift (combinePartialEvaluations keccak cfg sel)
      Client.lift (pseudo.verify E keccak h2c input gpk)
      return PseudoRandomSerde.of pseudo)) = _
  rw [if_neg (by omega), hp]
  rfl

/-! ### Fed from the contract -/

open Zkdvrf in
private theorem stored_read (env : Env) {s : State} (hr : Reachable env s) (k i : ℕ)
    (hsub : Submitted s k i) :
    ∃ v V : G1, decodeG1 (s.roundToEval k i).value = some v ∧
      s.vkList[i]? = some (encodeG1 V) ∧
      (∀ cfg : DkgConfig, cfg.numberOfMembers = s.memberCount →
        (PartialEval.mk (i + 1) v ⟨((s.roundToEval k i).z.toNat : Fr),
            ((s.roundToEval k i).c.toNat : Fr)⟩).verify env.keccak (evalHash env.keccak) cfg
              (s.roundInput k) V = .ok ()) ∧
      (Client.evalRecord (s.roundToEval k i)).read = if (s.roundToEval k i).z.toNat < r then
        .ok ⟨i + 1, v, ⟨((s.roundToEval k i).z.toNat : Fr), ((s.roundToEval k i).c.toNat : Fr)⟩⟩
        else .error .panic := by
  obtain ⟨⟨_, hk⟩, h2, ⟨a, ha, hai⟩, vk, h4, h5, v, V, h6, h7, h8⟩ :=
    (C35_evaluations env hr ⟨s.threshold, s.memberCount⟩ rfl k i).1 hsub
  have hreg := regInv hr
  have hlt := (hreg.reg_idx a ha).1
  have hin : (s.roundInput k).length < 2 ^ 64 := input_ok hr k
  have hn1 : i + 1 ≤ s.memberCount := by
    have := hreg.reg_card
    have := hreg.idx_le
    have hi : indexOf s a < s.registeredCount := hlt
    omega
  obtain ⟨v', V', e1, e2, hc, _⟩ := (C21_verifyPartialEval_iff env.keccak (s.roundInput k) hin
    (s.roundToEval k i).value vk ⟨(s.roundToEval k i).z, (s.roundToEval k i).c⟩
    ⟨s.threshold, s.memberCount⟩ (i + 1) (by omega) hn1).1 h5
  refine ⟨v, V, h6, by rw [h4, decodeG1_eq_some.1 h7], ?_, ?_⟩
  · intro cfg hcfg
    have key := (C35_evaluations env hr cfg hcfg k i).1 hsub
    obtain ⟨_, _, _, vk', g1', _, w, W, g2', g3', g4'⟩ := key
    rw [h4] at g1'
    cases g1'
    rw [h6] at g2'
    rw [h7] at g3'
    cases g2'
    cases g3'
    exact g4'
  · have := Client.read_evalRecord (s.roundToEval k i) v h6 hc
    rw [h2] at this
    exact this

open Zkdvrf in
/-- C46 (with the contract). In phase `Ready`, when at least `threshold` evaluations of the open round
are stored, all with a reduced response `z` and (soundness of the evaluation proofs) with the secret
of their verification key: the file written by the admin service makes `combine` succeed, its output is
turned into a transaction that `submitRandom` accepts, and the round is complete (unless the hash is
the zero word). -/
theorem C46_service (env : Env) {s : State} (hr : Reachable env s)
    (hp : s.contractPhase = .Ready) (hopen : ¬ Completed s s.currentRoundNum)
    (ht : 0 < s.threshold) (hs : Spec.SnarkSound env s.threshold s.memberCount)
    (hq : s.threshold ≤ s.roundSubmissionCount s.currentRoundNum)
    (hz : ∀ i, Submitted s s.currentRoundNum i →
      (s.roundToEval s.currentRoundNum i).z.toNat < r)
    (hdl : ∀ i, Submitted s s.currentRoundNum i → ∀ v V,
      decodeG1 (s.roundToEval s.currentRoundNum i).value = some v →
      s.vkList[i]? = some (encodeG1 V) →
      Spec.SameLog (evalHash env.keccak (s.roundInput s.currentRoundNum)) V v)
    (gf : Point2Serde) (gpk : G2) (hg : gf.toG2 = .ok gpk) (hgw : encodeG2 gpk = s.gpkVal)
    (vf : List PointSerde) (vks : List G1) (hv : vf.mapM PointSerde.toG1 = .ok vks)
    (hvw : vks.map encodeG1 = s.vkList) :
    ∃ out, Client.combine env.E env.keccak (evalHash env.keccak) ⟨s.threshold, s.memberCount⟩
        (Client.evalsFile s.memberCount (s.roundToEval s.currentRoundNum)) gf vf (s.roundInput s.currentRoundNum) false = .ok out ∧
      ∃ rnd, Client.submission out = some rnd ∧
      ∃ s', exec env s ⟨s.owner, 0⟩ (.submitRandom rnd) = some s' ∧
        s'.roundToRandom s.currentRoundNum = rnd ∧
        (rnd.value ≠ 0 → Completed s' s.currentRoundNum) := by
  obtain ⟨F, hF, hgpk, hvk⟩ := group_poly hr hp hs
  have hreg := regInv hr
  have hb := hreg.bound
  generalize hk : s.currentRoundNum = k at *
  have hgpk' : gpk = smul2 (Spec.poly F 0) g2 := encodeG2_inj (hgw.trans hgpk)
  subst hgpk'
  have hl : vks.length = s.memberCount := by
    have := congrArg List.length hvw
    rw [hvk, List.length_map, List.length_map, List.length_range] at this
    exact this
  -- the stored evaluations
  let L := (List.range s.memberCount).filter (fun i => decide ((s.roundToEval k i).indexPlus ≠ 0))
  have hL : ∀ i, i ∈ L ↔ i < s.memberCount ∧ Submitted s k i := by
    intro i
    simp only [L, List.mem_filter, List.mem_range, decide_eq_true_eq]
    exact Iff.rfl
  have hfile : Client.evalsFile s.memberCount (s.roundToEval k) = L.map (fun i => Client.evalRecord (s.roundToEval k i)) := by
    unfold Client.evalsFile
    rw [List.filter_map, List.map_map]
    rfl
  have hlenL : s.threshold ≤ L.length := by
    have h2 := (evalInv hr).count k
    have h3 : ((Finset.range s.memberCount).filter
      (fun i => (s.roundToEval k i).indexPlus ≠ 0)).card = L.length := rfl
    omega
  choose! v V hd hV hver hread using fun i (hi : Submitted s k i) => stored_read env hr k i hi
  let pe : ℕ → PartialEval := fun i => ⟨i + 1, v i, ⟨((s.roundToEval k i).z.toNat : Fr),
    ((s.roundToEval k i).c.toNat : Fr)⟩⟩
  have he : (Client.evalsFile s.memberCount (s.roundToEval k)).mapM PartialEvalSerde.read = .ok (L.map pe) := by
    rw [hfile]
    refine Client.mapM_map_ok _ _ _ _ (fun i hi => ?_)
    have hi' := ((hL i).1 hi).2
    rw [hread i hi', if_pos (hz i hi')]
  have hvi : ∀ i ∈ L, vks[i]? = some (V i) := by
    intro i hi
    have h1 := hV i ((hL i).1 hi).2
    rw [← hvw, List.getElem?_map] at h1
    cases hx : vks[i]? with
    | none => rw [hx] at h1; cases h1
    | some P =>
      rw [hx, Option.map_some, Option.some.injEq] at h1
      rw [encodeG1_inj h1]
  have hVi : ∀ i ∈ L, V i = Spec.poly F ((i + 1 : ℕ) : Fr) • g1 := by
    intro i hi
    have h1 := hV i ((hL i).1 hi).2
    rw [hvk, List.getElem?_map, List.getElem?_range ((hL i).1 hi).1, Option.map_some,
      Option.some.injEq] at h1
    exact (encodeG1_inj h1).symm
  have hall : ∀ e ∈ L.map pe, Spec.Verifies env.keccak (evalHash env.keccak)
      ⟨s.threshold, s.memberCount⟩ (s.roundInput k) vks e := by
    intro e hm
    obtain ⟨i, hi, rfl⟩ := List.mem_map.1 hm
    exact ⟨V i, hvi i hi, hver i ((hL i).1 hi).2 _ rfl⟩
  obtain ⟨p, h1, h2, h3⟩ := C46_succeeds env.E env.keccak (evalHash env.keccak)
    ⟨s.threshold, s.memberCount⟩ (Client.evalsFile s.memberCount (s.roundToEval k)) gf vf (s.roundInput k) (L.map pe) vks F he hg
    hv hl ht (by change s.memberCount < 2 ^ 64; omega) hF
    (by
      rw [List.map_map]
      constructor
      · rw [List.pairwise_map]
        refine List.Pairwise.imp ?_ ((List.pairwise_lt_range).sublist List.filter_sublist)
        intro a b hab
        exact Nat.succ_lt_succ hab
      · intro j hj
        obtain ⟨i, hi, rfl⟩ := List.mem_map.1 hj
        have := ((hL i).1 hi).1
        exact ⟨Nat.succ_le_succ (Nat.zero_le _), this⟩)
    (by rw [Client.verifying_all hall, List.length_map]; exact hlenL)
    (by
      intro e hm _
      obtain ⟨i, hi, rfl⟩ := List.mem_map.1 hm
      obtain ⟨sk, a1, a2⟩ := hdl i ((hL i).1 hi).2 (v i) (V i) (hd i ((hL i).1 hi).2)
        (hV i ((hL i).1 hi).2)
      have : sk = Spec.poly F ((i + 1 : ℕ) : Fr) := smul_g1_inj (a1.symm.trans (hVi i hi))
      change v i = _
      rw [a2, this])
  have hbe : ∀ x : Fq, beBytes 32 x.val = Word.bytes (wordOf x) := fun x => (wordBytes_wordOf x).symm
  have hval : p.value = Word.bytes (env.keccak
      (Word.bytes (encodeG1 p.proof).x ++ Word.bytes (encodeG1 p.proof).y)) := by
    rw [h3, hbe, hbe]
    rfl
  have hver : PseudoRandSol.verifyPseudoRand env.E env.keccak (s.roundInput k)
      (encodeG1 p.proof) s.gpkVal = some true := by
    rw [hgpk]
    exact (C22_unique env.E env.keccak _ (input_ok hr _) _ _).2 (by rw [h2])
  have hex : exec env s ⟨s.owner, 0⟩ (.submitRandom ⟨encodeG1 p.proof, env.keccak
      (Word.bytes (encodeG1 p.proof).x ++ Word.bytes (encodeG1 p.proof).y)⟩) = some _ :=
    submitRandom_some.2 ⟨rfl, rfl, by rw [hk]; exact not_not.1 hopen, by rw [hk]; exact hver, rfl, rfl⟩
  refine ⟨_, h1, _, Client.submission_of p _ hval, _, hex, ?_, ?_⟩
  · simp only [hk, Function.update_self]
  · intro hw
    unfold Completed
    simp only [hk, Function.update_self]
    exact hw

open Zkdvrf in
/-- When a stored evaluation has a non-canonical response, `combine` on the file of the admin service
panics. -/
theorem combine_panics (env : Env) {s : State} (hr : Reachable env s) (k i : ℕ) (hsub : Submitted s k i)
    (hz : r ≤ (s.roundToEval k i).z.toNat) (cfg : DkgConfig) (gf : Point2Serde) (vf : List PointSerde)
    (input : List Byte) (skip : Bool) :
    Client.combine env.E env.keccak (evalHash env.keccak) cfg
      (Client.evalsFile s.memberCount (s.roundToEval k)) gf vf input skip = .error (.lib .panic) := by
  have hread : (Client.evalsFile s.memberCount (s.roundToEval k)).mapM PartialEvalSerde.read =
      .error .panic := by
    refine Client.mapM_panic' _ _ ?_ ⟨Client.evalRecord (s.roundToEval k i), ?_, ?_⟩
    · intro rec hrec
      unfold Client.evalsFile at hrec
      obtain ⟨e, he, rfl⟩ := List.mem_map.1 hrec
      obtain ⟨h1, h2⟩ := List.mem_filter.1 he
      obtain ⟨i, hi, rfl⟩ := List.mem_map.1 h1
      obtain ⟨v, V, _, _, _, h6⟩ := stored_read env hr k i
        (show (s.roundToEval k i).indexPlus ≠ 0 from of_decide_eq_true h2)
      rw [h6]
      by_cases hz : (s.roundToEval k i).z.toNat < r
      · rw [if_pos hz]; exact Or.inr ⟨_, rfl⟩
      · rw [if_neg hz]; exact Or.inl rfl
    · unfold Client.evalsFile
      refine List.mem_map_of_mem (List.mem_filter.2 ⟨List.mem_map_of_mem (List.mem_range.2 ?_), ?_⟩)
      · obtain ⟨_, _, ⟨b, hb1, hb2⟩, _⟩ :=
          (C35_evaluations env hr ⟨1, s.memberCount⟩ rfl k i).1 hsub
        have hreg := regInv hr
        have := hreg.reg_card
        have := hreg.idx_le
        have hj : indexOf s b < s.registeredCount := (hreg.reg_idx b hb1).1
        omega
      · exact decide_eq_true hsub
    · obtain ⟨v, V, _, _, _, h6⟩ := stored_read env hr k i hsub
      rw [h6, if_neg (Nat.not_lt.2 hz)]
  unfold Client.combine
  rw [hread]
  rfl

open Zkdvrf in
/-- C46, limits. A node can make the command unusable for a round: instead of its honest evaluation it
submits the same with response `z + r`.  The contract accepts it (the precompile reduces scalars) and
keeps it for ever; from then on `combine` on the file written by the admin service panics while reading
it, with or without `--skip`, however many good evaluations are stored. -/
theorem C46_violation_noncanonical_z (env : Env) {s : State} (hr : Reachable env s)
    (hopen : ¬ Completed s s.currentRoundNum) (a : Address)
    (ha0 : a ≠ 0) (ha : Registered s a) (hl : s.lastSubmittedRound a < s.currentRoundNum)
    (sk nonce : Fr) (hvk : s.vkList[indexOf s a]? = some (encodeG1 (sk • g1))) :
    let pe := DkgShareKey.evaluate env.keccak (evalHash env.keccak) ⟨indexOf s a + 1, sk, sk • g1⟩
      (s.roundInput s.currentRoundNum) nonce
    ∃ s', exec env s ⟨a, 0⟩ (.submitPartialEval
        { evalWords pe with z := BitVec.ofNat 256 (pe.proof.z.val + r) }) = some s' ∧
      ∀ s'', Later env s' s'' → ∀ (cfg : DkgConfig) gf vf input skip,
        Client.combine env.E env.keccak (evalHash env.keccak) cfg
          (Client.evalsFile s''.memberCount (s''.roundToEval s.currentRoundNum)) gf vf input skip = .error (.lib .panic) := by
  intro pe
  have hreg := regInv hr
  have hidx := hreg.reg_idx a ha
  have hcard := hreg.reg_card
  have hle := hreg.idx_le
  have hb := hreg.bound
  have hcount : s.roundSubmissionCount s.currentRoundNum ≤ s.memberCount := by
    rw [(evalInv hr).count]
    exact (Finset.card_filter_le _ _).trans (by simp)
  have hi : indexOf s a < s.registeredCount := hidx.1
  have hzn : (BitVec.ofNat 256 (pe.proof.z.val + r) : Word).toNat = pe.proof.z.val + r := by
    rw [BitVec.toNat_ofNat]
    refine Nat.mod_eq_of_lt ?_
    have h1 : pe.proof.z.val < r := ZMod.val_lt _
    have h2 : r + r < 2 ^ 256 := by decide +kernel
    omega
  have hzc : (((BitVec.ofNat 256 (pe.proof.z.val + r) : Word).toNat : ℕ) : Fr) = pe.proof.z := by
    rw [hzn, Nat.cast_add, ZMod.natCast_zmod_val]
    have : ((r : ℕ) : Fr) = 0 := ZMod.natCast_self r
    rw [this, add_zero]
  have hacc : PseudoRandSol.verifyPartialEval env.keccak (s.roundInput s.currentRoundNum)
      (encodeG1 pe.value) ⟨BitVec.ofNat 256 (pe.proof.z.val + r), wordOf pe.proof.c⟩
      (encodeG1 (sk • g1)) = some true := by
    refine (C21_verifyPartialEval_iff env.keccak _ (input_ok hr _) (encodeG1 pe.value)
      (encodeG1 (sk • g1)) ⟨BitVec.ofNat 256 (pe.proof.z.val + r), wordOf pe.proof.c⟩ ⟨1, 1⟩ 1 le_rfl
      le_rfl).2 ⟨pe.value, sk • g1, decode_encode _, decode_encode _, wordOf_lt_r _, ?_⟩
    dsimp only
    rw [hzc, cast_wordOf_r]
    exact evaluate_verifies env.keccak (evalHash env.keccak) ⟨1, 1⟩ ⟨1, sk, sk • g1⟩ rfl le_rfl le_rfl
      (s.roundInput s.currentRoundNum) nonce
  have he : exec env s ⟨a, 0⟩ (.submitPartialEval
      { evalWords pe with z := BitVec.ofNat 256 (pe.proof.z.val + r) }) = some _ :=
    submitPartialEval_some.2 ⟨rfl, hidx.2.2.1.symm, not_not.1 hopen, hl,
      by change indexOf s a + 1 < _; omega, rfl, ⟨_, hvk, hacc⟩, by omega, rfl⟩
  refine ⟨_, he, ?_⟩
  have hr' := hr.call (m := ⟨a, 0⟩) ha0 he
  obtain ⟨s', hs'⟩ : ∃ s', exec env s ⟨a, 0⟩ (.submitPartialEval
      { evalWords pe with z := BitVec.ofNat 256 (pe.proof.z.val + r) }) = some s' := ⟨_, he⟩
  have hst : s'.roundToEval s.currentRoundNum (indexOf s a) =
      { evalWords pe with z := BitVec.ofNat 256 (pe.proof.z.val + r) } := by
    rw [he] at hs'
    cases hs'
    simp only [Function.update_self]
    exact Function.update_self _ _ _
  rw [he] at hs'
  rw [Option.some.inj hs'] at hr' ⊢
  clear hs' he
  intro s'' hlat cfg gf vf input skip
  have hsub : Submitted s' s.currentRoundNum (indexOf s a) := by
    unfold Submitted
    rw [hst]
    exact Nat.succ_ne_zero _
  have hr'' := hlat.reachable hr'
  have hev := (hlat.keeps hr').eval _ _ hsub
  have hsub'' : Submitted s'' s.currentRoundNum (indexOf s a) := by
    unfold Submitted at hsub ⊢
    rw [hev]; exact hsub
  refine combine_panics env hr'' s.currentRoundNum (indexOf s a) hsub'' ?_ cfg gf vf input skip
  rw [hev, hst]
  dsimp only
  rw [hzn]
  omega

open Zkdvrf in
/-- A reachable state with one honest evaluation stored, meeting the hypotheses of `C46_service`
together with the key files of the client; and the state before it meets those of
`C46_violation_noncanonical_z`. -/
example : ∃ (s : State) (gf : Point2Serde) (gpk : G2) (vf : List PointSerde) (vks : List G1),
    Reachable (toyEnv 1 2) s ∧ s.contractPhase = .Ready ∧
    ¬ Completed s s.currentRoundNum ∧ 0 < s.threshold ∧
    Spec.SnarkSound (toyEnv 1 2) s.threshold s.memberCount ∧
    s.threshold ≤ s.roundSubmissionCount s.currentRoundNum ∧
    (∀ i, Submitted s s.currentRoundNum i → (s.roundToEval s.currentRoundNum i).z.toNat < r) ∧
    (∀ i, Submitted s s.currentRoundNum i → ∀ v V,
      decodeG1 (s.roundToEval s.currentRoundNum i).value = some v →
      s.vkList[i]? = some (encodeG1 V) →
      Spec.SameLog (evalHash (toyEnv 1 2).keccak (s.roundInput s.currentRoundNum)) V v) ∧
    Point2Serde.toG2 gf = .ok gpk ∧ encodeG2 gpk = s.gpkVal ∧
    vf.mapM PointSerde.toG1 = .ok vks ∧ vks.map encodeG1 = s.vkList := by
  obtain ⟨s, h1, h2, h3, h4, h5, h6, h7, h8⟩ := toy_open
  have hs : Spec.SnarkSound (toyEnv 1 2) s.threshold s.memberCount := by
    rw [h3, h4]; exact toy_sound 1 2
  obtain ⟨F, _, hgpk, hvk⟩ := group_poly h1 h2 hs
  have hreg := regInv h1
  have hrc : s.registeredCount = 2 := by
    rw [← h3]; exact hreg.started (by rw [h2]; exact Phase.noConfusion)
  obtain ⟨hst, hidx⟩ := hreg.reg_node 0 (by omega)
  have hself := (hreg.reg_idx _ hst).2.2.1
  have h0 : s.nodes 0 ≠ 0 := by
    intro h0
    rw [h0] at hst hself
    rw [hreg.empty 0 hself] at hst
    cases hst
  have hv0 : s.vkList[0]? = some (encodeG1 (Spec.poly F ((0 + 1 : ℕ) : Fr) • g1)) := by
    rw [hvk, h3]; rfl
  have hnone : ∀ i, ¬ Submitted s 1 i := by
    intro i hi
    have := ((evalInv h1).stored 1 i hi).2.2.2.2.1
    rw [h8] at this
    omega
  obtain ⟨s1, e1, e2, e3⟩ := C41_node_can_submit (toyEnv 1 2) h1 h2 (by rw [h6]; exact h7)
    (s.nodes 0) h0 hst (by rw [h8, h6]; norm_num) (Spec.poly F ((0 + 1 : ℕ) : Fr)) 5
    (by rw [indexOf, hidx]; exact hv0)
  have r1 := h1.call (m := ⟨s.nodes 0, 0⟩) h0 e1
  have hk := keeps_exec h1 (m := ⟨s.nodes 0, 0⟩) h0 e1
  obtain ⟨_, _, _, _, _, _, _, _, hs1⟩ := submitPartialEval_some.1 e1
  have c1 : s1.currentRoundNum = 1 := by rw [← hs1]; exact h6
  have c2 : s1.contractPhase = .Ready := by rw [← hs1]; exact h2
  have c3 : s1.threshold = 1 := hk.threshold.trans h4
  have c4 : s1.memberCount = 2 := hk.memberCount.trans h3
  have c6 : s1.vkList = s.vkList := (hk.keys h2).1
  have c7 : ¬ Completed s1 1 := by unfold Completed at h7 ⊢; rw [← hs1]; exact h7
  have c9 : s1.gpkVal = s.gpkVal := (hk.keys h2).2
  have c10 : s1.roundInput 1 = s.roundInput 1 := by rw [← hs1]
  have c11 : ∀ i, Submitted s1 1 i → i = 0 := by
    intro i hi
    by_contra hne
    apply hnone i
    unfold Submitted at hi ⊢
    rw [← hs1] at hi
    simp only [h6, Function.update_self] at hi
    rwa [Function.update_of_ne (by rw [hidx]; exact hne)] at hi
  clear hs1
  rw [h6] at e2 e3
  rw [indexOf, hidx] at e2
  refine ⟨s1, Point2Serde.ofG2 (smul2 (Spec.poly F 0) g2), _,
    ((List.range 2).map (fun j => Spec.poly F ((j + 1 : ℕ) : Fr) • g1)).map PointSerde.ofG1,
    (List.range 2).map (fun j => Spec.poly F ((j + 1 : ℕ) : Fr) • g1), r1, c2,
    by rw [c1]; exact c7, by rw [c3]; norm_num, by rw [c3, c4]; exact toy_sound 1 2,
    by rw [c1, c3, e3]; omega, ?_, ?_, C17_points.2.2.2.2.2 _, by rw [c9]; exact hgpk.symm, ?_, ?_⟩
  · intro i hi
    rw [c1] at hi ⊢
    rw [c11 i hi, e2]
    exact wordOf_lt_r _
  · intro i hi v V hv hV
    rw [c1] at hi hv ⊢
    have := c11 i hi
    subst this
    rw [e2] at hv
    rw [c6, hv0, Option.some.injEq] at hV
    have e1 := encodeG1_inj hV
    have e2 := encodeG1_inj (decodeG1_eq_some.1 hv)
    refine ⟨Spec.poly F ((0 + 1 : ℕ) : Fr), e1.symm, ?_⟩
    rw [c10, ← e2]
    rfl
  · exact (Client.mapM_map_ok PointSerde.toG1 PointSerde.ofG1 id _
      (fun P _ => C17_points.2.2.2.1 P)).trans (by rw [List.map_id])
  · rw [c6, hvk, h3, List.map_map]
    rfl

end Verif.Props
