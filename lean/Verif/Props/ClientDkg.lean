import Verif.Lemmas.ClientDkgChain
import Verif.Props.Client
import Verif.Props.Instance

/-! Properties C52-C54: the DKG and evaluation commands of the client against the contract. -/

namespace Verif.Props
open Verif Zkdvrf

theorem lift_bind {α β : Type} (a : α) (f : α → Except Client.CliFail β) :
    (Client.lift (.ok a) >>= f) = f a := rfl

theorem ok_bind' {α β : Type} (a : α) (f : α → Except Client.CliFail β) :
    ((Except.ok a : Except Client.CliFail α) >>= f) = f a := rfl

theorem view_derive {env : Env} {s : State} {pks : List Gk} {ds : List (List Fr × ℕ)} {F : List Fr}
    (hv : Client.View env s pks ds F) :
    Client.derive ⟨s.threshold, s.memberCount⟩ (Client.instancesFile s.ppList) none =
      .ok ⟨Point2Serde.ofG2 (smul2 (Spec.poly F 0) g2), ((List.range s.memberCount).map
        (fun j => Spec.poly F ((j + 1 : ℕ) : Fr) • g1)).map PointSerde.ofG1, none⟩ := by
  obtain ⟨inss, e1, e2⟩ := Client.read_instances hv.len hv.dealt
  unfold Client.derive Client.instancesFile
  rw [e1, lift_bind, e2, lift_bind, Client.global_dealt hv.ne hv.sum, lift_bind]
  rfl

theorem view_share {env : Env} {s : State} {pks : List Gk} {ds : List (List Fr × ℕ)} {F : List Fr}
    (hv : Client.View env s pks ds F) {i : ℕ} (hi : i < s.memberCount) {sk : Fq}
    (hk : s.pkList[i]? = some (keyWords (sk • gk))) :
    Client.derive ⟨s.threshold, s.memberCount⟩ (Client.instancesFile s.ppList)
        (some (i + 1, Client.keygen sk)) =
      .ok ⟨Point2Serde.ofG2 (smul2 (Spec.poly F 0) g2), ((List.range s.memberCount).map
        (fun j => Spec.poly F ((j + 1 : ℕ) : Fr) • g1)).map PointSerde.ofG1,
        some (ShareKeySerde.of ⟨i + 1, Spec.poly F ((i + 1 : ℕ) : Fr),
          Spec.poly F ((i + 1 : ℕ) : Fr) • g1⟩)⟩ := by
  obtain ⟨inss, e1, e2⟩ := Client.read_instances hv.len hv.dealt
  have hpk : pks[i]? = some (sk • gk) := by
    rw [← hv.keys, List.getElem?_map] at hk
    cases hx : pks[i]? with
    | none => rw [hx] at hk; cases hk
    | some P =>
      rw [hx, Option.map_some, Option.some.injEq] at hk
      rw [Client.keyWords_inj hk]
  have hci : Client.checkIndex ⟨s.threshold, s.memberCount⟩ (i + 1) = .ok () := by
    unfold Client.checkIndex
    rw [if_neg]
    simp only
    omega
  have hrd : (Client.keygen sk).read = .ok (MemberKey.random sk) := C17_roundtrip.1 _ rfl
  unfold Client.derive Client.instancesFile
  rw [e1, lift_bind, e2, lift_bind, Client.global_dealt hv.ne hv.sum, lift_bind]
  dsimp only
  rw [hci, ok_bind', hrd, lift_bind, Client.share_dealt hv.sum hi hpk, lift_bind]
  have hver : DkgShareKey.verify ⟨i + 1, Spec.poly F ((i + 1 : ℕ) : Fr),
      Spec.poly F ((i + 1 : ℕ) : Fr) • g1⟩ ⟨s.threshold, s.memberCount⟩
      ((List.range s.memberCount).map (fun j => Spec.poly F ((j + 1 : ℕ) : Fr) • g1)) = .ok () := by
    unfold DkgShareKey.verify
    rw [if_neg (by simp only; omega)]
    simp only [Nat.add_sub_cancel, List.getElem?_map, List.getElem?_range hi, Option.map_some,
      ne_eq, not_true_eq_false, if_false]
  rw [hver]
  rfl

theorem gpkSubmission_of (P : G2) : Client.gpkSubmission (Point2Serde.ofG2 P) = some (encodeG2 P) := by
  unfold Client.gpkSubmission Point2Serde.ofG2
  simp only [Client.wordOfHex_Fq]
  rfl

theorem read_vks (l : List G1) : (l.map PointSerde.ofG1).mapM PointSerde.toG1 = .ok l :=
  (Client.mapM_map_ok PointSerde.toG1 PointSerde.ofG1 id l
    (fun P _ => C17_points.2.2.2.1 P)).trans (by rw [List.map_id])

/-- C52. Once the contract has all the parameters (phases `NidkgComplete` and `Ready`), with a sound
proof system, there is one group polynomial `F` with `threshold` coefficients such that
* `derive` on the file written by the services succeeds, and its files hold the group key `F(0) g2`
  and the verification keys `F(1) g1, ..., F(n) g1`;
* for every registered node, `derive` with the index given by the contract and the member file of the
  key under which it registered succeeds with the same key files and a share file that can be read and
  holds `F(index)`. -/
theorem C52_derive (env : Env) {s : State} (hr : Reachable env s)
    (hp : s.contractPhase = .NidkgComplete ∨ s.contractPhase = .Ready)
    (hs : Spec.SnarkSound env s.threshold s.memberCount) :
    ∃ (F : List Fr) (gf : Point2Serde) (vf : List PointSerde), F.length = s.threshold ∧
      Client.derive ⟨s.threshold, s.memberCount⟩ (Client.instancesFile s.ppList) none = .ok ⟨gf, vf, none⟩ ∧
      gf.toG2 = .ok (smul2 (Spec.poly F 0) g2) ∧
      vf.mapM PointSerde.toG1 =
        .ok ((List.range' 1 s.memberCount).map (fun i : ℕ => Spec.poly F (i : Fr) • g1)) ∧
      ∀ a sk, Registered s a → s.pkList[indexOf s a]? = some (keyWords (sk • gk)) →
        ∃ i f, getIndexPlus s a = some i ∧
          Client.derive ⟨s.threshold, s.memberCount⟩ (Client.instancesFile s.ppList)
            (some (i, Client.keygen sk)) = .ok ⟨gf, vf, some f⟩ ∧
          f.read = .ok ⟨i, Spec.poly F (i : Fr), Spec.poly F (i : Fr) • g1⟩ := by
  obtain ⟨pks, ds, F, hv⟩ := Client.view hr hs hp
  have hreg := regInv hr
  have hb := hreg.bound
  refine ⟨F, _, _, hv.deg, view_derive hv, C17_points.2.2.2.2.2 _, ?_, ?_⟩
  · rw [read_vks, List.range'_eq_map_range, List.map_map]
    simp only [Function.comp_def, Nat.add_comm 1]
  · intro a sk ha hk
    have hi : indexOf s a < s.memberCount := by
      have h1 := (hreg.reg_idx a ha).1
      have h2 := hreg.started (by rcases hp with h | h <;> rw [h] <;> exact Phase.noConfusion)
      unfold indexOf
      omega
    refine ⟨indexOf s a + 1, _, ?_, view_share hv hi hk, C17_roundtrip.2.1 _ rfl⟩
    unfold getIndexPlus u32
    exact if_pos (by change indexOf s a + 1 < _; omega)

/-- C52. In phase `Ready` the key files written by `derive` hold exactly the keys stored by the
contract. -/
theorem C52_files_match_contract (env : Env) {s : State} (hr : Reachable env s)
    (hp : s.contractPhase = .Ready) (hs : Spec.SnarkSound env s.threshold s.memberCount) :
    ∃ gf vf vks, Client.derive ⟨s.threshold, s.memberCount⟩ (Client.instancesFile s.ppList) none =
        .ok ⟨gf, vf, none⟩ ∧
      Client.gpkSubmission gf = some s.gpkVal ∧
      vf.mapM PointSerde.toG1 = .ok vks ∧ vks.map encodeG1 = s.vkList := by
  obtain ⟨pks, ds, F, hv⟩ := Client.view hr hs (Or.inr hp)
  have hready := (dkgInv hr).ready hp
  obtain ⟨h1, h2⟩ := (hv.chain (createGpp_reduced hready) _ _).1 hready
  refine ⟨_, _, _, view_derive hv, ?_, read_vks _, ?_⟩
  · rw [gpkSubmission_of, ← h1]
  · have := congrArg Prod.snd h2
    rw [List.map_map]
    exact this.symm

private theorem pure_inv {α β : Type} {x : Res α} {g : α → β} {b : β}
    (h : (do let a ← x; pure (g a)) = Except.ok b) : ∃ a, b = g a := by
  cases x with
  | error e => cases h
  | ok a => exact ⟨a, (Except.ok.inj h).symm⟩

/-- C52. Whatever member file and index `derive` is given (a key other than the registered one, the
index of another member, manipulated instances): if it writes a share file, then its key files are the
same as without a member, and the share that is read back from the file is the secret of the
verification key at the given index. -/
theorem C52_share_sound (cfg : DkgConfig) (instances : List (List (List Char))) (index : ℕ)
    (member : MemberKeySerde) (out : Client.DeriveOut)
    (h : Client.derive cfg instances (some (index, member)) = .ok out) :
    Client.derive cfg instances none = .ok { out with share := none } ∧
    1 ≤ index ∧ index ≤ cfg.numberOfMembers ∧
    ∃ f x vks, out.share = some f ∧ f.read = .ok ⟨index, x, x • g1⟩ ∧
      out.vks.mapM PointSerde.toG1 = .ok vks ∧ vks[index - 1]? = some (x • g1) := by
  unfold Client.derive at h ⊢
  cases h1 : instances.mapM (fun l => l.mapM (readField r)) with
  | error e => rw [h1] at h; cases h
  | ok ins =>
    rw [h1, lift_bind] at h
    rw [lift_bind]
    cases h2 : ins.mapM (fun s => do let p ← fromInstance cfg s; return p.1) with
    | error e => rw [h2] at h; cases h
    | ok pps =>
      rw [h2, lift_bind] at h
      rw [lift_bind]
      cases h3 : dkgGlobalPublicParams pps with
      | error e => rw [h3] at h; cases h
      | ok gpp =>
        rw [h3, lift_bind] at h
        rw [lift_bind]
        dsimp only at h ⊢
        cases h4 : Client.checkIndex cfg index with
        | error e => rw [h4] at h; cases h
        | ok _ =>
          rw [h4, ok_bind'] at h
          cases h5 : member.read with
          | error e => rw [h5] at h; cases h
          | ok k =>
            rw [h5, lift_bind] at h
            cases h6 : k.dkgShareKey Poseidon.hash2 cfg index pps with
            | error e => rw [h6] at h; cases h
            | ok share =>
              rw [h6, lift_bind] at h
              cases h7 : share.verify cfg gpp.verifyKeys with
              | error e => rw [h7] at h; cases h
              | ok _ =>
                rw [h7, lift_bind] at h
                have ho := (Except.ok.inj h).symm
                have hsh : share = ⟨index, share.sk, share.sk • g1⟩ ∧ 1 ≤ index ∧
                    index ≤ cfg.numberOfMembers := by
                  unfold MemberKey.dkgShareKey at h6
                  split at h6
                  · cases h6
                  · next hr =>
                    rw [not_or, not_lt, not_lt] at hr
                    obtain ⟨x, hx⟩ := pure_inv h6
                    rw [hx]
                    exact ⟨rfl, hr⟩
                obtain ⟨hsh, hr⟩ := hsh
                refine ⟨by rw [ho]; rfl, hr.1, hr.2, ShareKeySerde.of share, share.sk, gpp.verifyKeys,
                  by rw [ho], ?_, by rw [ho]; exact read_vks _, ?_⟩
                · rw [hsh]
                  exact C17_roundtrip.2.1 _ rfl
                · unfold DkgShareKey.verify at h7
                  rw [hsh] at h7
                  dsimp only at h7
                  split at h7
                  · cases h7
                  · split at h7
                    · cases h7
                    · next vk hvk =>
                      split at h7
                      · cases h7
                      · next hne => rw [hvk, not_not.1 hne]

/-- C52, with `combine`: in phase `Ready`, when at least `threshold` evaluations of the open round are
stored, all with reduced responses and the secret of their verification key, the files written by
`derive` and by the admin service make `combine` succeed, and its output is accepted by `submitRandom`. -/
theorem C52_combine_with_derived_files (env : Env) {s : State} (hr : Reachable env s)
    (hp : s.contractPhase = .Ready) (hopen : ¬ Completed s s.currentRoundNum)
    (ht : 0 < s.threshold) (hs : Spec.SnarkSound env s.threshold s.memberCount)
    (hq : s.threshold ≤ s.roundSubmissionCount s.currentRoundNum)
    (hz : ∀ i, Submitted s s.currentRoundNum i →
      (s.roundToEval s.currentRoundNum i).z.toNat < r)
    (hdl : ∀ i, Submitted s s.currentRoundNum i → ∀ v V,
      decodeG1 (s.roundToEval s.currentRoundNum i).value = some v →
      s.vkList[i]? = some (encodeG1 V) →
      Spec.SameLog (evalHash env.keccak (s.roundInput s.currentRoundNum)) V v) :
    ∃ gf vf, Client.derive ⟨s.threshold, s.memberCount⟩ (Client.instancesFile s.ppList) none =
        .ok ⟨gf, vf, none⟩ ∧
      ∃ out, Client.combine env.E env.keccak (evalHash env.keccak) ⟨s.threshold, s.memberCount⟩
        (Client.evalsFile s.memberCount (s.roundToEval s.currentRoundNum)) gf vf (s.roundInput s.currentRoundNum) false = .ok out ∧
      ∃ rnd, Client.submission out = some rnd ∧
      ∃ s', exec env s ⟨s.owner, 0⟩ (.submitRandom rnd) = some s' ∧
        s'.roundToRandom s.currentRoundNum = rnd := by
  obtain ⟨F, gf, vf, _, h1, h2, h3, _⟩ := C52_derive env hr (Or.inr hp) hs
  obtain ⟨gf', vf', vks, h1', h4, h5, h6⟩ := C52_files_match_contract env hr hp hs
  rw [h1] at h1'
  cases h1'
  have hg : encodeG2 (smul2 (Spec.poly F 0) g2) = s.gpkVal := by
    obtain ⟨pks, ds, F', hv⟩ := Client.view hr hs (Or.inr hp)
    rw [view_derive hv] at h1
    cases h1
    rw [gpkSubmission_of, Option.some.injEq] at h4
    rw [C17_points.2.2.2.2.2] at h2
    rw [← Except.ok.inj h2]
    exact h4
  obtain ⟨out, e1, rnd, e2, s', e3, e4, _⟩ :=
    C46_service env hr hp hopen ht hs hq hz hdl gf _ h2 hg vf vks h5 h6
  exact ⟨gf, vf, h1, out, e1, rnd, e2, s', e3, e4⟩

/-- C53. In phase `NidkgComplete`, with a sound proof system, the key that the admin service sends
from the file written by `derive` is accepted by `computeVk` if and only if all the coordinates of the
submitted G1 points are reduced; then the contract is `Ready` with the keys of the files. -/
theorem C53_compute_vk (env : Env) {s : State} (hr : Reachable env s)
    (hp : s.contractPhase = .NidkgComplete) (hs : Spec.SnarkSound env s.threshold s.memberCount)
    (caller : Address) :
    ∃ gf vf gpk, Client.derive ⟨s.threshold, s.memberCount⟩ (Client.instancesFile s.ppList) none =
        .ok ⟨gf, vf, none⟩ ∧ Client.gpkSubmission gf = some gpk ∧
      ((∃ s', exec env s ⟨caller, 0⟩ (.computeVk gpk) = some s') ↔
        ∀ w ∈ s.ppList, Spec.Reduced s.memberCount w) ∧
      ∀ s', exec env s ⟨caller, 0⟩ (.computeVk gpk) = some s' → s'.contractPhase = .Ready ∧
        s'.gpkVal = gpk ∧ ∃ vks, vf.mapM PointSerde.toG1 = .ok vks ∧ vks.map encodeG1 = s'.vkList := by
  obtain ⟨pks, ds, F, hv⟩ := Client.view hr hs (Or.inl hp)
  have hvk : s.vkList = [] := ((dkgInv hr).pre (by rw [hp]; exact Phase.noConfusion)).1
  refine ⟨_, _, _, view_derive hv, gpkSubmission_of _, ⟨?_, ?_⟩, ?_⟩
  · rintro ⟨s', he⟩
    obtain ⟨_, _, out, h1, _⟩ := computeVk_some.1 he
    exact createGpp_reduced h1
  · intro hred
    exact ⟨_, computeVk_some.2 ⟨rfl, hp, _, (hv.chain hred _ _).2 ⟨rfl, rfl⟩, rfl⟩⟩
  · intro s' he
    obtain ⟨_, _, out, h1, rfl⟩ := computeVk_some.1 he
    obtain ⟨_, h3⟩ := (hv.chain (createGpp_reduced h1) _ _).1 h1
    refine ⟨rfl, ?_, _, read_vks _, ?_⟩
    · rw [h3]
    · simp only [hvk, h3, List.nil_append, List.map_map]
      rfl

/-! ### C54: the node's commands -/

/-- C54 (registration). The key that the node service reads from the file written by `keygen` is
accepted by `registerNode`, for a node that was added, has not registered and pays the deposit, if and
only if the drawn secret is not zero; it is then appended to the contract's keys. -/
theorem C54_register (env : Env) {s : State} (hr : Reachable env s)
    (hp : s.contractPhase = .Unregistered) (m : Msg) (ha : Added s m.sender)
    (hn : ¬ Registered s m.sender) (hd : s.minNodeDeposit ≤ m.value) (sk : Fq) :
    Client.registration (Client.keygen sk) = some (keyWords (sk • gk)) ∧
      ((∃ s', exec env s m (.registerNode (keyWords (sk • gk))) = some s') ↔ sk ≠ 0) ∧
      ∀ s', exec env s m (.registerNode (keyWords (sk • gk))) = some s' →
        Registered s' m.sender ∧ s'.pkList[indexOf s' m.sender]? = some (keyWords (sk • gk)) := by
  have hreg := regInv hr
  have hb := hreg.bound
  have hc := hreg.reg_card
  have hle := hreg.idx_le
  have hpk := hreg.pkIdx
  have hself := (hreg.addr_self _ ha)
  have hst : (s.addrToNode m.sender).status = false := by
    unfold Registered at hn
    cases h : (s.addrToNode m.sender).status with
    | false => rfl
    | true => exact absurd h hn
  refine ⟨?_, ⟨?_, ?_⟩, ?_⟩
  · unfold Client.registration Client.keygen MemberKeySerde.of PointSerde.ofGk
    simp only [Client.wordOfHex_Fr]
    rfl
  · rintro ⟨s', he⟩ rfl
    obtain ⟨_, _, _, _, h5, _⟩ := registerNode_some.1 he
    rw [zero_smul Fq gk] at h5
    exact absurd h5 (by decide +kernel)
  · intro h0
    have hne : sk • gk ≠ 0 := by
      intro h
      rcases smul_Gk_eq_zero h with h | h
      · exact h0 h
      · exact gk_ne_zero h
    exact ⟨_, registerNode_some.2 ⟨hp, hself.symm, hst, hd, key_on_curve hne, by omega, by omega, rfl⟩⟩
  · intro s' he
    obtain ⟨_, _, _, _, _, _, _, rfl⟩ := registerNode_some.1 he
    unfold Registered indexOf
    simp only [Function.update_self]
    refine ⟨trivial, ?_⟩
    rw [hpk, ← hreg.pkLen, List.getElem?_concat_length]

theorem toGk_words {k : GrumpkinSol.Point} {P : Gk} :
    (⟨Client.hexOfWord k.x, Client.hexOfWord k.y⟩ : PointSerde).toGk = .ok P ↔ k = keyWords P := by
  have e : ∀ (w : Word) (x : Fr), readField r (Client.hexOfWord w) = .ok x ↔ w = wordOf x := by
    intro w x
    rw [Client.readField_hexOfWord]
    constructor
    · intro h
      split at h
      · rename_i hw
        have hx := (Except.ok.inj h).symm
        apply BitVec.eq_of_toNat_eq
        rw [word_val, hx, ZMod.val_natCast_of_lt hw]
      · cases h
    · rintro rfl
      rw [word_val, if_pos (ZMod.val_lt x), ZMod.natCast_zmod_val]
  rw [C17_points.2.1, e, e]
  constructor
  · rintro ⟨h1, h2⟩
    cases k
    dsimp only at h1 h2
    rw [h1, h2]
    rfl
  · rintro rfl
    exact ⟨rfl, rfl⟩

/-- C54 (keys). The file of keys written by the services is read as the list of points whose
coordinates are the contract's keys; it cannot be read exactly when some key is not canonical. -/
theorem C54_keys_file (s : State) (pks : List Gk) :
    (Client.mpksFile s.pkList).mapM PointSerde.toGk = .ok pks ↔ s.pkList = pks.map keyWords := by
  unfold Client.mpksFile
  generalize s.pkList = l
  induction l generalizing pks with
  | nil =>
    constructor
    · intro h
      rw [← Except.ok.inj h]
      rfl
    · intro h
      cases pks with
      | nil => rfl
      | cons P pks => cases h
  | cons k l ih =>
    rw [List.map_cons, List.mapM_cons]
    constructor
    · intro h
      cases h1 : (⟨Client.hexOfWord k.x, Client.hexOfWord k.y⟩ : PointSerde).toGk with
      | error e => rw [h1] at h; cases h
      | ok P =>
        cases h2 : (l.map (fun k => (⟨Client.hexOfWord k.x, Client.hexOfWord k.y⟩ : PointSerde))).mapM
            PointSerde.toGk with
        | error e => rw [h1, h2] at h; cases h
        | ok Ps =>
          rw [h1, h2] at h
          rw [← Except.ok.inj h, List.map_cons, ← toGk_words.1 h1, ← (ih Ps).1 h2]
    · intro h
      cases pks with
      | nil => cases h
      | cons P pks =>
        rw [List.map_cons, List.cons.injEq] at h
        rw [toGk_words.2 h.1, (ih pks).2 h.2]
        rfl

/-- C54 (dealing). During the DKG, with canonical keys registered, a prover that makes proofs accepted
by the contract for every instance with which the circuit can be satisfied, a local verifier that
accepts them, and drawn values that the circuit can handle: `prove` with any index in range on the file
of keys succeeds; `verify` accepts its files; and the transaction made from them is accepted by
`submitPublicParams` from every registered node that has not submitted yet; its coordinates are
reduced, so it does not stand in the way of `computeVk`. -/
theorem C54_prove (env : Env) {s : State} (hr : Reachable env s) (hp : s.contractPhase = .Nidkg)
    (hk : ∀ k ∈ s.pkList, ∃ P : Gk, P ≠ 0 ∧ k = keyWords P) (ht : 0 < s.threshold)
    (auxG1 : G1) (auxG2 : G2) (h1 : Spec.TableFits 3 g1 auxG1) (h2 : r • auxG2 = 0)
    (h3 : Spec.TableFits 3 g2 auxG2)
    (prover : List Fr → Option (List Byte)) (verifier : List Byte → List Fr → Bool)
    (hprover : ∀ ins, DkgCircuit.synthesize ⟨s.threshold, s.memberCount⟩ auxG1 auxG2 ins →
      ∃ pr, prover ins = some pr ∧ verifier pr ins = true ∧
        env.verifyProof pr (wordsOf ins) = some true)
    (index : ℕ) (hi1 : 1 ≤ index) (hin : index ≤ s.memberCount) (infPanics : Bool)
    (draw : ℕ → Fr) (hd : draw s.threshold ≠ 0)
    (hu1 : Spec.Usable g1 auxG1 (draw 0)) (hu2 : Spec.Usable g2 auxG2 (draw 0))
    (hu : ∀ i, 1 ≤ i → i ≤ s.memberCount →
      Spec.Usable g1 auxG1 (Spec.poly ((List.range s.threshold).map draw) (i : Fr)))
    (a : Address) (ha : Registered s a) (hna : (s.addrToNode a).statusPP = false) :
    ∃ pr file pp s', Client.prove prover infPanics ⟨s.threshold, s.memberCount⟩ index
        (Client.mpksFile s.pkList) draw = .ok (pr, file) ∧
      Client.dkgVerify verifier ⟨s.threshold, s.memberCount⟩ index pr file (Client.mpksFile s.pkList) =
        .ok () ∧
      Client.ppSubmission file = some pp ∧
      exec env s ⟨a, 0⟩ (.submitPublicParams pp pr) = some s' ∧ s'.ppList = s.ppList ++ [pp] ∧
      Spec.Reduced s.memberCount pp := by
  have hreg := regInv hr
  have hb := hreg.bound
  obtain ⟨pks, hpk, hnz⟩ := keys_exist _ hk
  have hl : pks.length = s.memberCount := by
    have := hreg.pkLen
    rw [hpk, List.length_map] at this
    rw [this]
    exact hreg.started (by rw [hp]; exact Phase.noConfusion)
  have hkf := (C54_keys_file s pks).2 hpk
  obtain ⟨mp, ins, hnew, hins, hsyn⟩ := C29_honest_instance_satisfies infPanics s.threshold s.memberCount
    ht (by omega) (lt_trans (show s.memberCount < 2 ^ 32 by omega) (by norm_num)) auxG1 auxG2 h1 h2 h3
    pks hl hnz draw hd hu1 hu2 hu
  obtain ⟨pr, hpr, hver, hchain⟩ := hprover ins hsyn
  have hdl := DkgCircuit.new_eq_dealt s.threshold s.memberCount ht (by omega) pks hl _ mp hnew
  obtain ⟨hls, hlc⟩ := DkgCircuit.length_dealt s.memberCount ((List.range s.threshold).map draw)
    (draw s.threshold).val pks
  rw [← hdl] at hls hlc
  obtain ⟨e1, e2⟩ := instance_keys hls hlc hl hins
  have hmk : mp.publicKeys = pks := by
    have := memberParams_eq Poseidon.hash2 ⟨s.threshold, s.memberCount⟩ ht (by simp only; omega) pks hl
      draw
    rw [hnew] at this
    rw [Except.ok.inj this]
  have hci : Client.checkIndex ⟨s.threshold, s.memberCount⟩ index = .ok () := by
    unfold Client.checkIndex
    rw [if_neg]
    simp only
    omega
  have hread : (ins.map writeField).mapM (readField r) = .ok ins :=
    (Client.mapM_map_ok (readField r) writeField id ins (fun x _ => read_write_Fr x)).trans
      (by rw [List.map_id])
  have hpi : Client.proveInstance infPanics ⟨s.threshold, s.memberCount⟩ index (Client.mpksFile s.pkList)
      draw = .ok ins := by
    unfold Client.proveInstance
    rw [hci, ok_bind', hkf, lift_bind, hnew, lift_bind, hmk, hins]
    rfl
  have hchk : checkPublicParams s (wordsOf ins) = some true :=
    (checkPublicParams_true hreg.len hreg.bound _).2
      ⟨by rw [hpk, List.length_map, hl], e1, by rw [e2, hpk]⟩
  have hself := (hreg.reg_idx a ha).2.2.1
  have hcount := (dkgInv hr).nidkg hp
  have he : exec env s ⟨a, 0⟩ (.submitPublicParams (wordsOf ins) pr) = some _ :=
    submitPublicParams_some.2 ⟨rfl, hself.symm, hp, hna, hchk, hchain, by omega, rfl⟩
  refine ⟨pr, ins.map writeField, wordsOf ins, _, ?_, ?_, ?_, he, rfl, reduced_instance hls hl hins⟩
  · unfold Client.prove
    rw [hpi, ok_bind', hpr]
    rfl
  · have e0 : ∀ {α β : Type} (a : α) (f : α → Except (Option Client.CliFail) β),
      (Except.mapError some (.ok a : Except Client.CliFail α) >>= f) = f a := fun _ _ => rfl
    have e0' : ∀ {α β : Type} (a : α) (f : α → Except (Option Client.CliFail) β),
      (Except.mapError some (Client.lift (.ok a : Res α)) >>= f) = f a := fun _ _ => rfl
    unfold Client.dkgVerify
    rw [hci, e0, hread, e0', hkf, e0', C16_client_reads_keys infPanics s.threshold s.memberCount _ pks hls hlc hl
      ins hins]
    change (if pks ≠ pks then _ else if verifier pr ins = true then _ else _) = _
    rw [if_neg (not_not.2 rfl), if_pos hver]
  · unfold Client.ppSubmission wordsOf
    have : ∀ l : List Fr, (l.map writeField).mapM Client.wordOfHex = some (l.map wordOf) := by
      intro l
      induction l with
      | nil => rfl
      | cons x l ih => rw [List.map_cons, List.mapM_cons, Client.wordOfHex_Fr, ih]; rfl
    exact this ins

/-- C54 (evaluation). In phase `Ready` with a sound proof system, in an open round: a registered node
that has not submitted yet runs `derive` with its member file, then `eval` with the resulting share
file on the round's input; `verify` accepts the evaluation against the derived verification keys, and
the transaction made from it is accepted by `submitPartialEval`, whatever the nonce; what is stored
has a canonical response and the value belonging to the node's verification key. -/
theorem C54_evaluate (env : Env) {s : State} (hr : Reachable env s) (hp : s.contractPhase = .Ready)
    (hs : Spec.SnarkSound env s.threshold s.memberCount)
    (hopen : ¬ Completed s s.currentRoundNum) (a : Address)
    (ha0 : a ≠ 0) (ha : Registered s a) (hl : s.lastSubmittedRound a < s.currentRoundNum)
    (sk : Fq) (hk : s.pkList[indexOf s a]? = some (keyWords (sk • gk))) (nonce : Fr) :
    ∃ i gf vf f e w s', getIndexPlus s a = some i ∧
      Client.derive ⟨s.threshold, s.memberCount⟩ (Client.instancesFile s.ppList)
        (some (i, Client.keygen sk)) = .ok ⟨gf, vf, some f⟩ ∧
      Client.eval env.keccak (evalHash env.keccak) ⟨s.threshold, s.memberCount⟩ i f
        (s.roundInput s.currentRoundNum) nonce = .ok e ∧
      Client.verifyEval env.keccak (evalHash env.keccak) ⟨s.threshold, s.memberCount⟩ i e vf
        (s.roundInput s.currentRoundNum) = .ok () ∧
      Client.evalSubmission e = some w ∧
      exec env s ⟨a, 0⟩ (.submitPartialEval w) = some s' ∧
      s'.roundToEval s.currentRoundNum (indexOf s a) = w ∧
      w.z.toNat < r ∧ ∀ v V, decodeG1 w.value = some v →
        s.vkList[indexOf s a]? = some (encodeG1 V) →
        Spec.SameLog (evalHash env.keccak (s.roundInput s.currentRoundNum)) V v := by
  obtain ⟨pks, ds, F, hv⟩ := Client.view hr hs (Or.inr hp)
  have hreg := regInv hr
  have hb := hreg.bound
  have hi : indexOf s a < s.memberCount := by
    have h1 := (hreg.reg_idx a ha).1
    have h2 := hreg.started (by rw [hp]; exact Phase.noConfusion)
    unfold indexOf
    omega
  have hidx : getIndexPlus s a = some (indexOf s a + 1) := by
    unfold getIndexPlus u32
    exact if_pos (by change indexOf s a + 1 < _; omega)
  have hready := (dkgInv hr).ready hp
  have h2 := congrArg Prod.snd ((hv.chain (createGpp_reduced hready) _ _).1 hready).2
  dsimp only at h2
  have hvk : s.vkList[indexOf s a]? = some (encodeG1 (Spec.poly F ((indexOf s a + 1 : ℕ) : Fr) • g1)) := by
    rw [h2, List.getElem?_map, List.getElem?_range hi, Option.map_some]
  obtain ⟨s', e1, e2, _⟩ := C41_node_can_submit env hr hp hopen a ha0 ha hl _ nonce hvk
  have hci : Client.checkIndex ⟨s.threshold, s.memberCount⟩ (indexOf s a + 1) = .ok () := by
    unfold Client.checkIndex
    rw [if_neg]
    simp only
    omega
  refine ⟨indexOf s a + 1, _, _, _, PartialEvalSerde.of (DkgShareKey.evaluate env.keccak
    (evalHash env.keccak) ⟨indexOf s a + 1, Spec.poly F ((indexOf s a + 1 : ℕ) : Fr),
      Spec.poly F ((indexOf s a + 1 : ℕ) : Fr) • g1⟩ (s.roundInput s.currentRoundNum) nonce), _, s',
    hidx, view_share hv hi hk, ?_, ?_, ?_, e1, e2, ?_, ?_⟩
  · unfold Client.eval
    rw [hci, ok_bind', C17_roundtrip.2.1 _ rfl]
    rfl
  · unfold Client.verifyEval
    rw [hci, ok_bind', C17_roundtrip.2.2.2.2.2.1, lift_bind, read_vks, lift_bind]
    have : getOrPanic ((List.range s.memberCount).map
        (fun j => Spec.poly F ((j + 1 : ℕ) : Fr) • g1)) (indexOf s a + 1 - 1) =
        .ok (Spec.poly F ((indexOf s a + 1 : ℕ) : Fr) • g1) := by
      unfold getOrPanic
      rw [Nat.add_sub_cancel, List.getElem?_map, List.getElem?_range hi]
      rfl
    rw [this, lift_bind, evaluate_verifies env.keccak (evalHash env.keccak)
      ⟨s.threshold, s.memberCount⟩ ⟨indexOf s a + 1, Spec.poly F ((indexOf s a + 1 : ℕ) : Fr), _⟩ rfl
      (Nat.succ_le_succ (Nat.zero_le _)) hi]
    rfl
  · unfold Client.evalSubmission PartialEvalSerde.of PointSerde.ofG1
    simp only [Client.wordOfHex_Fr, Client.wordOfHex_Fq]
    rfl
  · exact wordOf_lt_r _
  · intro v V h3 h4
    have h5 := (decode_encode _).symm.trans h3
    rw [hvk] at h4
    exact ⟨_, (encodeG1_inj (Option.some.inj h4)).symm, (Option.some.inj h5).symm⟩

/-! ### Concrete states meeting the hypotheses -/

/-- A running DKG of two members, threshold 1, both registered with the key `gk` (secret 1). -/
theorem toy_dkg : ∃ s, Reachable (toyEnv 1 2) s ∧ s.contractPhase = .Nidkg ∧
    s.memberCount = 2 ∧ s.threshold = 1 ∧ s.owner = 7 ∧
    s.pkList = [keyWords gk, keyWords gk] ∧ s.ppList = [] := by
  obtain ⟨s, h1, h2, h3, h4, h5, h6, h7⟩ := toy_deploy
  obtain ⟨s', a1, a2, a3, d, a4, a5⟩ := start (keyWords gk) (key_on_curve gk_ne_zero) h1 h2
    (by rw [h5]; decide)
  have hk := a1.keeps h1
  have hr := a1.reachable h1
  have hd : d = 2 := by
    have e1 := (regInv hr).pkLen
    have e2 := (regInv hr).started (by rw [a2]; exact Phase.noConfusion)
    rw [a4, h6, List.nil_append, List.length_replicate] at e1
    rw [e1, e2, hk.memberCount, h3]
  refine ⟨s', hr, a2, hk.memberCount.trans h3, hk.threshold.trans h4, a3.trans h5, ?_, a5.trans h7⟩
  rw [a4, h6, hd]
  rfl

/-- The same after both have dealt, with reduced coordinates. -/
theorem toy_dealt : ∃ s, Reachable (toyEnv 1 2) s ∧ s.contractPhase = .NidkgComplete ∧
    s.memberCount = 2 ∧ s.threshold = 1 ∧ s.owner = 7 ∧
    s.pkList = [keyWords gk, keyWords gk] ∧ ∀ w ∈ s.ppList, Spec.Reduced 2 w := by
  obtain ⟨s, h1, h2, h3, h4, h5, h6, h7⟩ := toy_dkg
  have hreg := regInv h1
  obtain ⟨w, pr, hv, e1, e2, e3⟩ := honest_submission (t := 1) (n := 2) (by norm_num) (by norm_num)
    (by norm_num) (toy_complete 1 2) [gk, gk] rfl (by
      intro P hP
      simp only [List.mem_cons, List.not_mem_nil, or_false, or_self] at hP
      rw [hP]; exact gk_ne_zero)
  have hchk : checkPublicParams s w = some true :=
    (checkPublicParams_true hreg.len hreg.bound w).2
      ⟨by rw [h6, h3]; rfl, by rw [h3]; exact e1, by rw [h3, e2, h6]; rfl⟩
  obtain ⟨s1, a1, a2, a3, a4⟩ := submit_all (t := 1) w pr hv _ s h1 h2 (by rw [h3]; norm_num) hchk rfl
  have hk := a1.keeps h1
  have hr := a1.reachable h1
  refine ⟨s1, hr, a2, hk.memberCount.trans h3, hk.threshold.trans h4, a3.trans h5, ?_, ?_⟩
  · rw [← h6]
    refine (List.IsPrefix.eq_of_length hk.pkList ?_).symm
    rw [(regInv hr).pkLen, (regInv hr).started (by rw [a2]; exact Phase.noConfusion),
      hk.memberCount, h3, h6]
    rfl
  · intro v hv
    rcases a4 v hv with rfl | h
    · exact e3
    · rw [h7] at h; cases h

/-- `C53_compute_vk` applies, and the key is accepted. -/
example : ∃ s gf vf gpk s', Reachable (toyEnv 1 2) s ∧ s.contractPhase = .NidkgComplete ∧
    Client.derive ⟨1, 2⟩ (Client.instancesFile s.ppList) none = .ok ⟨gf, vf, none⟩ ∧
    Client.gpkSubmission gf = some gpk ∧
    exec (toyEnv 1 2) s ⟨7, 0⟩ (.computeVk gpk) = some s' := by
  obtain ⟨s, h1, h2, h3, h4, h5, h6, h7⟩ := toy_dealt
  obtain ⟨gf, vf, gpk, e1, e2, e3, _⟩ := C53_compute_vk (toyEnv 1 2) h1 h2
    (by rw [h3, h4]; exact toy_sound 1 2) 7
  obtain ⟨s', e4⟩ := e3.2 (by rw [h3]; exact h7)
  rw [h3, h4] at e1
  exact ⟨s, gf, vf, gpk, s', h1, h2, e1, e2, e4⟩

/-- `C52_share_sound` applies: the second member derives its share. -/
example : ∃ s out, Reachable (toyEnv 1 2) s ∧
    Client.derive ⟨1, 2⟩ (Client.instancesFile s.ppList) (some (2, Client.keygen 1)) = .ok out := by
  obtain ⟨s, h1, h2, h3, h4, h5, h6, h7⟩ := toy_dealt
  obtain ⟨pks, ds, F, hv⟩ := Client.view h1 (by rw [h3, h4]; exact toy_sound 1 2) (Or.inl h2)
  have := view_share hv (i := 1) (by rw [h3]; norm_num) (sk := 1)
    (by rw [h6, one_smul Fq gk]; rfl)
  rw [h3, h4] at this
  exact ⟨s, _, h1, this⟩

/-- Round 1 open, with the keys known. -/
theorem toy_keys_open : ∃ s, Reachable (toyEnv 1 2) s ∧ s.contractPhase = .Ready ∧
    s.memberCount = 2 ∧ s.threshold = 1 ∧ s.currentRoundNum = 1 ∧ ¬ Completed s 1 ∧
    s.pkList = [keyWords gk, keyWords gk] ∧ ∀ a, s.lastSubmittedRound a = 0 := by
  obtain ⟨s, h1, h2, h3, h4, h5, h6, h7⟩ := toy_dealt
  obtain ⟨s1, a1, a2, a3, a4⟩ := finish h1 h2 (by rw [h3, h4]; exact toy_sound 1 2)
    (by rw [h3]; exact h7)
  have hk := a1.keeps h1
  have hr := a1.reachable h1
  have hpk := (hk.ppDone (by rw [h2]; exact le_rfl)).2.2
  have hz : ∀ a, s1.lastSubmittedRound a = 0 := fun a => by
    have := (evalInv hr).last_le a; omega
  have hf : s1.roundToRandom 1 = .empty := (roundInv hr).future 1 (by omega)
  have he : exec (toyEnv 1 2) s1 ⟨7, 0⟩ .initiateRandom = some _ :=
    initiateRandom_some.2 ⟨rfl, by rw [a3, h5], a2, Or.inl a4, by rw [a4]; norm_num, rfl⟩
  refine ⟨_, hr.call (m := ⟨7, 0⟩) (by decide) he, a2, hk.memberCount.trans h3,
    hk.threshold.trans h4, by rw [a4], ?_, hpk.trans h6, hz⟩
  unfold Completed
  simp only
  rw [hf]
  exact fun h => h rfl

/-- `C52_derive` and `C54_evaluate` apply to the first node (secret 1) of that state. -/
example : ∃ s a, Reachable (toyEnv 1 2) s ∧ s.contractPhase = .Ready ∧
    Spec.SnarkSound (toyEnv 1 2) s.threshold s.memberCount ∧
    ¬ Completed s s.currentRoundNum ∧ a ≠ 0 ∧ Registered s a ∧
    s.lastSubmittedRound a < s.currentRoundNum ∧
    s.pkList[indexOf s a]? = some (keyWords ((1 : Fq) • gk)) := by
  obtain ⟨s, h1, h2, h3, h4, h5, h6, h7, h8⟩ := toy_keys_open
  have hreg := regInv h1
  have hrc : s.registeredCount = 2 := by
    rw [← h3]; exact hreg.started (by rw [h2]; exact Phase.noConfusion)
  obtain ⟨hst, hidx⟩ := hreg.reg_node 0 (by omega)
  have hself := (hreg.reg_idx _ hst).2.2.1
  have h0 : s.nodes 0 ≠ 0 := by
    intro h0
    rw [h0] at hst hself
    rw [hreg.empty 0 hself] at hst
    cases hst
  refine ⟨s, s.nodes 0, h1, h2, by rw [h3, h4]; exact toy_sound 1 2, by rw [h5]; exact h6, h0, hst,
    by rw [h8, h5]; norm_num, ?_⟩
  rw [indexOf, hidx, h7, one_smul Fq gk]
  rfl

open Classical in
/-- `C54_prove` applies to the running DKG, with all drawn values equal to 7. -/
example : ∃ s a pr file pp s', Reachable (toyEnv 1 2) s ∧ s.contractPhase = .Nidkg ∧
    Client.prove (fun _ => some []) true ⟨1, 2⟩ 2 (Client.mpksFile s.pkList) (fun _ => 7) =
      .ok (pr, file) ∧ Client.ppSubmission file = some pp ∧
    exec (toyEnv 1 2) s ⟨a, 0⟩ (.submitPublicParams pp pr) = some s' := by
  obtain ⟨s, h1, h2, h3, h4, h5, h6, h7⟩ := toy_dkg
  have hreg := regInv h1
  have hrc : s.registeredCount = 2 := by
    rw [← h3]; exact hreg.started (by rw [h2]; exact Phase.noConfusion)
  obtain ⟨hst, hidx⟩ := hreg.reg_node 0 (by omega)
  have hpp : (s.addrToNode (s.nodes 0)).statusPP = false := by
    cases hs : (s.addrToNode (s.nodes 0)).statusPP with
    | false => rfl
    | true =>
      have hd := dkgInv h1
      have := (hd.ppMem _).2 hs
      have hl := hd.ordLen
      rw [← hd.ppLen, h7] at hl
      rw [List.length_eq_zero_iff.1 hl] at this
      cases this
  have hu1 : Spec.Usable g1 (5 • g1) (7 : Fr) :=
    ⟨7, by norm_num, rfl, FixedPoint.fitsN_spec addOrderOf_g1 (by decide +kernel)⟩
  have hu2 : Spec.Usable g2 FixedPoint.aux2 (7 : Fr) := toy_usable2
  obtain ⟨pr, file, pp, s', e1, _, e3, e4, _, _⟩ := C54_prove (toyEnv 1 2) h1 h2
    (by
      intro k hk
      rw [h6] at hk
      simp only [List.mem_cons, List.not_mem_nil, or_false, or_self] at hk
      exact ⟨gk, gk_ne_zero, hk⟩)
    (by rw [h4]; norm_num) (5 • g1) FixedPoint.aux2
    (FixedPoint.tableFitsN_spec addOrderOf_g1 (by decide +kernel)) FixedPoint.r_nsmul_aux2
    FixedPoint.aux2_tableFits (fun _ => some []) (fun _ _ => true)
    (by
      intro ins h
      rw [h3, h4] at h
      exact ⟨[], rfl, rfl, congrArg some (decide_eq_true ⟨ins, rfl, h⟩)⟩)
    2 (by norm_num) (by rw [h3]) true (fun _ => 7) (by decide +kernel : (7 : Fr) ≠ 0) hu1 hu2
    (by
      intro i _ _
      rw [h4, List.range_one, List.map_singleton, poly_cons, poly_nil, mul_zero, add_zero]
      exact hu1)
    (s.nodes 0) hst hpp
  rw [h3, h4] at e1
  exact ⟨s, s.nodes 0, pr, file, pp, s', h1, h2, e1, e3, e4⟩

/-- `C54_register` applies to a node just added. -/
example : ∃ s, Reachable (toyEnv 1 2) s ∧ s.contractPhase = .Unregistered ∧ Added s 9 ∧
    ¬ Registered s 9 ∧ s.minNodeDeposit ≤ 5 := by
  have hc : Zkdvrf.constructor ⟨7, 0⟩ 1 2 true true true 5 = some _ :=
    constructor_some.2 ⟨rfl, by decide, rfl, by norm_num, by norm_num, by norm_num, by norm_num, rfl⟩
  have hr := Reachable.deploy (env := toyEnv 1 2) (m := ⟨7, 0⟩) (by decide) hc
  refine ⟨_, hr.call (m := ⟨7, 0⟩) (c := .addPermissionedNodes 9) (by decide)
    (addPermissionedNodes_some.2 ⟨rfl, rfl, by norm_num, by decide, rfl, by norm_num, rfl⟩), rfl, ?_,
    ?_, le_rfl⟩
  · unfold Added
    simp only [Function.update_self]
    decide
  · unfold Registered
    simp only [Function.update_self]
    exact Bool.noConfusion

end Verif.Props
