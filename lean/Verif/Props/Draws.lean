import Verif.Spec.Draws
import Verif.Props.ClientDkg
import Verif.Props.ContractPre

/-! Where the randoms come from: the polynomials drawn by the members. -/

namespace Verif.Props
open Verif Verif.Zkdvrf

theorem wordsOf_inj {a b : List Fr} (h : wordsOf a = wordsOf b) : a = b := by
  have hinj : Function.Injective (wordOf : Fr → Word) := by
    intro x y hxy
    have := congrArg BitVec.toNat hxy
    rw [word_val, word_val] at this
    exact ZMod.val_injective _ this
  exact List.map_injective_iff.2 hinj h

theorem lift_ok {α : Type} {x : Res α} {a : α} (h : Client.lift x = .ok a) : x = .ok a := by
  cases x with
  | error e => cases h
  | ok b => cases h; rfl

/-- The words submitted from the files of `prove` are its instance. -/
theorem prove_instance {prover : List Fr → Option (List Byte)} {ip : Bool} {cfg : DkgConfig} {index : ℕ}
    {mpks : List PointSerde} {draw : ℕ → Fr} {proof : List Byte} {file : List (List Char)}
    {w : List Word} (h : Client.prove prover ip cfg index mpks draw = .ok (proof, file))
    (hw : Client.ppSubmission file = some w) :
    ∃ ins, Client.proveInstance ip cfg index mpks draw = .ok ins ∧ w = wordsOf ins := by
  unfold Client.prove at h
  cases hi : Client.proveInstance ip cfg index mpks draw with
  | error e => rw [hi] at h; cases h
  | ok ins =>
    rw [hi, ok_bind'] at h
    have e : ∀ l : List Fr, (l.map writeField).mapM Client.wordOfHex = some (l.map wordOf) := by
      intro l
      induction l with
      | nil => rfl
      | cons x l ih => rw [List.map_cons, List.mapM_cons, Client.wordOfHex_Fr, ih]; rfl
    cases hpr : prover ins with
    | none => rw [hpr] at h; cases h
    | some pr =>
      rw [hpr] at h
      have h2 := congrArg Prod.snd (Except.ok.inj h)
      dsimp only at h2
      rw [← h2] at hw
      exact ⟨ins, rfl, (Option.some.inj ((e ins).symm.trans hw)).symm⟩

/-- What the client drew is what is dealt. -/
theorem proved_dealt {t n : ℕ} (ht : 0 < t) (hn : 1 ≤ n) {pks : List Gk} (hl : pks.length = n)
    {s : State} (hk : pks.map keyWords = s.pkList) {w : List Word}
    {d : List Fr × ℕ} (hd : Client.Dealt t n pks w d) {draw : ℕ → Fr}
    (hw : Spec.ProvedBy t n s.pkList draw w) :
    Spec.poly d.1 0 = draw 0 ∧ ∀ i, 1 ≤ i → i ≤ n →
      Spec.poly d.1 (i : Fr) = Spec.poly ((List.range t).map draw) (i : Fr) := by
  obtain ⟨_, ins, hc, rfl⟩ := hd
  obtain ⟨prover, ip, index, proof, file, hw1, hw2⟩ := hw
  obtain ⟨ins', hp, hins⟩ := prove_instance hw1 hw2
  have hins := wordsOf_inj hins
  subst hins
  unfold Client.proveInstance at hp
  cases h1 : Client.checkIndex ⟨t, n⟩ index with
  | error e => rw [h1] at hp; cases hp
  | ok u =>
    rw [h1, ok_bind'] at hp
    have hpk := (C54_keys_file s pks).2 hk.symm
    rw [hpk, lift_bind] at hp
    cases h2 : DkgMemberParams.new Poseidon.hash2 ⟨t, n⟩ pks draw with
    | error e => rw [h2] at hp; cases hp
    | ok mp =>
      rw [h2, lift_bind] at hp
      have hp := lift_ok hp
      have hnew := DkgCircuit.new_eq_dealt t n ht hn pks hl draw mp h2
      obtain ⟨hls, hlc⟩ := DkgCircuit.length_dealt n ((List.range t).map draw) (draw t).val pks
      have hmk : mp.publicKeys = pks := by
        have := memberParams_eq Poseidon.hash2 ⟨t, n⟩ ht hn pks hl draw
        rw [h2] at this
        rw [Except.ok.inj this]
      rw [hmk, hnew, toInstance_eq ip _ pks (by rw [hls, hl])] at hp
      split at hp
      · cases hp
      · have he := Except.ok.inj hp
        have f1 := DkgCircuit.dealingCells_fromInstance (t := t) hc hl
        rw [← he, fromInstance_encParams t n _ pks hls hlc hl] at f1
        have f2 := congrArg Prod.fst (Except.ok.inj f1)
        obtain ⟨g1, _, g3⟩ := DkgCircuit.dealtParams_inj f2
        rw [DkgCircuit.poly_range_zero ht] at g1
        exact ⟨g1.symm, fun i h1 h2 => (g3 i h1 h2).symm⟩

/-- No dealing has an empty polynomial. -/
theorem synthesize_pos {t n : ℕ} {auxG1 : G1} {auxG2 : G2} {ins : List Fr}
    (h : DkgCircuit.synthesize ⟨t, n⟩ auxG1 auxG2 ins) : 0 < t := by
  rcases Nat.eq_zero_or_pos t with rfl | ht
  · exfalso
    obtain ⟨coeffs, shares, tab1, tab2, aux, auxNeg, base, cga, cgs, cg2a, g, gr, bits, pks, ciphers,
      hl, hsh, ht1, ht2, haux, hneg, hbase, hga, _⟩ := h
    rw [GrumpkinChip.assignConstant_gate_iff] at hbase
    subst hbase
    rw [DkgCircuit.exposeG1_iff ht1, List.length_eq_zero_iff.1 hl] at hga
    exact DkgCircuit.usable_ne_zero hga.1 (zero_smul Fr g1)
  · exact ht

theorem forall₂_get' {α β : Type} {R : α → β → Prop} : ∀ {l : List α} {l' : List β},
    List.Forall₂ R l l' → ∀ (j : ℕ) {a b}, l[j]? = some a → l'[j]? = some b → R a b
  | _, _, .nil, j, _, _, ha, _ => by simp at ha
  | _, _, .cons h1 _, 0, _, _, ha, hb => by
    simp only [List.getElem?_cons_zero, Option.some.injEq] at ha hb
    subst ha hb
    exact h1
  | _, _, .cons _ h2, j + 1, _, _, ha, hb => by
    simp only [List.getElem?_cons_succ] at ha hb
    exact forall₂_get' h2 j ha hb

/-- C75. In phase `Ready`, with a sound proof system, there is one polynomial of `threshold`
coefficients per stored dealing such that: the group key is the sum of the constant terms on the
generator of G2; the verification key of index `i + 1` is the sum of the values at `i + 1` on the
generator of G1; the random of every completed round `k ≥ 1` is the sum of the constant terms on the
hash of the round's input, with the hash of its words as value; the share file that a member derives
with its registered key holds the sum of the values at its index; and the polynomial of every dealing
that a member made with `dkg prove` takes the values of the polynomial this member drew: so the
members' first draws, nothing else, determine every random. -/
theorem C75_randoms_from_draws (env : Env) {s : State} (hr : Reachable env s)
    (hs : Spec.SnarkSound env s.threshold s.memberCount) (hp : s.contractPhase = .Ready) :
    ∃ fs : List (List Fr), fs.length = s.memberCount ∧ (∀ f ∈ fs, f.length = s.threshold) ∧
      s.gpkVal = encodeG2 (smul2 (fs.map (fun f => Spec.poly f 0)).sum g2) ∧
      s.vkList = (List.range s.memberCount).map (fun i =>
        encodeG1 ((fs.map (fun f => Spec.poly f ((i + 1 : ℕ) : Fr))).sum • g1)) ∧
      (∀ k, 1 ≤ k → Completed s k →
        (s.roundToRandom k).proof = encodeG1 ((fs.map (fun f => Spec.poly f 0)).sum •
          evalHash env.keccak (strBytes "zkRand-v1-2024:" ++ decimal k)) ∧
        (s.roundToRandom k).value = env.keccak (Word.bytes (s.roundToRandom k).proof.x ++
          Word.bytes (s.roundToRandom k).proof.y)) ∧
      (∀ a sk, Registered s a → s.pkList[indexOf s a]? = some (keyWords (sk • gk)) →
        ∃ gf vf f, Client.derive ⟨s.threshold, s.memberCount⟩ (Client.instancesFile s.ppList)
            (some (indexOf s a + 1, Client.keygen sk)) = .ok ⟨gf, vf, some f⟩ ∧
          f.read = .ok ⟨indexOf s a + 1,
            (fs.map (fun f => Spec.poly f ((indexOf s a + 1 : ℕ) : Fr))).sum,
            (fs.map (fun f => Spec.poly f ((indexOf s a + 1 : ℕ) : Fr))).sum • g1⟩) ∧
      ∀ (j : ℕ) (w : List Word) (f : List Fr) (draw : ℕ → Fr), s.ppList[j]? = some w →
        fs[j]? = some f → Spec.ProvedBy s.threshold s.memberCount s.pkList draw w →
        Spec.poly f 0 = draw 0 ∧ ∀ i, 1 ≤ i → i ≤ s.memberCount →
          Spec.poly f (i : Fr) = Spec.poly ((List.range s.threshold).map draw) (i : Fr) := by
  obtain ⟨pks, ds, F, hv⟩ := Client.view hr hs (.inr hp)
  have hpos := Client.late_pos hr (.inr hp)
  have hdkg := dkgInv hr
  have hready := hdkg.ready hp
  have hlen : ds.length = s.memberCount := by
    rw [← hv.dealt.length_eq, hdkg.ppLen, hdkg.late (.inr hp)]
  have hsum : ∀ x, ((ds.map Prod.fst).map (fun f => Spec.poly f x)).sum = Spec.poly F x := by
    intro x
    rw [← hv.sum x, List.map_map]
    rfl
  have hmem : ∀ f ∈ ds.map Prod.fst, f.length = s.threshold := by
    intro f hf
    obtain ⟨d, hd, rfl⟩ := List.mem_map.1 hf
    obtain ⟨w, _, hw⟩ := Client.forall₂_exists_right hv.dealt hd
    exact hw.1
  obtain ⟨hg, hvk⟩ := (hv.chain (createGpp_reduced hready) _ _).1 hready
  obtain ⟨a, ha, hrand⟩ := C36_value_determined env hr hp
  have haF : a = Spec.poly F 0 := by
    rw [hg, decodeG2_encode, if_pos (smul2_torsion _)] at ha
    exact (smul2_inj (Option.some.inj ha)).symm
  refine ⟨ds.map Prod.fst, by rw [List.length_map, hlen], hmem, ?_, ?_, ?_, ?_, ?_⟩
  · rw [hsum 0]
    exact hg
  · simp only [hsum]
    exact congrArg Prod.snd hvk
  · intro k hk hc
    rw [hsum 0, ← haF]
    exact hrand k hk hc
  · intro a sk ha hk
    have hreg := regInv hr
    have hi : indexOf s a < s.memberCount := by
      have h1 := (hreg.reg_idx a ha).1
      have h2 := hreg.started (by rw [hp]; exact Phase.noConfusion)
      unfold indexOf
      omega
    rw [hsum]
    exact ⟨_, _, _, view_share hv hi hk, C17_roundtrip.2.1 _ rfl⟩
  · intro j w f draw hw hf hpr
    rw [List.getElem?_map] at hf
    cases hd : ds[j]? with
    | none => rw [hd] at hf; cases hf
    | some d =>
      rw [hd] at hf
      cases hf
      have hdealt := forall₂_get' hv.dealt j hw hd
      have ht : 0 < s.threshold := by
        obtain ⟨proof, h1, h2, _⟩ := hdkg.ppOk w (List.mem_of_getElem? hw)
        obtain ⟨auxG1, auxG2, hs⟩ := hs
        obtain ⟨ins, _, h3⟩ := hs proof w h1 h2
        exact synthesize_pos h3
      exact proved_dealt ht hpos hv.len hv.keys hdealt hpr

/-- C75 for the contract of the demo (zkdvrf_pre.sol). -/
theorem C75_pre_randoms_from_draws (env : Env) {p : ZkdvrfPre.State} (hr : ZkdvrfPre.Reachable env p)
    (ht : 1 ≤ p.threshold) (hs : Spec.SnarkSound env p.threshold p.memberCount)
    (hp : p.contractPhase = .Ready) :
    ∃ fs : List (List Fr), fs.length = p.memberCount ∧ (∀ f ∈ fs, f.length = p.threshold) ∧
      p.gpkVal = encodeG2 (smul2 (fs.map (fun f => Spec.poly f 0)).sum g2) ∧
      p.vkList = (List.range p.memberCount).map (fun i =>
        encodeG1 ((fs.map (fun f => Spec.poly f ((i + 1 : ℕ) : Fr))).sum • g1)) ∧
      (∀ k, ZkdvrfPre.Completed p k →
        (p.roundToRandom k).proof = encodeG1 ((fs.map (fun f => Spec.poly f 0)).sum •
          evalHash env.keccak (strBytes "zkRand-v1-2024:" ++ decimal k)) ∧
        (p.roundToRandom k).value = env.keccak (Word.bytes (p.roundToRandom k).proof.x ++
          Word.bytes (p.roundToRandom k).proof.y)) ∧
      (∀ a sk, ZkdvrfPre.Registered p a →
        p.pkList[ZkdvrfPre.indexOf p a]? = some (keyWords (sk • gk)) →
        ∃ gf vf f, Client.derive ⟨p.threshold, p.memberCount⟩ (Client.instancesFile p.ppList)
            (some (ZkdvrfPre.indexOf p a + 1, Client.keygen sk)) = .ok ⟨gf, vf, some f⟩ ∧
          f.read = .ok ⟨ZkdvrfPre.indexOf p a + 1,
            (fs.map (fun f => Spec.poly f ((ZkdvrfPre.indexOf p a + 1 : ℕ) : Fr))).sum,
            (fs.map (fun f => Spec.poly f ((ZkdvrfPre.indexOf p a + 1 : ℕ) : Fr))).sum • g1⟩) ∧
      ∀ (j : ℕ) (w : List Word) (f : List Fr) (draw : ℕ → Fr), p.ppList[j]? = some w →
        fs[j]? = some f → Spec.ProvedBy p.threshold p.memberCount p.pkList draw w →
        Spec.poly f 0 = draw 0 ∧ ∀ i, 1 ≤ i → i ≤ p.memberCount →
          Spec.poly f (i : Fr) = Spec.poly ((List.range p.threshold).map draw) (i : Fr) := by
  obtain ⟨_, o1, o2, hz⟩ := ZkdvrfPre.sim hr ht
  obtain ⟨fs, h1, h2, h3, h4, h5, h6⟩ := C75_randoms_from_draws env hz hs (ZkdvrfPre.toZk_ready.2 hp)
  exact ⟨fs, h1, h2, h3, h4, fun k hk => h5 k (ZkdvrfPre.quorum hr ht k hk).1 hk, h6⟩

/-- A completed round of a contract with threshold 1 and two members: the random comes from two polynomials. -/
example : ∃ s, Reachable (toyEnv 1 2) s ∧ Completed s 1 ∧ ∃ f1 f2 : List Fr,
    (s.roundToRandom 1).proof = encodeG1 ((Spec.poly f1 0 + Spec.poly f2 0) •
      evalHash (toyEnv 1 2).keccak (strBytes "zkRand-v1-2024:" ++ decimal 1)) := by
  obtain ⟨s, h1, h2, h3, h4, _, _, h7, _⟩ := toy_done
  obtain ⟨fs, hl, _, _, _, hk, _⟩ := C75_randoms_from_draws (toyEnv 1 2) h1
    (by rw [h3, h4]; exact toy_sound 1 2) h2
  rw [h3] at hl
  obtain ⟨f1, f2, rfl⟩ := List.length_eq_two.1 hl
  refine ⟨s, h1, h7, f1, f2, ?_⟩
  rw [(hk 1 le_rfl h7).1, List.map_cons, List.map_cons, List.map_nil, List.sum_cons, List.sum_cons,
    List.sum_nil, add_zero]

end Verif.Props
