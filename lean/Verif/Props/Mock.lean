import Verif.Lemmas.Mock

/-! Property C69: the `mock` command of the client. -/

namespace Verif.Props
open Verif Verif.Mock

theorem mock_members_file (n : ℕ) (t : ℕ) (sk : ℕ → Fq) (f : Files) {i : ℕ} (hi : i < n) :
    (mockMembers ⟨t, n⟩ sk f).member (i + 1) = some (Client.keygen (sk i)) := by
  unfold mockMembers writeFrom
  dsimp only
  rw [if_pos (by omega), Nat.add_sub_cancel, List.getElem?_map, List.getElem?_range hi]
  rfl

/-- C69. For `0 < t ≤ n < 2^64`, all drawn values (with finite points, if the library panics on
infinity), every input and every content of the data directory, `mock --mem --dkg --rand input`
succeeds.  With `F` the sum of the polynomials drawn by the members, its files are exactly those of a
run of the other commands of the client:
* the keys are those of `keygen`, and the file of instances holds, for each member, the instance for
  which `dkg prove` makes a proof with the same draws;
* for every member, `dkg derive` on these files writes the same group key, verification keys and share;
  the group key is `F(0) g2`, the keys are `F(i) g1` and the share is `F(i)`;
* the evaluation of every member is the one `rand eval` writes from its share, and `rand verify`
  accepts it;
* `rand combine` on these files writes the same pseudorandom, `rand verify-final` accepts it, and it is
  `F(0)` times the hash of the input, with its Keccak hash. -/
theorem C69_mock (E : BnPairing) (keccak : Keccak) (h2c : List Byte → G1) (infPanics : Bool)
    (t n : ℕ) (ht : 0 < t) (htn : t ≤ n) (hn : n < 2 ^ 64) (d : Draws)
    (hfin : infPanics = true → ∀ j, j < n → d.draw j 0 ≠ 0 ∧
      ∀ i, 1 ≤ i → i ≤ n → Spec.poly ((List.range t).map (d.draw j)) (i : Fr) ≠ 0)
    (input : List Byte) (before : Files) :
    let cfg : DkgConfig := ⟨t, n⟩
    let F : Fr → Fr := fun x => ∑ j ∈ Finset.range n, Spec.poly ((List.range t).map (d.draw j)) x
    ∃ f mpks ins gpk vks evals pseudo,
      mock E keccak h2c infPanics cfg true true (some input) d before = .ok f ∧
      f.mpks = some mpks ∧ f.instances = some ins ∧ f.gpk = some gpk ∧ f.vks = some vks ∧
      f.evals = some evals ∧ f.pseudo = some pseudo ∧
      mpks.mapM PointSerde.toGk = .ok ((List.range n).map (fun i => d.sk i • gk)) ∧
      gpk.toG2 = .ok (smul2 (F 0) g2) ∧
      vks.mapM PointSerde.toG1 = .ok ((List.range' 1 n).map (fun i : ℕ => F (i : Fr) • g1)) ∧
      ins.length = n ∧ evals.length = n ∧
      (∀ i, 1 ≤ i → i ≤ n →
        f.member i = some (Client.keygen (d.sk (i - 1))) ∧
        (∃ l, Client.proveInstance infPanics cfg i mpks (d.draw (i - 1)) = .ok l ∧
          ins[i - 1]? = some (l.map writeField)) ∧
        ∃ share e, f.share i = some share ∧ share.read = .ok ⟨i, F (i : Fr), F (i : Fr) • g1⟩ ∧
          Client.derive cfg ins (some (i, Client.keygen (d.sk (i - 1)))) =
            .ok ⟨gpk, vks, some share⟩ ∧
          evals[i - 1]? = some e ∧
          Client.eval keccak h2c cfg i share input (d.nonce (i - 1)) = .ok e ∧
          Client.verifyEval keccak h2c cfg i e vks input = .ok ()) ∧
      Client.combine E keccak h2c cfg evals gpk vks input false = .ok pseudo ∧
      Client.verifyFinal E keccak h2c pseudo gpk input = .ok () ∧
      ∃ p, pseudo.read = .ok p ∧ p.proof = F 0 • h2c input ∧
        p.value = Word.bytes (keccak
          (beBytes 32 (coords p.proof).1.val ++ beBytes 32 (coords p.proof).2.val)) := by
  intro cfg F
  obtain ⟨G, hGl, hG⟩ := group_poly t n d.draw
  have hFG : ∀ x, F x = Spec.poly G x := by
    intro x
    rw [← hG x, List.map_map]
    exact (list_sum_range n _).symm
  obtain ⟨f1, hf1⟩ : ∃ f1, f1 = mockMembers cfg d.sk before := ⟨_, rfl⟩
  obtain ⟨pks, hpks⟩ : ∃ pks, pks = (List.range n).map (fun i => d.sk i • gk) := ⟨_, rfl⟩
  have hpl : pks.length = n := by rw [hpks, List.length_map, List.length_range]
  have hmem : ∀ i, i < n → f1.member (i + 1) = some (Client.keygen (d.sk i)) := by
    intro i hi
    rw [hf1]
    exact mock_members_file n t d.sk before hi
  have hrd : ∀ sk : Fq, (Client.keygen sk).read = .ok (MemberKey.random sk) :=
    fun sk => C17_roundtrip.1 _ rfl
  have hdkg := mockDkg_ok infPanics t n ht htn d.sk d.draw hfin f1
    (fun i hi => ⟨_, hmem i hi, hrd _⟩) G hG
  rw [← hpks] at hdkg
  obtain ⟨f2, hf2⟩ : ∃ f2, f2 = afterDkg t n pks d.draw G f1 := ⟨_, rfl⟩
  rw [← hf2] at hdkg
  have hshare : ∀ i, i < n → f2.share (i + 1) = some (ShareKeySerde.of (shareOf G i)) := by
    intro i hi
    rw [hf2]
    unfold afterDkg
    dsimp only
    rw [if_pos ⟨by omega, by omega⟩, Nat.add_sub_cancel]
  have hshrd : ∀ i, (ShareKeySerde.of (shareOf G i)).read = .ok (shareOf G i) :=
    fun i => C17_roundtrip.2.1 _ rfl
  have hrand := mockRandom_ok E keccak h2c t n ht htn hn G hGl input d.nonce f2
    (fun i hi => ⟨_, hshare i hi, hshrd i⟩)
    ⟨_, by rw [hf2]; rfl, C17_roundtrip.2.2.2.2.1 _⟩
  have hmock : mock E keccak h2c infPanics cfg true true (some input) d before =
      .ok (afterRandom keccak h2c n G input d.nonce f2) := by
    unfold mock
    dsimp only
    rw [if_pos rfl, if_pos rfl, ← hf1, hdkg, Mock.ok_bind]
    exact hrand
  have hmpks : (((List.range n).map (fun i => MemberKeySerde.of (MemberKey.random (d.sk i)))).map
      (·.pk)).mapM PointSerde.toGk = .ok pks := by
    rw [List.map_map, hpks]
    exact Client.mapM_map_ok PointSerde.toGk _ _ _ (fun i _ => C17_points.2.2.2.2.1 _)
  -- the commands on the files
  have hins : ((List.range n).map (fun j =>
      (encParams (Client.paramsOf n pks (dealing t (d.draw j))) pks).map writeField)).mapM
      (fun l => l.mapM (readField r)) =
      .ok ((List.range n).map (fun j => encParams (Client.paramsOf n pks (dealing t (d.draw j))) pks)) :=
    Client.mapM_map_ok _ _ _ _ (fun j _ =>
      (Client.mapM_map_ok (readField r) writeField id _ (fun x _ => (C17_write_read.1 x).2)).trans
        (by rw [List.map_id]))
  have hpps : ((List.range n).map (fun j =>
      encParams (Client.paramsOf n pks (dealing t (d.draw j))) pks)).mapM
      (fun s => do let p ← fromInstance ⟨t, n⟩ s; return p.1) =
      .ok (((List.range n).map (fun j => dealing t (d.draw j))).map (Client.paramsOf n pks)) := by
    rw [List.map_map]
    refine Client.mapM_map_ok _ _ _ _ (fun j _ => ?_)
    rw [fromInstance_ok t n pks hpl]
    rfl
  have hne : (List.range n).map (fun j => dealing t (d.draw j)) ≠ [] := by
    intro h
    have := congrArg List.length h
    rw [List.length_map, List.length_range, List.length_nil] at this
    omega
  have hci : ∀ i, i < n → Client.checkIndex ⟨t, n⟩ (i + 1) = .ok () := by
    intro i hi
    unfold Client.checkIndex
    rw [if_neg]
    simp only
    omega
  have hkey : ∀ i, i < n → pks[i]? = some (d.sk i • gk) := by
    intro i hi
    rw [hpks, List.getElem?_map, List.getElem?_range hi]
    rfl
  have hevl : ((List.range n).map (fun i => PartialEvalSerde.of
      (DkgShareKey.evaluate keccak h2c (shareOf G i) input (d.nonce i)))).mapM PartialEvalSerde.read =
      .ok ((List.range n).map (fun i => DkgShareKey.evaluate keccak h2c (shareOf G i) input (d.nonce i))) :=
    Client.mapM_map_ok _ _ _ _ (fun i _ => C17_roundtrip.2.2.2.2.2.1 _)
  have hvkl : ((List.range n).map (fun i => Spec.poly G ((i + 1 : ℕ) : Fr) • g1)).length = n := by
    rw [List.length_map, List.length_range]
  have hver : ∀ i, i < n → Spec.Verifies keccak h2c ⟨t, n⟩ input
      ((List.range n).map (fun i => Spec.poly G ((i + 1 : ℕ) : Fr) • g1))
      (DkgShareKey.evaluate keccak h2c (shareOf G i) input (d.nonce i)) := by
    intro i hi
    refine ⟨Spec.poly G ((i + 1 : ℕ) : Fr) • g1, ?_, eval_verify keccak h2c t n G hi input _⟩
    show _[i + 1 - 1]? = _
    rw [Nat.add_sub_cancel, List.getElem?_map, List.getElem?_range hi]
    rfl
  have hcomb : Client.combine E keccak h2c ⟨t, n⟩ ((List.range n).map (fun i => PartialEvalSerde.of
      (DkgShareKey.evaluate keccak h2c (shareOf G i) input (d.nonce i))))
      (Point2Serde.ofG2 (smul2 (Spec.poly G 0) g2))
      (((List.range n).map (fun i => Spec.poly G ((i + 1 : ℕ) : Fr) • g1)).map PointSerde.ofG1)
      input false = .ok (PseudoRandomSerde.of
        ⟨Spec.poly G 0 • h2c input, hashPoint keccak (Spec.poly G 0 • h2c input)⟩) := by
    have hall : Spec.verifying keccak h2c ⟨t, n⟩ input
        ((List.range n).map (fun i => Spec.poly G ((i + 1 : ℕ) : Fr) • g1))
        ((List.range n).map (fun i => DkgShareKey.evaluate keccak h2c (shareOf G i) input (d.nonce i))) =
        (List.range n).map (fun i => DkgShareKey.evaluate keccak h2c (shareOf G i) input (d.nonce i)) := by
      unfold Spec.verifying
      rw [List.filter_eq_self]
      intro e he
      obtain ⟨i, hi, rfl⟩ := List.mem_map.1 he
      exact (@decide_eq_true_iff _ (Classical.propDecidable _)).2 (hver i (List.mem_range.1 hi))
    refine ((C46_combine_spec E keccak h2c ⟨t, n⟩ _ _ _ input _ _ _ hevl (C17_points.2.2.2.2.2 _)
      (read_vks _) hvkl).1 _).2 ⟨?_, ?_, _, ?_, ?_, rfl⟩
    · intro e he
      obtain ⟨i, hi, rfl⟩ := List.mem_map.1 he
      have hi := List.mem_range.1 hi
      exact ⟨by show 1 ≤ i + 1; omega, by show i + 1 ≤ n; omega⟩
    · rw [hall, List.length_map, List.length_range]
      exact htn
    · rw [hall]
      exact combine_first keccak h2c t n ht htn hn G hGl input d.nonce
    · exact (C07_pseudorandom_verify_iff E keccak h2c _ input (Spec.poly G 0)).1.2
        ⟨rfl, hashPoint_eq _ _⟩
  obtain ⟨f, hf⟩ : ∃ f, f = afterRandom keccak h2c n G input d.nonce f2 := ⟨_, rfl⟩
  rw [← hf] at hmock
  refine ⟨f, (((List.range n).map (fun i => MemberKeySerde.of (MemberKey.random (d.sk i)))).map (·.pk)),
    (List.range n).map (fun j =>
      (encParams (Client.paramsOf n pks (dealing t (d.draw j))) pks).map writeField),
    Point2Serde.ofG2 (smul2 (Spec.poly G 0) g2),
    ((List.range n).map (fun i => Spec.poly G ((i + 1 : ℕ) : Fr) • g1)).map PointSerde.ofG1,
    (List.range n).map (fun i => PartialEvalSerde.of
      (DkgShareKey.evaluate keccak h2c (shareOf G i) input (d.nonce i))),
    PseudoRandomSerde.of ⟨Spec.poly G 0 • h2c input, hashPoint keccak (Spec.poly G 0 • h2c input)⟩,
    hmock, by rw [hf, hf2, hf1]; rfl, by rw [hf, hf2]; rfl, by rw [hf, hf2]; rfl, by rw [hf, hf2]; rfl,
    by rw [hf]; rfl, by rw [hf]; rfl, by rw [hmpks, hpks], ?_, ?_,
    by rw [List.length_map, List.length_range], by rw [List.length_map, List.length_range], ?_, hcomb,
    ?_, ⟨Spec.poly G 0 • h2c input, hashPoint keccak (Spec.poly G 0 • h2c input)⟩,
    C17_roundtrip.2.2.2.2.2.2 _, ?_, hashPoint_eq _ _⟩
  · rw [hFG]
    exact C17_points.2.2.2.2.2 _
  · rw [read_vks, List.range'_eq_map_range, List.map_map]
    simp only [Function.comp_def, hFG, Nat.add_comm 1]
  · intro i h1 h2
    obtain ⟨k, rfl⟩ : ∃ k, i = k + 1 := ⟨i - 1, by omega⟩
    have hk : k < n := by omega
    rw [Nat.add_sub_cancel, hFG]
    refine ⟨by rw [hf, hf2]; exact hmem k hk, ⟨_, ?_, by rw [List.getElem?_map, List.getElem?_range hk]; rfl⟩,
      ShareKeySerde.of (shareOf G k), _, by rw [hf]; exact hshare k hk, hshrd k, ?_,
      by rw [List.getElem?_map, List.getElem?_range hk]; rfl, ?_, ?_⟩
    · unfold Client.proveInstance
      rw [hci k hk, ok_bind', hmpks, Props.lift_bind, new_ok t n ht (by omega) pks hpl, Props.lift_bind]
      dsimp only
      rw [instance_ok infPanics t n ht pks hpl (d.draw k) (fun h => hfin h k hk)]
      rfl
    · unfold Client.derive
      rw [hins, Props.lift_bind, hpps, Props.lift_bind, Client.global_dealt hne hG, Props.lift_bind]
      dsimp only
      rw [hci k hk, ok_bind', hrd, Props.lift_bind, Client.share_dealt hG hk (hkey k hk), Props.lift_bind]
      have := share_verify t n G hk
      unfold shareOf globalOf at this
      dsimp only at this
      rw [this]
      rfl
    · unfold Client.eval
      rw [hci k hk, ok_bind', hshrd, Props.lift_bind]
      rfl
    · unfold Client.verifyEval
      rw [hci k hk, ok_bind', C17_roundtrip.2.2.2.2.2.1, Props.lift_bind, read_vks, Props.lift_bind]
      have hg : getOrPanic ((List.range n).map (fun i => Spec.poly G ((i + 1 : ℕ) : Fr) • g1))
          (k + 1 - 1) = .ok (Spec.poly G ((k + 1 : ℕ) : Fr) • g1) := by
        unfold getOrPanic
        rw [Nat.add_sub_cancel, List.getElem?_map, List.getElem?_range hk]
        rfl
      rw [hg, Props.lift_bind, eval_verify keccak h2c t n G hk]
      rfl
  · unfold Client.verifyFinal
    rw [C17_roundtrip.2.2.2.2.2.2, Props.lift_bind, C17_points.2.2.2.2.2, Props.lift_bind,
      (C07_pseudorandom_verify_iff E keccak h2c _ input (Spec.poly G 0)).1.2 ⟨rfl, hashPoint_eq _ _⟩]
    rfl
  · rw [hFG]

/-- The hypotheses of C69 on draws are met, e.g. by constant polynomials 1. -/
example (n : ℕ) : ∀ j, j < n → (fun _ k => if k = 0 then (1 : Fr) else 0) j 0 ≠ (0 : Fr) ∧
    ∀ i, 1 ≤ i → i ≤ n → Spec.poly ((List.range 2).map
      ((fun _ k => if k = 0 then (1 : Fr) else 0 : ℕ → ℕ → Fr) j)) ((i : ℕ) : Fr) ≠ 0 := by
  intro j _
  have h1 : (1 : Fr) ≠ 0 := one_ne_zero
  refine ⟨by simp only [if_true]; exact h1, fun i _ _ => ?_⟩
  have : (List.range 2).map ((fun _ k => if k = 0 then (1 : Fr) else 0 : ℕ → ℕ → Fr) j) = [1, 0] := rfl
  rw [this]
  simp [Spec.poly]

/-- C69. The three steps can be run in one command or in three, with the same result. -/
theorem C69_steps (E : BnPairing) (keccak : Keccak) (h2c : List Byte → G1) (infPanics : Bool)
    (cfg : DkgConfig) (d d' d'' : Draws) (input : List Byte) (before : Files) :
    (do
      let f1 ← mock E keccak h2c infPanics cfg true false none d before
      let f2 ← mock E keccak h2c infPanics cfg false true none d' f1
      mock E keccak h2c infPanics cfg false false (some input) d'' f2) =
    mock E keccak h2c infPanics cfg true true (some input) ⟨d.sk, d'.draw, d''.nonce⟩ before := by
  unfold mock
  simp only [if_true, Bool.false_eq_true, if_false, Mock.ok_bind, bind_pure]

theorem mapM_ok_inv {ε α β : Type} (f : α → Except ε β) : ∀ {l : List α} {l' : List β},
    l.mapM f = .ok l' → List.Forall₂ (fun a b => f a = .ok b) l l'
  | [], l', h => by cases h; exact .nil
  | a :: l, l', h => by
    rw [List.mapM_cons] at h
    cases ha : f a with
    | error e => rw [ha] at h; cases h
    | ok b =>
      cases hl : l.mapM f with
      | error e => rw [ha, hl] at h; cases h
      | ok bs =>
        rw [ha, hl] at h
        cases h
        exact .cons ha (mapM_ok_inv f hl)

theorem forall₂_get {α β : Type} {R : α → β → Prop} : ∀ {l : List α} {l' : List β},
    List.Forall₂ R l l' → l.length = l'.length ∧ ∀ {i : ℕ} {a : α}, l[i]? = some a → ∃ b, l'[i]? = some b ∧ R a b
  | _, _, .nil => ⟨rfl, fun {i} {a} h => by cases h⟩
  | _, _, .cons (a := x) (b := y) (l₁ := l) (l₂ := l') h1 h2 => by
    obtain ⟨e, ih⟩ := forall₂_get h2
    refine ⟨by rw [List.length_cons, List.length_cons, e], fun {i} {a} h => ?_⟩
    cases i with
    | zero => cases h; exact ⟨y, rfl, h1⟩
    | succ i => exact ih h

/-- C69. `mock --dkg` on any directory: for `0 < t ≤ n`, with draws that give finite points, it succeeds
if and only if for each of the `n` members there is a file with a secret and the public key of this
secret. -/
theorem C69_dkg_iff (infPanics : Bool) (t n : ℕ) (ht : 0 < t) (htn : t ≤ n)
    (draw : ℕ → ℕ → Fr)
    (hfin : infPanics = true → ∀ j, j < n → draw j 0 ≠ 0 ∧
      ∀ i, 1 ≤ i → i ≤ n → Spec.poly ((List.range t).map (draw j)) (i : Fr) ≠ 0) (f : Files) :
    (∃ f', mockDkg infPanics ⟨t, n⟩ draw f = .ok f') ↔
      ∀ i, 1 ≤ i → i ≤ n → ∃ m sk, f.member i = some m ∧ readField q m.sk = .ok sk ∧
        m.pk.toGk = .ok (sk • gk) := by
  constructor
  · rintro ⟨f', h⟩ i h1 h2
    unfold mockDkg at h
    dsimp only at h
    cases hm : (List.range n).mapM (fun i => do
        let m ← file (f.member (i + 1))
        lift m.read) with
    | error e => rw [hm] at h; cases h
    | ok ms =>
      obtain ⟨_, hget⟩ := forall₂_get (mapM_ok_inv _ hm)
      obtain ⟨k, hk, hrd⟩ := hget (List.getElem?_range (show i - 1 < n by omega))
      rw [Nat.sub_add_cancel h1] at hrd
      cases hfi : f.member i with
      | none => rw [hfi] at hrd; cases hrd
      | some m =>
        rw [hfi, file_bind] at hrd
        cases hmr : m.read with
        | error e => rw [hmr] at hrd; cases hrd
        | ok k' =>
          obtain ⟨e1, e2, e3⟩ := (C17_key_files.1 m k').1 hmr
          exact ⟨m, k'.sk, rfl, e1, by rw [e2, e3]⟩
  · intro h
    obtain ⟨F, _, hF⟩ := group_poly t n draw
    have hex : ∀ i, ∃ sk : Fq, i < n → ∃ m, f.member (i + 1) = some m ∧
        m.read = .ok (MemberKey.random sk) := by
      intro i
      by_cases hi : i < n
      · obtain ⟨m, sk, h1, h2, h3⟩ := h (i + 1) (by omega) (by omega)
        exact ⟨sk, fun _ => ⟨m, h1, (C17_key_files.1 m _).2 ⟨h2, h3, rfl⟩⟩⟩
      · exact ⟨0, fun h => absurd h hi⟩
    choose sk hsk using hex
    exact ⟨_, mockDkg_ok infPanics t n ht htn sk draw hfin f hsk F hF⟩

/-- C69. `mock --rand` on any directory, also one with manipulated files: if it succeeds, it changes
only the files of evaluations and of the pseudorandom; the evaluations are those of the share files,
each verifying under the key at its position in `gpp.json`; the pseudorandom is the combination of the
first `t`, and verifies under the group key in `gpp.json`. -/
theorem C69_random_sound (E : BnPairing) (keccak : Keccak) (h2c : List Byte → G1) (cfg : DkgConfig)
    (input : List Byte) (nonce : ℕ → Fr) (f f' : Files)
    (h : mockRandom E keccak h2c cfg input nonce f = .ok f') :
    ∃ (gf : GlobalParamsSerde) (gpp : DkgGlobalPubParams) (evals : List PartialEval) (p : PseudoRandom),
      f.gpp = some gf ∧ gf.read = .ok gpp ∧
      f' = { f with evals := some (evals.map PartialEvalSerde.of), pseudo := some (PseudoRandomSerde.of p) } ∧
      evals.length = cfg.numberOfMembers ∧ cfg.threshold ≤ cfg.numberOfMembers ∧
      (∀ i, 1 ≤ i → i ≤ cfg.numberOfMembers → ∃ sf share e vk, f.share i = some sf ∧
        sf.read = .ok share ∧ evals[i - 1]? = some e ∧
        e = DkgShareKey.evaluate keccak h2c share input (nonce (i - 1)) ∧
        gpp.verifyKeys[i - 1]? = some vk ∧ e.verify keccak h2c cfg input vk = .ok ()) ∧
      combinePartialEvaluations keccak cfg (evals.take cfg.threshold) = .ok p ∧
      p.verify E keccak h2c input gpp.g2a = .ok () := by
  unfold mockRandom at h
  cases hs : (List.range cfg.numberOfMembers).mapM (fun i => do
      let s ← file (f.share (i + 1))
      lift s.read) with
  | error e => rw [hs] at h; cases h
  | ok shares =>
    rw [hs, Mock.ok_bind] at h
    cases hg : f.gpp with
    | none => rw [hg] at h; cases h
    | some gf =>
      rw [hg, file_bind] at h
      cases hgr : gf.read with
      | error e => rw [hgr] at h; cases h
      | ok gpp =>
        rw [hgr, Mock.lift_bind] at h
        cases he : shares.zipIdx.mapM (fun si => do
            let sigma := DkgShareKey.evaluate keccak h2c si.1 input (nonce si.2)
            let vk ← lift (getOrPanic gpp.verifyKeys si.2)
            lift (sigma.verify keccak h2c cfg input vk)
            return sigma) with
        | error e => dsimp only at h he; rw [he] at h; cases h
        | ok evals =>
          dsimp only at h he
          rw [he, Mock.ok_bind] at h
          split at h
          · cases h
          · next hlt =>
            cases hc : combinePartialEvaluations keccak cfg (evals.take cfg.threshold) with
            | error e => rw [hc] at h; cases h
            | ok p =>
              rw [hc, Mock.lift_bind] at h
              cases hv : p.verify E keccak h2c input gpp.g2a with
              | error e => rw [hv] at h; cases h
              | ok u =>
                rw [hv, Mock.lift_bind] at h
                obtain ⟨l1, g1'⟩ := forall₂_get (mapM_ok_inv _ hs)
                obtain ⟨l2, g2'⟩ := forall₂_get (mapM_ok_inv _ he)
                rw [List.length_range] at l1
                rw [List.length_zipIdx] at l2
                refine ⟨gf, gpp, evals, p, rfl, hgr, (Except.ok.inj h).symm.trans (by unfold saveEvals; rw [hg]), by omega, by omega, ?_, hc, hv⟩
                intro i h1 h2
                obtain ⟨share, e1, e2⟩ := g1' (List.getElem?_range (show i - 1 < _ by omega))
                rw [Nat.sub_add_cancel h1] at e2
                cases hfi : f.share i with
                | none => rw [hfi] at e2; cases e2
                | some sf =>
                  rw [hfi, file_bind] at e2
                  cases hsr : sf.read with
                  | error e => rw [hsr] at e2; cases e2
                  | ok share' =>
                    rw [hsr] at e2
                    cases e2
                    have e3 : shares.zipIdx[i - 1]? = some (share, i - 1) := by
                      rw [List.getElem?_zipIdx, e1]
                      simp only [Option.map_some, Nat.zero_add]
                    obtain ⟨e, e4, e5⟩ := g2' e3
                    dsimp only at e5
                    cases hk : gpp.verifyKeys[i - 1]? with
                    | none =>
                      unfold getOrPanic at e5
                      rw [hk] at e5
                      cases e5
                    | some vk =>
                      have hgp : getOrPanic gpp.verifyKeys (i - 1) = .ok vk := by
                        unfold getOrPanic
                        rw [hk]
                      rw [hgp, Mock.lift_bind] at e5
                      cases hev : (DkgShareKey.evaluate keccak h2c share input (nonce (i - 1))).verify
                          keccak h2c cfg input vk with
                      | error e => rw [hev] at e5; cases e5
                      | ok u' =>
                        rw [hev, Mock.lift_bind] at e5
                        cases e5
                        exact ⟨sf, share, _, vk, rfl, hsr, e4, rfl, rfl, hev⟩

/-- C69. In an empty directory the later steps report a missing file. -/
theorem C69_missing_files (E : BnPairing) (keccak : Keccak) (h2c : List Byte → G1) (infPanics : Bool)
    (t n : ℕ) (hn : 1 ≤ n) (d : Draws) (input : List Byte) :
    mock E keccak h2c infPanics ⟨t, n⟩ false true none d Files.empty = .error .noFile ∧
    mock E keccak h2c infPanics ⟨t, n⟩ false false (some input) d Files.empty = .error .noFile ∧
    mock E keccak h2c infPanics ⟨t, n⟩ true false (some input) d Files.empty = .error .noFile := by
  obtain ⟨m, rfl⟩ : ∃ m, n = m + 1 := ⟨n - 1, by omega⟩
  unfold mock mockDkg mockRandom
  simp only [if_true, Bool.false_eq_true, if_false, List.range_succ_eq_map, List.mapM_cons]
  exact ⟨rfl, rfl, rfl⟩

end Verif.Props
