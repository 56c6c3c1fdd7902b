import Verif.Props.FilesMock
import Verif.Props.Instance
import Verif.Lemmas.ServicesFiles
import Verif.Lemmas.Mock
import Verif.Model.Proof

/-! C92: what `dkg prove` leaves on disk passes `dkg verify`. -/

namespace Verif.Props
open Disk Disk.Prog ClientFiles Spec Serde ProofTools ServicesFiles

theorem createProofChecked_some {create : List Fr → Option (List Byte)} {verify : List Byte → List Fr → Bool}
    {ins : List Fr} {proof : List Byte} :
    createProofChecked create verify ins = some proof ↔ create ins = some proof ∧ verify proof ins = true := by
  unfold createProofChecked verifySingle
  cases h : create ins with
  | none => exact ⟨fun h => (by cases h), fun h => (by cases h.1)⟩
  | some p =>
    by_cases hv : verify p ins = true
    · simp only [hv, if_true, Option.bind_eq_bind, Option.bind_some, Option.pure_def]
      exact ⟨fun e => by cases e; exact ⟨rfl, hv⟩, fun e => e.1⟩
    · simp only [hv, Option.bind_eq_bind, Option.bind_some]
      exact ⟨fun e => (by cases e), fun e => by cases e.1; exact absurd e.2 hv⟩

/-- Success of `dkg prove`, taken apart. -/
theorem prove_parts {prover : List Fr → Option (List Byte)} {ip : Bool} {cfg : DkgConfig} {i : ℕ}
    {mpks : List PointSerde} {draw : ℕ → Fr} {proof : List Byte} {file : List (List Char)}
    (h : Client.prove prover ip cfg i mpks draw = .ok (proof, file)) :
    ∃ ins pks, Client.checkIndex cfg i = .ok () ∧ mpks.mapM PointSerde.toGk = .ok pks ∧
      clientPublicKeys cfg ins = .ok pks ∧ prover ins = some proof ∧ file = ins.map writeField := by
  obtain ⟨t, n⟩ := cfg
  unfold Client.prove Client.proveInstance at h
  obtain ⟨ins, h0, h⟩ := bind_ok_iff.1 h
  obtain ⟨_, h2, h0⟩ := bind_ok_iff.1 h0
  obtain ⟨pks, h3, h0⟩ := bind_ok_iff.1 h0
  obtain ⟨dkg, h4, h1⟩ := bind_ok_iff.1 h0
  have h3 := lift_ok_iff.1 h3
  have h4 := lift_ok_iff.1 h4
  have h1 := lift_ok_iff.1 h1
  cases hp : prover ins with
  | none => rw [hp] at h; cases h
  | some pr =>
    rw [hp] at h
    cases h
    have hi : 1 ≤ i ∧ i ≤ n := by
      unfold Client.checkIndex at h2
      split at h2
      · cases h2
      · rename_i hh
        dsimp only at hh
        omega
    have hl : pks.length = n := by
      by_contra hne
      unfold DkgMemberParams.new at h4
      rw [if_pos hne] at h4
      cases h4
    have ht : 0 < t := by
      rcases Nat.eq_zero_or_pos t with rfl | ht
      · exfalso
        unfold DkgMemberParams.new at h4
        rw [if_neg (not_not.2 hl)] at h4
        cases h4
      · exact ht
    have hd := DkgCircuit.new_eq_dealt t n ht (by omega) pks hl _ dkg h4
    obtain ⟨hls, hlc⟩ := DkgCircuit.length_dealt n ((List.range t).map draw) (draw t).val pks
    rw [← hd] at hls hlc
    have hk : dkg.publicKeys = pks := by
      have e := Mock.new_ok t n ht (by omega) pks hl draw
      rw [h4] at e
      rw [Except.ok.inj e]
    rw [hk] at h1
    exact ⟨ins, pks, h2, h3, C16_client_reads_keys ip t n _ pks hls hlc hl ins h1, hp, rfl⟩

/-- C92 (values). If `dkg prove`, with the self-checking prover of the client, succeeds for a member on a
list of keys, then `dkg verify` accepts its proof and instance for the same list of keys; for every
configuration, index, list of keys, randomness and proof system. -/
theorem C92_verify_after_prove (create : List Fr → Option (List Byte)) (verify : List Byte → List Fr → Bool)
    (infPanics : Bool) (cfg : DkgConfig) (i : ℕ) (mpks : List PointSerde) (draw : ℕ → Fr)
    (proof : List Byte) (file : List (List Char))
    (h : Client.prove (createProofChecked create verify) infPanics cfg i mpks draw = .ok (proof, file)) :
    Client.dkgVerify verify cfg i proof file mpks = .ok () := by
  obtain ⟨ins, pks, h1, h2, h3, h4, rfl⟩ := prove_parts h
  have hread : (ins.map writeField).mapM (readField r) = .ok ins :=
    (Client.mapM_map_ok (readField r) writeField id ins (fun x _ => read_write_Fr x)).trans
      (by rw [List.map_id])
  unfold Client.dkgVerify
  refine bind_ok_iff.2 ⟨(), mapError_ok.2 h1, bind_ok_iff.2 ⟨ins, mapError_ok.2 (lift_ok_iff.2 hread),
    bind_ok_iff.2 ⟨pks, mapError_ok.2 (lift_ok_iff.2 h2), bind_ok_iff.2 ⟨pks, mapError_ok.2 (lift_ok_iff.2 h3), ?_⟩⟩⟩⟩
  rw [if_neg (not_not.2 rfl), if_pos (createProofChecked_some.1 h4).2]

/-- C92 (files). After `dkg prove` has succeeded, `dkg verify` for the same member succeeds and changes
nothing, on every disk on which the key list, the proof and the instance are still what they were. -/
theorem C92_verify_after_prove_files (T : Tools) (create : List Fr → Option (List Byte)) (cfg : DkgConfig)
    (ρ ρ' : Random) (i : ℕ) (d d' : Store)
    (h : ((Command.prove i).prog (checked T create) cfg ρ).run d = (d', .ok ())) (d'' : Store)
    (h1 : d'' DataFile.memberKeys.name = d' DataFile.memberKeys.name)
    (h2 : d'' (DataFile.proof i).name = d' (DataFile.proof i).name)
    (h3 : d'' (DataFile.instance_ i).name = d' (DataFile.instance_ i).name) :
    ((Command.dkgVerify i).prog (checked T create) cfg ρ').run d'' = (d'', .ok ()) := by
  obtain ⟨mpks, proof, file, hk, hp, rfl⟩ := (C89_prove _ cfg ρ i d d').1 h
  refine (C89_dkgVerify _ cfg ρ' i d'' d'').2 ⟨rfl, proof, file, mpks, h2.trans ?_, ?_, ?_,
    C92_verify_after_prove create T.verifier _ cfg i mpks _ proof file hp⟩
  · unfold save
    rw [put_ne _ (fun e => by cases DataFile.name_inj (x := .proof i) (y := .instance_ i) trivial trivial e), put_eq]
  · refine (load_same h3).trans ?_
    exact load_save (good_strs _ (by omega : 1 ≤ 127)) _ _
  · refine (load_same h1).trans ?_
    rw [load_save_ne (x := (.instance_ i)) (y := .memberKeys) _ _ trivial trivial (by simp)]
    refine (load_same ?_).trans hk
    exact put_ne _ (fun e => by cases DataFile.name_inj (x := .memberKeys) (y := .proof i) trivial trivial e) _

/-- C92 (rejected proofs). If the verifier rejects what the prover makes, `dkg prove` fails, and it leaves
the disk as it was. -/
theorem C92_rejected (T : Tools) (create : List Fr → Option (List Byte)) (cfg : DkgConfig)
    (ρ : Random) (i : ℕ) (d : Store)
    (h : ∀ ins proof, create ins = some proof → T.verifier proof ins = false) :
    ∃ e, ((Command.prove i).prog (checked T create) cfg ρ).run d = (d, .error e) := by
  have hno : ∀ ins, createProofChecked create T.verifier ins = none := by
    intro ins
    cases hc : createProofChecked create T.verifier ins with
    | none => rfl
    | some p =>
      obtain ⟨a, b⟩ := createProofChecked_some.1 hc
      rw [h ins p a] at b
      cases b
  show ∃ e, (ClientFiles.prove (createProofChecked create T.verifier) T.infPanics cfg i ρ.stream).run d = (d, .error e)
  generalize hx : (ClientFiles.prove (createProofChecked create T.verifier) T.infPanics cfg i ρ.stream).run d = out
  unfold ClientFiles.prove at hx
  simp only [hno, bind_eq] at hx
  cases ha : Client.checkIndex cfg i with
  | error e => rw [ha] at hx; exact ⟨_, hx.symm⟩
  | ok _ =>
    rw [ha] at hx
    change ((readJson mpksPath).bind _).run d = out at hx
    rw [run_readJson_bind] at hx
    split at hx
    · exact ⟨_, hx.symm⟩
    · split at hx
      · exact ⟨_, hx.symm⟩
      · rename_i mpks _
        cases hb : mpks.mapM PointSerde.toGk with
        | error e => rw [hb] at hx; exact ⟨_, hx.symm⟩
        | ok pks =>
          rw [hb] at hx
          change ((lib (DkgMemberParams.new _ cfg pks _)).bind _).run d = out at hx
          cases hc : DkgMemberParams.new Poseidon.hash2 cfg pks ρ.stream with
          | error e => rw [hc] at hx; exact ⟨_, hx.symm⟩
          | ok dkg =>
            rw [hc] at hx
            change ((lib (dkg.publicParams.toInstance _ dkg.publicKeys)).bind _).run d = out at hx
            cases hd : dkg.publicParams.toInstance T.infPanics dkg.publicKeys with
            | error e => rw [hd] at hx; exact ⟨_, hx.symm⟩
            | ok ins => rw [hd] at hx; exact ⟨_, hx.symm⟩

/-- A proof system whose only accepted proof is one zero byte. -/
example (T : Tools) (hi : T.infPanics = false) (hv : T.verifier = fun p _ => decide (p = [0])) (sks : List Fq)
    (ρ ρ' : Random) (i : ℕ) (h1 : 1 ≤ i) (h2 : i ≤ sks.length) (d₀ : Store) :
    let cfg : DkgConfig := ⟨2, sks.length⟩
    let d := save d₀ .memberKeys (sks.map (fun sk => PointSerde.ofGk (sk • gk)))
    (∃ d', ((Command.prove i).prog (checked T (fun _ => some [0])) cfg ρ).run d = (d', .ok ()) ∧
      ((Command.dkgVerify i).prog (checked T (fun _ => some [0])) cfg ρ').run d' = (d', .ok ())) ∧
    ∃ e, ((Command.prove i).prog (checked T (fun _ => some [1])) cfg ρ).run d = (d, .error e) := by
  intro cfg d
  refine ⟨?_, C92_rejected T _ cfg ρ i d ?_⟩
  · have hp : ∃ file, Client.prove (checked T (fun _ => some [0])).prover (checked T (fun _ => some [0])).infPanics cfg i
        (sks.map (fun sk => PointSerde.ofGk (sk • gk))) ρ.stream = .ok ([0], file) := by
      have hnew := Mock.new_ok 2 sks.length (by omega) (by omega) (sks.map (fun sk => sk • gk)) (List.length_map ..) ρ.stream
      have hm : (sks.map (fun sk => PointSerde.ofGk (sk • gk))).mapM PointSerde.toGk =
          .ok (sks.map (fun sk => sk • gk)) := Client.mapM_map_ok _ _ _ sks (fun x _ => C17_points.2.2.2.2.1 _)
      have hc : Client.checkIndex cfg i = .ok () := by
        unfold Client.checkIndex
        rw [if_neg]
        show ¬ (i < 1 ∨ i > sks.length)
        omega
      have hdl := DkgCircuit.new_eq_dealt 2 sks.length (by omega) (by omega) _ (List.length_map ..) _ _ hnew
      have hins := toInstance_eq T.infPanics _ (sks.map (fun sk => sk • gk)) (((DkgCircuit.length_dealt sks.length
        ((List.range 2).map ρ.stream) (ρ.stream 2).val (sks.map (fun sk => sk • gk))).1).trans (List.length_map ..).symm)
      rw [← hdl, hi, if_neg (fun h => by cases h.1)] at hins
      have hip : (checked T (fun _ => some [0])).infPanics = false := hi
      have hpr : ∀ ins, (checked T (fun _ => some [0])).prover ins = some [0] := fun ins =>
        (createProofChecked_some (create := fun _ => some [0]) (verify := T.verifier) (ins := ins)
          (proof := [0])).2 ⟨rfl, by rw [hv]; rfl⟩
      obtain ⟨ins, hins⟩ := (⟨_, hins⟩ : ∃ ins, _ = Except.ok ins)
      refine ⟨ins.map writeField, ?_⟩
      unfold Client.prove Client.proveInstance
      rw [hip]
      refine bind_ok_iff.2 ⟨_, bind_ok_iff.2 ⟨(), hc, bind_ok_iff.2 ⟨_, lift_ok_iff.2 hm,
        bind_ok_iff.2 ⟨_, lift_ok_iff.2 hnew, lift_ok_iff.2 hins⟩⟩⟩, ?_⟩
      rw [hpr]
      rfl
    obtain ⟨file, hp⟩ := hp
    have hr := (C89_prove (checked T (fun _ => some [0])) cfg ρ i d _).2
      ⟨_, _, _, load_save (good_points _ 125) d₀ _, hp, rfl⟩
    exact ⟨_, hr, C92_verify_after_prove_files T _ cfg ρ ρ' i d _ hr _ rfl rfl rfl⟩
  · intro ins proof h
    cases h
    rw [hv]
    rfl

end Verif.Props
