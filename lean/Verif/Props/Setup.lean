import Verif.Lemmas.Entrypoint
import Verif.Spec.Setup
import Verif.Props.Cache

/-!
C45, for the verifier contracts that `client setup` writes.
-/

namespace Verif.Props
open Verif Cache

private theorem str_dir : kzgDir = [46, 47, 107, 122, 103, 95, 112, 97, 114, 97, 109, 115] := by decide
private theorem str_con : strBytes "./contracts" = [46, 47, 99, 111, 110, 116, 114, 97, 99, 116, 115] := by decide
private theorem str_slash : strBytes "/" = [47] := by decide
private theorem str_dash : strBytes "-" = [45] := by decide
private theorem str_suffix : strBytes "-g2.sol" = [45, 103, 50, 46, 115, 111, 108] := by decide
private theorem str_vkc : strBytes "Halo2VerifyingKey" =
    [72, 97, 108, 111, 50, 86, 101, 114, 105, 102, 121, 105, 110, 103, 75, 101, 121] := by decide
private theorem str_vc : strBytes "Halo2Verifier" = [72, 97, 108, 111, 50, 86, 101, 114, 105, 102, 105, 101, 114] := by decide
private theorem str_v : strBytes "Halo2Verifier.sol" =
    [72, 97, 108, 111, 50, 86, 101, 114, 105, 102, 105, 101, 114, 46, 115, 111, 108] := by decide

private theorem contract_other (name : List Byte) : Other kzgDir (contractPath name) := by
  refine ⟨fun d h => ?_, fun c d h => ?_, fun c d h => ?_⟩
  · simp [contractPath, paramsPath, str_con, str_dir] at h
  · simp [contractPath, vkPath, keyPath, str_con, str_dir] at h
  · simp [contractPath, pkPath, keyPath, str_con, str_dir] at h

private theorem contract_inj {a b : List Byte} (h : contractPath a = contractPath b) : a = b :=
  List.append_cancel_left h

private theorem name_inj {s : String} {t n d t' n' d' : ℕ} (h : contractName s t n d = contractName s t' n' d') :
    t = t' ∧ n = n' ∧ d = d' := by
  simp only [contractName, List.append_assoc, str_dash, str_suffix] at h
  have h := List.append_cancel_left (List.append_cancel_left h)
  have h1 := split_unique (dash_not_mem t) (dash_not_mem t') h
  have h2 := split_unique (dash_not_mem n) (dash_not_mem n') h1.2
  have h3 := split_unique (dash_not_mem d) (dash_not_mem d') h2.2
  exact ⟨Zkdvrf.decimal_inj _ _ h1.1, Zkdvrf.decimal_inj _ _ h2.1, Zkdvrf.decimal_inj _ _ h3.1⟩

/-- C45. The files that `setup` writes have different names: the verifier, and for each configuration and degree the contract
with the verifying key and the contract with both; and none of them is a parameter or key file of the cache. -/
theorem C45_contract_names :
    (∀ t n d t' n' d', keyContractPath t n d = keyContractPath t' n' d' → t = t' ∧ n = n' ∧ d = d') ∧
    (∀ t n d t' n' d', jointContractPath t n d = jointContractPath t' n' d' → t = t' ∧ n = n' ∧ d = d') ∧
    (∀ t n d t' n' d', keyContractPath t n d ≠ jointContractPath t' n' d') ∧
    (∀ t n d, keyContractPath t n d ≠ verifierPath ∧ jointContractPath t n d ≠ verifierPath) ∧
    (∀ name d cfg, contractPath name ≠ paramsPath kzgDir d ∧ contractPath name ≠ vkPath kzgDir cfg d ∧
      contractPath name ≠ pkPath kzgDir cfg d) := by
  refine ⟨fun t n d t' n' d' h => name_inj (contract_inj h), fun t n d t' n' d' h => name_inj (contract_inj h),
    fun t n d t' n' d' h => ?_, fun t n d => ⟨fun h => ?_, fun h => ?_⟩, fun name d cfg =>
      ⟨(contract_other name).params d, (contract_other name).vk cfg d, (contract_other name).pk cfg d⟩⟩
  · have h := contract_inj h
    simp [contractName, str_vkc, str_vc] at h
  · have h := contract_inj h
    simp [contractName, str_vkc, str_v] at h
  · have h := contract_inj h
    simp [contractName, str_vc, str_v, str_dash] at h

/-- What `setup` does up to the contracts. -/
private theorem setup_parts (H : Halo2) (hH : H.Lawful) (G : Generator H) (hG : G.Lawful) (M : Params) (hM : M.Wf)
    (hk : M.k = 22) (fs : FS) (hi : Inv H kzgDir M fs) (t n d : ℕ) (skip split : Bool) (w0 w1 w2 w3 w4 : Write) :
    ∃ fs2, Inv H kzgDir M fs2 ∧ (∀ name, fs2 (contractPath name) = fs (contractPath name)) ∧
      (setup H G fs t n d skip split w0 w1 w2 w3 w4 = (fs2, false) ∨
      ∃ cfg v x, DkgConfig.new t n = .ok cfg ∧ H.keygenVk (paramsFor H M d) cfg = some v ∧ G.getVk x = v ∧
        setup H G fs t n d skip split w0 w1 w2 w3 w4 =
          saveContracts H G fs2 cfg (paramsFor H M d) x t n d skip split w3 w4) := by
  unfold setup
  have h0 := keep_lcParams hH hM hk hi d w0
  have h1 := hi.lcParams hH hM hk d w0
  rcases hp : loadOrCreateParams H fs kzgDir d w0 with ⟨fs1, res⟩
  rw [hp] at h0 h1
  cases res with
  | error f => exact ⟨fs1, h1.1, fun name => h0.1.other _ (contract_other name), Or.inl rfl⟩
  | ok p =>
    have := h1.2 p rfl
    subst this
    cases hc : DkgConfig.new t n with
    | error e => exact ⟨fs1, h1.1, fun name => h0.1.other _ (contract_other name), Or.inl rfl⟩
    | ok cfg =>
      simp only
      have h2 := Inv.lcPk hH h1.1 cfg d w1 w2
      have h3 := keep_lcPk hH h1.1 cfg d w1 w2
      rcases hq : loadOrCreatePk H fs1 cfg kzgDir (paramsFor H M d) d w1 w2 with ⟨fs2, res⟩
      rw [hq] at h2 h3
      have ho : ∀ name, fs2 (contractPath name) = fs (contractPath name) := fun name =>
        (h0.1.trans h3.1).other _ (contract_other name)
      cases res with
      | error f => exact ⟨fs2, h2.1, ho, Or.inl rfl⟩
      | ok x =>
        obtain ⟨v, hv, hx⟩ := h2.2 x rfl
        exact ⟨fs2, h2.1, ho, Or.inr ⟨cfg, v, x, rfl, hv, hG _ _ _ _ hx, rfl⟩⟩

/-- A contract file is absent, or a beginning of the right text (the whole of it, unless a write was stopped). -/
private def Right (fs : FS) (p : Path) (texts : Set (List Byte)) : Prop :=
  fs p = none ∨ ∃ b ∈ texts, ∃ k, fs p = some (.file (b.take k))

/-- The contract with the verifying key that belongs to a name. -/
private def keyTexts (H : Halo2) (G : Generator H) (M : Params) (t n d : ℕ) : Set (List Byte) :=
  {b | ∃ v a, TheKey H M t n d v ∧ G.renderSeparately (paramsFor H M d) v (7 * n + 14) = some (a, b)}

private def jointTexts (H : Halo2) (G : Generator H) (M : Params) (t n d : ℕ) : Set (List Byte) :=
  {b | ∃ v, TheKey H M t n d v ∧ G.render (paramsFor H M d) v (7 * n + 14) = some b}

private structure SInv (H : Halo2) (G : Generator H) (M : Params) (fs : FS) : Prop where
  inv : Inv H kzgDir M fs
  key : ∀ t n d, Right fs (keyContractPath t n d) (keyTexts H G M t n d)
  joint : ∀ t n d, Right fs (jointContractPath t n d) (jointTexts H G M t n d)

private theorem inst_size {t n : ℕ} {cfg : DkgConfig} (h : DkgConfig.new t n = .ok cfg) : cfg.instanceSize = 7 * n + 14 := by
  unfold DkgConfig.new at h
  split at h
  · cases h; rfl
  · cases h

private theorem right_write {fs fs' : FS} {p : Path} {b : List Byte} {w : Write} {res : Io Unit} {T : Set (List Byte)}
    (h : writeFile fs p b w = (fs', res)) (hb : b ∈ T) (hr : Right fs p T) : Right fs' p T := by
  rcases writeFile_self h with h' | ⟨k, h'⟩
  · unfold Right; rw [h']; exact hr
  · exact Or.inr ⟨b, hb, k, h'⟩

private theorem Right.of_eq {fs fs' : FS} {p : Path} {T : Set (List Byte)} (h : fs' p = fs p) (hr : Right fs p T) :
    Right fs' p T := by
  unfold Right; rw [h]; exact hr

private theorem inv_write {H : Halo2} {M : Params} {fs fs' : FS} {name : List Byte} {b : List Byte} {w : Write} {res : Io Unit}
    (h : writeFile fs (contractPath name) b w = (fs', res)) (hi : Inv H kzgDir M fs) : Inv H kzgDir M fs' := by
  have ho := contract_other name
  constructor
  · intro d
    rw [writeFile_other h (ho.params d).symm]; exact hi.params d
  · intro c d
    rw [writeFile_other h (ho.vk c d).symm]; exact hi.vk c d
  · intro c d
    rw [writeFile_other h (ho.pk c d).symm]; exact hi.pk c d

private theorem sinv_key {H : Halo2} {G : Generator H} {M : Params} {fs fs' : FS} {t n d : ℕ} {b : List Byte} {w : Write}
    {res : Io Unit} (h : writeFile fs (keyContractPath t n d) b w = (fs', res)) (hb : b ∈ keyTexts H G M t n d)
    (hi : SInv H G M fs) : SInv H G M fs' := by
  refine ⟨inv_write h hi.inv, fun t' n' d' => ?_, fun t' n' d' =>
    .of_eq (writeFile_other h (C45_contract_names.2.2.1 t n d t' n' d').symm) (hi.joint t' n' d')⟩
  by_cases he : keyContractPath t' n' d' = keyContractPath t n d
  · obtain ⟨rfl, rfl, rfl⟩ := C45_contract_names.1 _ _ _ _ _ _ he
    exact right_write h hb (hi.key _ _ _)
  · exact .of_eq (writeFile_other h he) (hi.key t' n' d')

private theorem sinv_joint {H : Halo2} {G : Generator H} {M : Params} {fs fs' : FS} {t n d : ℕ} {b : List Byte} {w : Write}
    {res : Io Unit} (h : writeFile fs (jointContractPath t n d) b w = (fs', res)) (hb : b ∈ jointTexts H G M t n d)
    (hi : SInv H G M fs) : SInv H G M fs' := by
  refine ⟨inv_write h hi.inv, fun t' n' d' =>
    .of_eq (writeFile_other h (C45_contract_names.2.2.1 t' n' d' t n d)) (hi.key t' n' d'), fun t' n' d' => ?_⟩
  by_cases he : jointContractPath t' n' d' = jointContractPath t n d
  · obtain ⟨rfl, rfl, rfl⟩ := C45_contract_names.2.1 _ _ _ _ _ _ he
    exact right_write h hb (hi.joint _ _ _)
  · exact .of_eq (writeFile_other h he) (hi.joint t' n' d')

private theorem sinv_verifier {H : Halo2} {G : Generator H} {M : Params} {fs fs' : FS} {b : List Byte} {w : Write}
    {res : Io Unit} (h : writeFile fs verifierPath b w = (fs', res)) (hi : SInv H G M fs) : SInv H G M fs' :=
  ⟨inv_write h hi.inv, fun t n d => .of_eq (writeFile_other h (C45_contract_names.2.2.2.1 t n d).1) (hi.key t n d),
    fun t n d => .of_eq (writeFile_other h (C45_contract_names.2.2.2.1 t n d).2) (hi.joint t n d)⟩

private theorem sinv_of_eq {H : Halo2} {G : Generator H} {M : Params} {fs fs' : FS} (hi : SInv H G M fs)
    (h : Inv H kzgDir M fs') (ho : ∀ name, fs' (contractPath name) = fs (contractPath name)) : SInv H G M fs' :=
  ⟨h, fun t n d => .of_eq (ho _) (hi.key t n d), fun t n d => .of_eq (ho _) (hi.joint t n d)⟩

private theorem sinv_setup (H : Halo2) (hH : H.Lawful) (G : Generator H) (hG : G.Lawful) (M : Params) (hM : M.Wf)
    (hk : M.k = 22) (fs : FS) (hi : SInv H G M fs) (t n d : ℕ) (skip split : Bool) (w0 w1 w2 w3 w4 : Write) :
    SInv H G M (setup H G fs t n d skip split w0 w1 w2 w3 w4).1 := by
  obtain ⟨fs2, hi2, ho, h⟩ := setup_parts H hH G hG M hM hk fs hi.inv t n d skip split w0 w1 w2 w3 w4
  have hs2 := sinv_of_eq hi hi2 ho
  rcases h with h | ⟨cfg, v, x, hc, hv, hx, h⟩
  · rw [h]; exact hs2
  · rw [h]
    unfold saveContracts
    cases skip with
    | true => exact hs2
    | false =>
      simp only [Bool.false_eq_true, if_false]
      rw [hx, inst_size hc]
      cases split with
      | true =>
        simp only [if_true]
        cases hr : G.renderSeparately (paramsFor H M d) v (7 * n + 14) with
        | none => exact hs2
        | some ab =>
          obtain ⟨a, b⟩ := ab
          simp only
          rcases hw : writeFile fs2 verifierPath a w3 with ⟨fs3, res⟩
          have hs3 := sinv_verifier hw hs2
          cases res with
          | error e => exact hs3
          | ok u =>
            simp only
            rcases hw' : writeFile fs3 (keyContractPath t n d) b w4 with ⟨fs4, res⟩
            have hs4 := sinv_key hw' (show b ∈ keyTexts H G M t n d from ⟨v, a, ⟨cfg, hc, hv⟩, hr⟩) hs3
            cases res <;> exact hs4
      | false =>
        simp only [Bool.false_eq_true, if_false]
        cases hr : G.render (paramsFor H M d) v (7 * n + 14) with
        | none => exact hs2
        | some b =>
          simp only
          rcases hw : writeFile fs2 (jointContractPath t n d) b w3 with ⟨fs3, res⟩
          have hs3 := sinv_joint hw (show b ∈ jointTexts H G M t n d from ⟨v, ⟨cfg, hc, hv⟩, hr⟩) hs2
          cases res <;> exact hs3

private theorem runs_inv (H : Halo2) (hH : H.Lawful) (G : Generator H) (hG : G.Lawful) (M : Params) (fs0 fs : FS)
    (h0 : Fresh kzgDir M fs0) (hr : SetupRuns H G fs0 fs) : Inv H kzgDir M fs := by
  induction hr with
  | init => exact h0.inv
  | step op _ ih =>
    cases op with
    | client op =>
      cases op with
      | params d w => exact (ih.lcParams hH h0.wf h0.deg d w).1
      | vk cfg d w0 w1 => exact (ih.clVk hH h0.wf h0.deg cfg d w0 w1).1
      | pk cfg d w0 w1 w2 => exact (ih.clPk hH h0.wf h0.deg cfg d w0 w1 w2).1
      | remove p => exact ih.remove p
    | setup t n d skip split w0 w1 w2 w3 w4 =>
      obtain ⟨fs2, hi2, _, h⟩ := setup_parts H hH G hG M h0.wf h0.deg _ ih t n d skip split w0 w1 w2 w3 w4
      dsimp only [SetupOp.run]
      rcases h with h | ⟨cfg, v, x, _, _, _, h⟩
      · rw [h]; exact hi2
      · rw [h]
        unfold saveContracts
        cases skip with
        | true => exact hi2
        | false =>
          simp only [Bool.false_eq_true, if_false]
          cases split with
          | true =>
            simp only [if_true]
            cases G.renderSeparately (paramsFor H M d) (G.getVk x) cfg.instanceSize with
            | none => exact hi2
            | some ab =>
              simp only
              rcases hw : writeFile fs2 verifierPath ab.1 w3 with ⟨fs3, res⟩
              have hi3 := inv_write hw hi2
              cases res with
              | error e => exact hi3
              | ok u =>
                simp only
                rcases hw' : writeFile fs3 (keyContractPath t n d) ab.2 w4 with ⟨fs4, res⟩
                have hi4 := inv_write hw' hi3
                cases res <;> exact hi4
          | false =>
            simp only [Bool.false_eq_true, if_false]
            cases G.render (paramsFor H M d) (G.getVk x) cfg.instanceSize with
            | none => exact hi2
            | some b =>
              simp only
              rcases hw : writeFile fs2 (jointContractPath t n d) b w3 with ⟨fs3, res⟩
              have hi3 := inv_write hw hi2
              cases res <;> exact hi3

/-- C45. In every history of the directory, if `setup --split` succeeds for (threshold, members, degree), then the verifier
contract and the verifying-key contract of that name are exactly those generated from the parameters of this degree and the
key of this configuration, for its number of public inputs; and `setup` without `--split` leaves the joint contract. -/
theorem C45_setup_contracts (H : Halo2) (hH : H.Lawful) (G : Generator H) (hG : G.Lawful) (M : Params) (fs0 fs : FS)
    (h0 : Fresh kzgDir M fs0) (hr : SetupRuns H G fs0 fs) (t n d : ℕ) (w0 w1 w2 w3 w4 : Write) (fs' : FS) :
    (setup H G fs t n d false true w0 w1 w2 w3 w4 = (fs', true) →
      ∃ v a b, TheKey H M t n d v ∧ G.renderSeparately (paramsFor H M d) v (7 * n + 14) = some (a, b) ∧
        fs' verifierPath = some (.file a) ∧ fs' (keyContractPath t n d) = some (.file b)) ∧
    (setup H G fs t n d false false w0 w1 w2 w3 w4 = (fs', true) →
      ∃ v b, TheKey H M t n d v ∧ G.render (paramsFor H M d) v (7 * n + 14) = some b ∧
        fs' (jointContractPath t n d) = some (.file b)) := by
  have hi := runs_inv H hH G hG M fs0 fs h0 hr
  constructor
  · intro h
    obtain ⟨fs2, _, _, h'⟩ := setup_parts H hH G hG M h0.wf h0.deg fs hi t n d false true w0 w1 w2 w3 w4
    rcases h' with h' | ⟨cfg, v, x, hc, hv, hx, h'⟩
    · rw [h] at h'; cases h'
    · rw [h] at h'
      unfold saveContracts at h'
      simp only [Bool.false_eq_true, if_false, if_true] at h'
      rw [hx, inst_size hc] at h'
      cases hg : G.renderSeparately (paramsFor H M d) v (7 * n + 14) with
      | none => rw [hg] at h'; cases h'
      | some ab =>
        obtain ⟨a, b⟩ := ab
        rw [hg] at h'
        dsimp only at h'
        rcases hw : writeFile fs2 verifierPath a w3 with ⟨fs3, res⟩
        rw [hw] at h'
        cases res with
        | error e => cases h'
        | ok u =>
          dsimp only at h'
          rcases hw' : writeFile fs3 (keyContractPath t n d) b w4 with ⟨fs4, res⟩
          rw [hw'] at h'
          cases res with
          | error e => cases h'
          | ok u' =>
            cases h'
            have e3 := writeFile_ok (by simpa using hw)
            have e4 := writeFile_ok (by simpa using hw')
            refine ⟨v, a, b, ⟨cfg, hc, hv⟩, hg, ?_, ?_⟩
            · rw [e4, Function.update_of_ne (C45_contract_names.2.2.2.1 t n d).1.symm, e3]
              exact Function.update_self _ _ _
            · rw [e4]; exact Function.update_self _ _ _
  · intro h
    obtain ⟨fs2, _, _, h'⟩ := setup_parts H hH G hG M h0.wf h0.deg fs hi t n d false false w0 w1 w2 w3 w4
    rcases h' with h' | ⟨cfg, v, x, hc, hv, hx, h'⟩
    · rw [h] at h'; cases h'
    · rw [h] at h'
      unfold saveContracts at h'
      simp only [Bool.false_eq_true, if_false] at h'
      rw [hx, inst_size hc] at h'
      cases hg : G.render (paramsFor H M d) v (7 * n + 14) with
      | none => rw [hg] at h'; cases h'
      | some b =>
        rw [hg] at h'
        dsimp only at h'
        rcases hw : writeFile fs2 (jointContractPath t n d) b w3 with ⟨fs3, res⟩
        rw [hw] at h'
        cases res with
        | error e => cases h'
        | ok u =>
          cases h'
          have e3 := writeFile_ok (by simpa using hw)
          exact ⟨v, b, ⟨cfg, hc, hv⟩, hg, by rw [e3]; exact Function.update_self _ _ _⟩

/-- C45. The contract fits every prover and every verifier: if on one machine, after any history, `setup --split` succeeds, then
on any other machine with any history of its own (from the same published parameters), a client that has loaded or created its
proving key for this configuration and degree has the very verifying key that the contract was generated from, and so has a
client that has loaded or created its verifying key. -/
theorem C45_contract_serves (H : Halo2) (hH : H.Lawful) (G : Generator H) (hG : G.Lawful) (M : Params) (fs0 fs gs0 gs : FS)
    (h0 : Fresh kzgDir M fs0) (hr : SetupRuns H G fs0 fs) (g0 : Fresh kzgDir M gs0) (gr : SetupRuns H G gs0 gs)
    (t n d : ℕ) (cfg : DkgConfig) (hc : DkgConfig.new t n = .ok cfg) (w0 w1 w2 w3 w4 : Write) (fs' : FS)
    (hs : setup H G fs t n d false true w0 w1 w2 w3 w4 = (fs', true)) :
    ∃ v a b, G.renderSeparately (paramsFor H M d) v (7 * n + 14) = some (a, b) ∧
      fs' verifierPath = some (.file a) ∧ fs' (keyContractPath t n d) = some (.file b) ∧
      (∀ u0 u1 u2 gs' x, clientPk H gs cfg kzgDir d u0 u1 u2 = (gs', .ok x) →
        G.getVk x = v ∧ H.keygenPk (paramsFor H M d) v cfg = some x) ∧
      (∀ u0 u1 gs' v', clientVk H gs cfg kzgDir d u0 u1 = (gs', .ok v') → v' = v) := by
  obtain ⟨v, a, b, ⟨cfg', hc', hv⟩, h1, h2, h3⟩ :=
    (C45_setup_contracts H hH G hG M fs0 fs h0 hr t n d w0 w1 w2 w3 w4 fs').1 hs
  rw [hc] at hc'
  cases hc'
  have gi := runs_inv H hH G hG M gs0 gs g0 gr
  refine ⟨v, a, b, h1, h2, h3, fun u0 u1 u2 gs' x hx => ?_, fun u0 u1 gs' v' hx => ?_⟩
  · obtain ⟨v', hv', hx'⟩ := (gi.clPk hH g0.wf g0.deg cfg d u0 u1 u2).2 x (by rw [hx])
    rw [hv] at hv'
    cases hv'
    exact ⟨hG _ _ _ _ hx', hx'⟩
  · have := (gi.clVk hH g0.wf g0.deg cfg d u0 u1).2 v' (by rw [hx])
    rw [hv] at this
    cases this
    rfl

/-- C45. In every history that starts without contracts, a contract file with a configuration and degree in its name, if it
exists, holds what is generated for exactly this configuration and degree, or a beginning of it after a write that was stopped. -/
theorem C45_contract_files (H : Halo2) (hH : H.Lawful) (G : Generator H) (hG : G.Lawful) (M : Params) (fs0 fs : FS)
    (h0 : Fresh kzgDir M fs0) (hnone : ∀ name, fs0 (contractPath name) = none) (hr : SetupRuns H G fs0 fs) (t n d : ℕ) :
    (fs (keyContractPath t n d) = none ∨ ∃ v a b k, TheKey H M t n d v ∧
      G.renderSeparately (paramsFor H M d) v (7 * n + 14) = some (a, b) ∧
      fs (keyContractPath t n d) = some (.file (b.take k))) ∧
    (fs (jointContractPath t n d) = none ∨ ∃ v b k, TheKey H M t n d v ∧
      G.render (paramsFor H M d) v (7 * n + 14) = some b ∧
      fs (jointContractPath t n d) = some (.file (b.take k))) := by
  have hs : SInv H G M fs := by
    induction hr with
    | init => exact ⟨h0.inv, fun t n d => Or.inl (hnone _), fun t n d => Or.inl (hnone _)⟩
    | step op _ ih =>
      cases op with
      | client op =>
        cases op with
        | params d w =>
          exact sinv_of_eq ih (ih.inv.lcParams hH h0.wf h0.deg d w).1
            (fun name => (keep_lcParams hH h0.wf h0.deg ih.inv d w).1.other _ (contract_other name))
        | vk cfg d w0 w1 =>
          exact sinv_of_eq ih (ih.inv.clVk hH h0.wf h0.deg cfg d w0 w1).1
            (fun name => (keep_clVk hH h0.wf h0.deg ih.inv cfg d w0 w1).other _ (contract_other name))
        | pk cfg d w0 w1 w2 =>
          exact sinv_of_eq ih (ih.inv.clPk hH h0.wf h0.deg cfg d w0 w1 w2).1
            (fun name => (keep_clPk hH h0.wf h0.deg ih.inv cfg d w0 w1 w2).other _ (contract_other name))
        | remove p =>
          refine ⟨ih.inv.remove p, fun t n d => ?_, fun t n d => ?_⟩
          · by_cases h : keyContractPath t n d = p
            · subst h; exact Or.inl (Function.update_self _ _ _)
            · exact .of_eq (Function.update_of_ne h _ _) (ih.key t n d)
          · by_cases h : jointContractPath t n d = p
            · subst h; exact Or.inl (Function.update_self _ _ _)
            · exact .of_eq (Function.update_of_ne h _ _) (ih.joint t n d)
      | setup t n d skip split w0 w1 w2 w3 w4 =>
        exact sinv_setup H hH G hG M h0.wf h0.deg _ ih t n d skip split w0 w1 w2 w3 w4
  refine ⟨?_, ?_⟩
  · rcases hs.key t n d with h | ⟨b, ⟨v, a, hv, hg⟩, k, h⟩
    · exact Or.inl h
    · exact Or.inr ⟨v, a, b, k, hv, hg, h⟩
  · rcases hs.joint t n d with h | ⟨b, ⟨v, hv, hg⟩, k, h⟩
    · exact Or.inl h
    · exact Or.inr ⟨v, b, k, hv, hg, h⟩

/-- C45. From a fresh directory, `setup --split` that nothing disturbs succeeds for every valid configuration and degree up to
22 for which the library can generate the keys and the contracts. -/
theorem C45_setup_works (H : Halo2) (hH : H.Lawful) (G : Generator H) (hG : G.Lawful) (M : Params) (fs0 : FS)
    (h0 : Fresh kzgDir M fs0) (hdir : fs0 kzgDir = some .dir) (hnone : ∀ name, fs0 (contractPath name) = none)
    (t n d : ℕ) (hd : d ≤ 22) (cfg : DkgConfig) (hc : DkgConfig.new t n = .ok cfg) (v : H.Vk) (x : H.Pk)
    (hgv : H.keygenVk (paramsFor H M d) cfg = some v) (hgx : H.keygenPk (paramsFor H M d) v cfg = some x)
    (ab : List Byte × List Byte) (hr : G.renderSeparately (paramsFor H M d) v (7 * n + 14) = some ab) :
    (setup H G fs0 t n d false true .done .done .done .done .done).2 = true := by
  have hmax : HasParams H M kzgDir fs0 22 := by
    unfold HasParams; rw [paramsFor_max]; exact h0.max
  -- the parameters
  have h1 : ∃ fs1, loadOrCreateParams H fs0 kzgDir d .done = (fs1, .ok (paramsFor H M d)) ∧
      ∀ p, p ≠ paramsPath kzgDir d → fs1 p = fs0 p := by
    by_cases he : d = 22
    · subst he
      refine ⟨fs0, ?_, fun _ _ => rfl⟩
      unfold loadOrCreateParams
      rw [hmax.load hH h0.wf h0.deg le_rfl]
    · have hlt : d < maxDegree := by simp only [maxDegree]; omega
      refine ⟨Function.update fs0 (paramsPath kzgDir d) (some (.file (paramsFor H M d).write)), ?_,
        fun p hp => Function.update_of_ne hp _ _⟩
      unfold loadOrCreateParams
      rw [loadParams_none (h0.noParams d he)]
      dsimp only
      rw [show loadParams H fs0 (paramsPath kzgDir maxDegree) maxDegree = .ok (paramsFor H M 22) from
        hmax.load hH h0.wf h0.deg le_rfl, paramsFor_max]
      dsimp only
      rw [if_pos hlt, downsize_eq h0.deg hlt]
      dsimp only [writeFile]
      rw [if_neg (by rw [h0.noParams d he]; simp)]
  obtain ⟨fs1, e1, o1⟩ := h1
  have d1 : fs1 kzgDir = some .dir := by rw [o1 _ (params_ne_dir kzgDir d).symm]; exact hdir
  have v1 : fs1 (vkPath kzgDir cfg d) = none := by rw [o1 _ (params_ne_vk kzgDir d cfg d).symm]; exact h0.noVk cfg d
  have k1 : fs1 (pkPath kzgDir cfg d) = none := by rw [o1 _ (params_ne_pk kzgDir d cfg d).symm]; exact h0.noPk cfg d
  have c1 : ∀ name, fs1 (contractPath name) = none := fun name => by
    rw [o1 _ ((contract_other name).params d)]; exact hnone name
  -- the keys
  have h2 : ∃ fs2, loadOrCreatePk H fs1 cfg kzgDir (paramsFor H M d) d .done .done = (fs2, .ok x) ∧
      ∀ name, fs2 (contractPath name) = none := by
    have l1 : loadVk H fs1 cfg kzgDir d = .error .err := by
      simp only [loadVk, d1, bind, Except.bind, openFile, v1]
    have l2 : loadPk H fs1 cfg kzgDir d = .error .err := by
      simp only [loadPk, d1, bind, Except.bind, openFile, k1]
    have hvk : loadOrCreateVk H fs1 cfg kzgDir (paramsFor H M d) d .done =
        (Function.update fs1 (vkPath kzgDir cfg d) (some (.file (H.writeVk v))), .ok v) := by
      unfold loadOrCreateVk
      rw [if_neg (not_not.mpr d1), l1]
      dsimp only
      rw [hgv]
      dsimp only [writeFile]
      rw [if_neg (by rw [v1]; simp)]
    refine ⟨Function.update (Function.update fs1 (vkPath kzgDir cfg d) (some (.file (H.writeVk v)))) (pkPath kzgDir cfg d)
      (some (.file (H.writePk x))), ?_, fun name => ?_⟩
    · unfold loadOrCreatePk
      rw [if_neg (not_not.mpr d1), l2]
      dsimp only
      rw [hvk]
      dsimp only
      rw [hgx]
      dsimp only [writeFile]
      rw [if_neg (by rw [Function.update_of_ne (vk_ne_pk kzgDir cfg d cfg d).symm, k1]; simp)]
    · rw [Function.update_of_ne ((contract_other name).pk cfg d), Function.update_of_ne ((contract_other name).vk cfg d)]
      exact c1 name
  obtain ⟨fs2, e2, c2⟩ := h2
  unfold setup
  rw [e1]
  dsimp only
  rw [hc]
  dsimp only
  rw [e2]
  dsimp only
  unfold saveContracts
  simp only [Bool.false_eq_true, if_false, if_true]
  rw [hG _ _ _ _ hgx, inst_size hc, hr]
  obtain ⟨a, b⟩ := ab
  dsimp only [writeFile]
  rw [if_neg (by rw [show fs2 verifierPath = none from c2 _]; simp)]
  dsimp only
  rw [if_neg (by
    rw [Function.update_of_ne (C45_contract_names.2.2.2.1 t n d).1, show fs2 (keyContractPath t n d) = none from c2 _]; simp)]

/-! ### Example -/

/-- A generator for `toyHalo2`: the texts are the key and the number of inputs. -/
private def toyGenerator : Generator toyHalo2 where
  getVk := fun x => (show Byte from x) - 1
  renderSeparately := fun _ v n => some ([7], [v, Fin.ofNat 256 n])
  render := fun _ v n => some [7, v, Fin.ofNat 256 n]

private theorem toyGenerator_lawful : toyGenerator.Lawful := by
  intro p v c x h
  have : x = (show Byte from v) + 1 := (Option.some.inj h).symm
  subst this
  show (show Byte from v) + 1 - 1 = v
  exact add_sub_cancel_right _ _

private theorem toyFS_contract (name : List Byte) : toyFS kzgDir (contractPath name) = none := by
  unfold toyFS
  rw [if_neg (fun h => by simp [contractPath, str_con, str_dir] at h), if_neg ((contract_other name).params 22)]

/-- `setup` for 3 of 5 in the fresh volume succeeds. -/
example : (setup toyHalo2 toyGenerator (toyFS kzgDir) 3 5 18 false true .done .done .done .done .done).2 = true := by
  have hf := toyFS_fresh kzgDir
  exact C45_setup_works toyHalo2 toyHalo2_lawful toyGenerator toyGenerator_lawful _ _ hf (if_pos rfl) toyFS_contract
    3 5 18 (by norm_num) ⟨3, 5⟩ rfl _ _ rfl rfl _ rfl

/-- After it the key contract is made of the key and of 49 = 7 · 5 + 14 inputs. -/
example (fs1 : FS) (he : setup toyHalo2 toyGenerator (toyFS kzgDir) 3 5 18 false true .done .done .done .done .done = (fs1, true)) :
    fs1 (keyContractPath 3 5 18) = some (.file [3, 49]) ∧ fs1 verifierPath = some (.file [7]) := by
  have hf := toyFS_fresh kzgDir
  obtain ⟨v, a, b, ⟨cfg, hc, hv⟩, hr, h1, h2⟩ := (C45_setup_contracts toyHalo2 toyHalo2_lawful toyGenerator toyGenerator_lawful _ _ _ hf
    .init 3 5 18 _ _ _ _ _ fs1).1 he
  cases hc
  cases hv
  cases hr
  exact ⟨h2, h1⟩

/-- After any history the contract of 3 of 5 is none, or is a beginning of that text. -/
example (fs3 : FS) (r3 : SetupRuns toyHalo2 toyGenerator (toyFS kzgDir) fs3) :
   (fs3 (keyContractPath 3 5 18) = none ∨ ∃ k, fs3 (keyContractPath 3 5 18) = some (.file (([3, 49] : List Byte).take k))) := by
  have hf := toyFS_fresh kzgDir
  rcases (C45_contract_files toyHalo2 toyHalo2_lawful toyGenerator toyGenerator_lawful _ _ _ hf toyFS_contract r3 3 5 18).1 with
    h | ⟨v, a, b, k, ⟨cfg, hc, hv⟩, hr, h⟩
  · exact Or.inl h
  · cases hc
    cases hv
    cases hr
    exact Or.inr ⟨k, h⟩

/-- The proving key of another machine with any history has the verifying key that the contract was made of. -/
example (gs : FS) (gr : SetupRuns toyHalo2 toyGenerator (toyFS kzgDir) gs) (u0 u1 u2 : Write) (gs' : FS) (x : toyHalo2.Pk)
    (hx : clientPk toyHalo2 gs ⟨3, 5⟩ kzgDir 18 u0 u1 u2 = (gs', .ok x)) :
    ∃ (fs' : FS) (v : toyHalo2.Vk) (a b : List Byte), fs' verifierPath = some (.file a) ∧
      fs' (keyContractPath 3 5 18) = some (.file b) ∧ toyGenerator.getVk x = v ∧
      toyGenerator.renderSeparately (paramsFor toyHalo2 (toyParams 22) 18) v 49 = some (a, b) := by
  have hf := toyFS_fresh kzgDir
  rcases he : setup toyHalo2 toyGenerator (toyFS kzgDir) 3 5 18 false true .done .done .done .done .done with ⟨fs', r⟩
  have hw := C45_setup_works toyHalo2 toyHalo2_lawful toyGenerator toyGenerator_lawful _ _ hf (if_pos rfl) toyFS_contract
    3 5 18 (by norm_num) ⟨3, 5⟩ rfl _ _ rfl rfl _ rfl
  rw [he] at hw
  cases hw
  obtain ⟨v, a, b, h1, h2, h3, h4, -⟩ := C45_contract_serves toyHalo2 toyHalo2_lawful toyGenerator toyGenerator_lawful _ _ _ _ _ hf
    .init hf gr 3 5 18 ⟨3, 5⟩ rfl _ _ _ _ _ fs' he
  exact ⟨fs', v, a, b, h2, h3, (h4 u0 u1 u2 gs' x hx).1, h1⟩

end Verif.Props
