import Verif.Lemmas.Cache

/-! C44 and C45: the parameter and key cache of src/utils.rs. -/

namespace Verif.Props
open Verif.Cache

/-! ### C44 -/

/-- C44. A parameter file whose length is not that of the requested degree, or a missing file, is
rejected with an error (never loaded, never a panic). -/
theorem C44_length_checked (H : Halo2) (fs : FS) (path : Path) (d : ℕ) (hd : d ≤ 56) :
    (fs path = none → loadParams H fs path d = .error .err) ∧
    ∀ b, fs path = some (.file b) → b.length ≠ 4 + 2 ^ d * 64 + 2 ^ d * 64 + 128 + 128 →
      loadParams H fs path d = .error .err :=
  ⟨fun h => loadParams_none h, fun b hb hl => loadParams_len hd hb (by omega)⟩

/-- A file that begins as a complete or interrupted write of `p` is loaded as `p` or not at all. -/
private theorem load_prefix (H : Halo2) (fs : FS) (path : Path) (d : ℕ) (p : Params) (hp : p.Wf)
    (k : ℕ) (hf : fs path = some (.file (p.write.take k))) (p' : Params)
    (h : loadParams H fs path d = .ok p') : p' = p ∧ p.k = d ∧ p.write.length ≤ k := by
  obtain ⟨b, hb, _, hl, hw, rest, hr⟩ := loadParams_ok (by rw [hf]; simp) h
  rw [hf] at hb
  simp only [Option.some.injEq, Entry.file.injEq] at hb
  have hk4 : b.take 4 = leBytes 4 p'.k := by
    rw [hr]
    simp only [Params.write, List.append_assoc]
    exact List.take_left' (length_leBytes 4 _)
  have hk4' : p.write.take 4 = leBytes 4 p.k := by
    simp only [Params.write, List.append_assoc]
    exact List.take_left' (length_leBytes 4 _)
  have hkl : 4 ≤ k := by
    rw [← hb, List.length_take] at hl
    omega
  rw [← hb, List.take_take, Nat.min_eq_left hkl, hk4'] at hk4
  have hkk : p.k = p'.k := leBytes_inj (by simpa using hp.k_lt) (by simpa using hw.k_lt) hk4
  have l1 := length_write hp
  have l2 := length_write hw
  have l3 : b.length = p'.write.length + rest.length := by rw [hr, List.length_append]
  have l4 : b.length ≤ p.write.length := by rw [← hb, List.length_take]; omega
  have l5 : b.length ≤ k := by rw [← hb, List.length_take]; omega
  rw [hkk] at l1
  have hfull : b = p.write := by
    rw [← hb]
    exact List.take_of_length_le (by omega)
  have e1 := readParams_write H.eof hw rest
  have e2 := readParams_write H.eof hp []
  rw [List.append_nil, ← hfull, hr, e1] at e2
  refine ⟨Except.ok.inj e2, ?_, by omega⟩
  rw [hkk]
  exact len_inj (by omega)

/-- C44. Whatever degree is requested, a file that stems from writing some parameters (completely or
interrupted anywhere) is loaded only if the write was complete and of exactly that degree, and then
the parameters written are returned. -/
theorem C44_written_file (H : Halo2) (fs : FS) (path : Path) (d : ℕ) (p : Params) (hp : p.Wf)
    (k : ℕ) (hf : fs path = some (.file (p.write.take k))) :
    (∀ p', loadParams H fs path d = .ok p' → p' = p ∧ p.k = d ∧ p.write.length ≤ k) ∧
    (d ≤ 56 → p.k = d → p.write.length ≤ k → loadParams H fs path d = .ok p) := by
  refine ⟨load_prefix H fs path d p hp k hf, ?_⟩
  rintro h1 rfl h2
  rw [List.take_of_length_le h2] at hf
  exact loadParams_write hp h1 hf

/-- C44. In every history of the cache directory (any runs, failures, crashes, removals), parameters
returned for a degree up to 22 have exactly that degree, and are those cut from the maximal
parameters, whether a file was cached or not. -/
theorem C44_exact_degree (H : Halo2) (hH : H.Lawful) (dir : Path) (M : Params) (fs0 fs : FS)
    (h0 : Fresh dir M fs0) (hr : Runs H dir fs0 fs) (d : ℕ) (w : Write) (p : Params)
    (h : (loadOrCreateParams H fs dir d w).2 = .ok p) :
    p = paramsFor H M d ∧ p.Wf ∧ (d ≤ 22 → p.k = d ∧ p.g = M.g.take (2 ^ d)) := by
  have e := ((hr.inv hH h0).lcParams hH h0.wf h0.deg d w).2 p h
  subst e
  obtain ⟨h1, h2⟩ := paramsFor_wf hH h0.wf h0.deg d
  refine ⟨rfl, h1, fun hd => ⟨by omega, ?_⟩⟩
  unfold paramsFor
  split
  · rfl
  · have : d = 22 := by omega
    subst this
    rw [List.take_of_length_le]
    rw [h0.wf.g_len, h0.deg]

/-- C44. As long as the maximal parameters are intact and the disk accepts the write, a request up to
degree 22 succeeds in every history, in particular after an interrupted write of the same file. -/
theorem C44_available (H : Halo2) (hH : H.Lawful) (dir : Path) (M : Params) (fs0 fs : FS)
    (h0 : Fresh dir M fs0) (hr : Runs H dir fs0 fs)
    (hmax : fs (paramsPath dir 22) = some (.file M.write)) (d : ℕ) (hd : d ≤ 22) :
    (loadOrCreateParams H fs dir d .done).2 = .ok (paramsFor H M d) := by
  have hi := hr.inv hH h0
  unfold loadOrCreateParams
  cases h : loadParams H fs (paramsPath dir d) d with
  | ok p => simp only [(hi.load hH h0.wf h0.deg h).1]
  | error f =>
    have herr : f = .err := by
      rcases hi.params d with h' | ⟨_, k, h'⟩
      · rw [loadParams_none h'] at h
        cases h; rfl
      · obtain ⟨wf, kk⟩ := paramsFor_wf hH h0.wf h0.deg d
        rw [Nat.min_eq_left hd] at kk
        have hlen := length_write wf
        rw [kk] at hlen
        by_cases hk : (paramsFor H M d).write.length ≤ k
        · rw [(C44_written_file H fs _ d _ wf k h').2 (by omega) kk hk] at h
          cases h
        · rw [loadParams_len (by omega) h' (by rw [List.length_take]; omega)] at h
          cases h; rfl
    subst herr
    have hm : loadParams H fs (paramsPath dir maxDegree) maxDegree = .ok M := by
      have := loadParams_write (H := H) h0.wf (by rw [h0.deg]; norm_num) hmax
      rwa [h0.deg] at this
    simp only [hm]
    by_cases hlt : d < maxDegree
    · rw [if_pos hlt, downsize_eq h0.deg hlt]
      simp only [writeFile, if_neg (hi.notDir d)]
    · rw [if_neg hlt]
      have : d = 22 := by unfold maxDegree at hlt; omega
      subst this
      rw [paramsFor_max]

/-- C44, violation. Above degree 22 the function returns parameters of degree 22. -/
theorem C44_violation_large_degree (H : Halo2) (dir : Path) (M : Params) (fs : FS)
    (h0 : Fresh dir M fs) (d : ℕ) (hd : 22 < d) (w : Write) :
    (loadOrCreateParams H fs dir d w).2 = .ok M ∧ M.k ≠ d := by
  unfold loadOrCreateParams
  rw [loadParams_none (h0.noParams d (by omega))]
  have hm : loadParams H fs (paramsPath dir maxDegree) maxDegree = .ok M := by
    have := loadParams_write (H := H) h0.wf (by rw [h0.deg]; norm_num) h0.max
    rwa [h0.deg] at this
  simp only [hm]
  rw [if_neg (by unfold maxDegree; omega)]
  exact ⟨rfl, by rw [h0.deg]; omega⟩

/-- C44, violation. The length check does not look at the degree stored in the file: a file of the
right length that announces a smaller degree is accepted, and yields parameters of that smaller
degree. -/
theorem C44_violation_header (H : Halo2) (fs : FS) (path : Path) (d : ℕ) (hd : d ≤ 56) (p : Params)
    (hp : p.Wf) (hk : p.k < d) (pad : List Byte)
    (hl : (p.write ++ pad).length = 4 + 2 ^ d * 64 + 2 ^ d * 64 + 128 + 128)
    (hf : fs path = some (.file (p.write ++ pad))) :
    loadParams H fs path d = .ok p ∧ p.k ≠ d := by
  refine ⟨?_, by omega⟩
  have he : expectedLen d = .ok (4 + 2 * 2 ^ d * 64 + 256) := by
    unfold expectedLen
    rw [if_neg (by omega)]
  simp only [loadParams, hf, bind, Except.bind, openFile, he]
  rw [if_neg (by rw [hl]; omega)]
  exact readParams_write H.eof hp pad

/-! ### C45 -/

/-- C45. Cache files of different degrees, kinds or configurations have different names. -/
theorem C45_names_distinct (dir : Path) :
    (∀ d d', paramsPath dir d = paramsPath dir d' → d = d') ∧
    (∀ c d c' d', vkPath dir c d = vkPath dir c' d' → c = c' ∧ d = d') ∧
    (∀ c d c' d', pkPath dir c d = pkPath dir c' d' → c = c' ∧ d = d') ∧
    (∀ d c d', paramsPath dir d ≠ vkPath dir c d') ∧
    (∀ d c d', paramsPath dir d ≠ pkPath dir c d') ∧
    (∀ c d c' d', vkPath dir c d ≠ pkPath dir c' d') :=
  ⟨fun _ _ h => paramsPath_inj h, fun _ _ _ _ h => keyPath_inj h, fun _ _ _ _ h => keyPath_inj h,
    params_ne_vk dir, params_ne_pk dir, vk_ne_pk dir⟩

/-- The names are the ones documented. -/
example : vkPath (strBytes "./kzg_params") ⟨3, 5⟩ 18 = strBytes "./kzg_params/vk-g2-3-5-18" ∧
    paramsPath (strBytes "./kzg_params") 22 = strBytes "./kzg_params/params22" := by
  have d3 : decimal 3 = [51] := by rw [decimal.eq_def]; decide
  have d5 : decimal 5 = [53] := by rw [decimal.eq_def]; decide
  have d18 : decimal 18 = [49, 56] := by
    rw [decimal.eq_def, if_neg (by norm_num), decimal.eq_def (18 / 10)]; decide
  have d22 : decimal 22 = [50, 50] := by
    rw [decimal.eq_def, if_neg (by norm_num), decimal.eq_def (22 / 10)]; decide
  simp only [vkPath, keyPath, paramsPath, d3, d5, d18, d22]
  decide

private theorem dir_ne (kind : String) (dir : Path) (c : DkgConfig) (d : ℕ) :
    dir ≠ keyPath kind dir c d := by
  intro h
  have := congrArg List.length h
  have h1 : (strBytes "/").length = 1 := by decide
  simp only [keyPath, List.length_append, h1] at this
  omega

/-- C45. A verifying key that was returned once (created or loaded) is returned again by every later
call on the same files, whatever parameters are passed, and without writing. -/
theorem C45_create_then_load_vk (H : Halo2) (hH : H.Lawful) (fs fs' : FS) (cfg : DkgConfig)
    (dir : Path) (p p' : Params) (d : ℕ) (w w' : Write) (v : H.Vk)
    (h : loadOrCreateVk H fs cfg dir p d w = (fs', .ok v)) :
    loadOrCreateVk H fs' cfg dir p' d w' = (fs', .ok v) := by
  unfold loadOrCreateVk at h
  by_cases hd : fs dir = some .dir
  · rw [if_neg (by simp [hd])] at h
    cases hl : loadVk H fs cfg dir d with
    | ok v' =>
      rw [hl] at h
      obtain ⟨rfl, h2⟩ := Prod.mk.inj h
      cases h2
      unfold loadOrCreateVk
      rw [if_neg (by simp [hd]), hl]
    | error f =>
      rw [hl] at h
      cases f with
      | panic => cases (Prod.mk.inj h).2
      | err =>
        simp only at h
        cases hk : H.keygenVk p cfg with
        | none => rw [hk] at h; cases (Prod.mk.inj h).2
        | some v' =>
          rw [hk] at h
          simp only at h
          rcases hw : writeFile fs (vkPath dir cfg d) (H.writeVk v') w with ⟨fs1, res⟩
          rw [hw] at h
          cases res with
          | error f => cases (Prod.mk.inj h).2
          | ok u =>
            obtain ⟨rfl, h2⟩ := Prod.mk.inj h
            cases h2
            have hfs := writeFile_ok hw
            have hd' : fs1 dir = some .dir := by
              rw [hfs, Function.update_of_ne (show dir ≠ vkPath dir cfg d from dir_ne "vk" dir cfg d)]; exact hd
            have hv' : fs1 (vkPath dir cfg d) = some (.file (H.writeVk v)) := by
              rw [hfs]; exact Function.update_self _ _ _
            unfold loadOrCreateVk
            rw [if_neg (by simp [hd'])]
            have : loadVk H fs1 cfg dir d = .ok v := by
              simp only [loadVk, hd', bind, Except.bind, openFile, hv', hH.vk_read]
            rw [this]
  · rw [if_pos hd] at h
    cases (Prod.mk.inj h).2

/-- C45. The same for proving keys. -/
theorem C45_create_then_load_pk (H : Halo2) (hH : H.Lawful) (fs fs' : FS) (cfg : DkgConfig)
    (dir : Path) (p p' : Params) (d : ℕ) (w1 w2 w1' w2' : Write) (x : H.Pk)
    (h : loadOrCreatePk H fs cfg dir p d w1 w2 = (fs', .ok x)) :
    loadOrCreatePk H fs' cfg dir p' d w1' w2' = (fs', .ok x) := by
  unfold loadOrCreatePk at h
  by_cases hd : fs dir = some .dir
  · rw [if_neg (by simp [hd])] at h
    cases hl : loadPk H fs cfg dir d with
    | ok v' =>
      rw [hl] at h
      obtain ⟨rfl, h2⟩ := Prod.mk.inj h
      cases h2
      unfold loadOrCreatePk
      rw [if_neg (by simp [hd]), hl]
    | error f =>
      rw [hl] at h
      cases f with
      | panic => cases (Prod.mk.inj h).2
      | err =>
        simp only at h
        rcases hv : loadOrCreateVk H fs cfg dir p d w1 with ⟨fs1, res⟩
        rw [hv] at h
        cases res with
        | error f => cases (Prod.mk.inj h).2
        | ok v =>
          have hd1 : fs1 dir = some .dir := by
            have := C45_create_then_load_vk H hH fs fs1 cfg dir p p d w1 w1 v hv
            by_contra hc
            unfold loadOrCreateVk at this
            rw [if_pos hc] at this
            cases (Prod.mk.inj this).2
          simp only at h
          cases hk : H.keygenPk p v cfg with
          | none => rw [hk] at h; cases (Prod.mk.inj h).2
          | some v' =>
            rw [hk] at h
            simp only at h
            rcases hw : writeFile fs1 (pkPath dir cfg d) (H.writePk v') w2 with ⟨fs2, res⟩
            rw [hw] at h
            cases res with
            | error f => cases (Prod.mk.inj h).2
            | ok u =>
              obtain ⟨rfl, h2⟩ := Prod.mk.inj h
              cases h2
              have hfs := writeFile_ok hw
              have hd' : fs2 dir = some .dir := by
                rw [hfs, Function.update_of_ne (show dir ≠ pkPath dir cfg d from dir_ne "pk" dir cfg d)]; exact hd1
              have hv' : fs2 (pkPath dir cfg d) = some (.file (H.writePk x)) := by
                rw [hfs]; exact Function.update_self _ _ _
              unfold loadOrCreatePk
              rw [if_neg (by simp [hd'])]
              have : loadPk H fs2 cfg dir d = .ok x := by
                simp only [loadPk, hd', bind, Except.bind, openFile, hv', hH.pk_read]
              rw [this]
  · rw [if_pos hd] at h
    cases (Prod.mk.inj h).2

/-- C45. In every history of the cache directory with any mixture of configurations and degrees,
failures, crash points and removals, a key returned to the client is exactly the one key generation
yields for its own configuration and degree. -/
theorem C45_history (H : Halo2) (hH : H.Lawful) (dir : Path) (M : Params) (fs0 fs : FS)
    (h0 : Fresh dir M fs0) (hr : Runs H dir fs0 fs) (cfg : DkgConfig) (d : ℕ) (w0 w1 w2 : Write) :
    (∀ v, (clientVk H fs cfg dir d w0 w1).2 = .ok v →
      H.keygenVk (paramsFor H M d) cfg = some v) ∧
    (∀ x, (clientPk H fs cfg dir d w0 w1 w2).2 = .ok x →
      ∃ v, H.keygenVk (paramsFor H M d) cfg = some v ∧
        H.keygenPk (paramsFor H M d) v cfg = some x) := by
  have hi := hr.inv hH h0
  exact ⟨(hi.clVk hH h0.wf h0.deg cfg d w0 w1).2, (hi.clPk hH h0.wf h0.deg cfg d w0 w1 w2).2⟩

/-- C45. A crash at any point inside the write of a parameter file is detected by the next load. -/
theorem C45_crash_detected (H : Halo2) (fs : FS) (dir : Path) (p : Params) (hp : p.Wf) (d : ℕ)
    (hd : p.k = d) (hd' : d ≤ 56) (k : ℕ) (hk : k < p.write.length) (fs' : FS) (res : Io Unit)
    (hw : writeFile fs (paramsPath dir d) p.write (.cut k) = (fs', res))
    (hn : fs (paramsPath dir d) ≠ some .dir) :
    loadParams H fs' (paramsPath dir d) d = .error .err := by
  simp only [writeFile, if_neg hn] at hw
  have hf : fs' (paramsPath dir d) = some (.file (p.write.take k)) := by
    rw [← (Prod.mk.inj hw).1]
    exact Function.update_self _ _ _
  have hl := length_write hp
  rw [hd] at hl
  exact loadParams_len hd' hf (by rw [List.length_take]; omega)

/-- C45. A crash inside the write of a key: if the reader reports the truncated file as an error, the
next call regenerates the key; if it panics, every later call panics and leaves the file as it is. -/
theorem C45_crash_key (H : Halo2) (fs : FS) (cfg : DkgConfig) (dir : Path) (p : Params) (d : ℕ)
    (hdir : fs dir = some .dir) (b : List Byte) (hf : fs (vkPath dir cfg d) = some (.file b)) :
    (H.readVk b = .error .err → ∀ v, H.keygenVk p cfg = some v →
      (loadOrCreateVk H fs cfg dir p d .done).2 = .ok v) ∧
    (H.readVk b = .error .panic → ∀ p' w,
      loadOrCreateVk H fs cfg dir p' d w = (fs, .error .panic)) := by
  constructor
  · intro he v hv
    unfold loadOrCreateVk
    rw [if_neg (by simp [hdir])]
    have : loadVk H fs cfg dir d = .error .err := by
      simp only [loadVk, hdir, bind, Except.bind, openFile, hf, he]
    rw [this]
    simp only [hv, writeFile, hf]
    rw [if_neg (by simp)]
  · intro he p' w
    unfold loadOrCreateVk
    rw [if_neg (by simp [hdir])]
    have : loadVk H fs cfg dir d = .error .panic := by
      simp only [loadVk, hdir, bind, Except.bind, openFile, hf, he]
    rw [this]

/-! ### The hypotheses are met -/

/-- A lawful instance of the external functions: keys are single bytes. -/
def toyHalo2 : Halo2 where
  eof := .panic
  toLagrange := fun _ k => List.replicate (2 ^ k) (List.replicate 64 0)
  Vk := Byte
  Pk := Byte
  keygenVk := fun _ c => some (Fin.ofNat 256 c.threshold)
  keygenPk := fun _ v _ => some (v + 1)
  writeVk := fun v => [v]
  readVk := fun b => match b with | [v] => .ok v | _ => .error .err
  writePk := fun v => [v]
  readPk := fun b => match b with | [v] => .ok v | _ => .error .err

theorem toyHalo2_lawful : toyHalo2.Lawful where
  lagrange_len := fun _ _ _ => List.length_replicate
  lagrange_pt := fun _ _ b hb => by
    rw [List.eq_of_mem_replicate hb]; exact List.length_replicate
  vk_read := fun _ => rfl
  vk_cut := fun v k hk v' => by
    have : k = 0 := by
      have h1 : k < 1 := hk
      omega
    subst this
    simp [toyHalo2]
  pk_read := fun _ => rfl
  pk_cut := fun v k hk v' => by
    have : k = 0 := by
      have h1 : k < 1 := hk
      omega
    subst this
    simp [toyHalo2]

/-- Some parameters of a given degree. -/
def toyParams (k : ℕ) : Params :=
  ⟨k, List.replicate (2 ^ k) (List.replicate 64 1), List.replicate (2 ^ k) (List.replicate 64 2),
    List.replicate 128 3, List.replicate 128 4⟩

theorem toyParams_wf (k : ℕ) (hk : k < 2 ^ 32) : (toyParams k).Wf where
  k_lt := hk
  g_len := List.length_replicate
  gl_len := List.length_replicate
  g_pt := fun b hb => by rw [List.eq_of_mem_replicate hb]; exact List.length_replicate
  gl_pt := fun b hb => by rw [List.eq_of_mem_replicate hb]; exact List.length_replicate
  g2_len := List.length_replicate
  sg2_len := List.length_replicate

/-- A directory holding only the maximal parameters. -/
def toyFS (dir : Path) : FS := fun p =>
  if p = dir then some .dir
  else if p = paramsPath dir 22 then some (.file (toyParams 22).write) else none

private theorem params_ne_dir (dir : Path) (d : ℕ) : paramsPath dir d ≠ dir := by
  intro h
  have := congrArg List.length h
  have h1 : (strBytes "/params").length = 7 := by decide
  simp only [paramsPath, List.length_append, h1] at this
  omega

theorem toyFS_fresh (dir : Path) : Fresh dir (toyParams 22) (toyFS dir) where
  wf := toyParams_wf 22 (by norm_num)
  deg := rfl
  max := by
    unfold toyFS
    rw [if_neg (params_ne_dir dir 22), if_pos rfl]
  noParams := fun d hd => by
    unfold toyFS
    rw [if_neg (params_ne_dir dir d), if_neg (fun h => hd (paramsPath_inj h))]
  noVk := fun c d => by
    unfold toyFS
    rw [if_neg (show vkPath dir c d ≠ dir from (dir_ne "vk" dir c d).symm),
      if_neg (params_ne_vk dir 22 c d).symm]
  noPk := fun c d => by
    unfold toyFS
    rw [if_neg (show pkPath dir c d ≠ dir from (dir_ne "pk" dir c d).symm),
      if_neg (params_ne_pk dir 22 c d).symm]

/-- A history with a crash in the middle of a write: the file is cut, and the next request still
returns parameters of the requested degree. -/
example (dir : Path) : ∃ fs, Runs toyHalo2 dir (toyFS dir) fs ∧
    (∃ b, fs (paramsPath dir 18) = some (.file b) ∧ b.length ≤ 1000) ∧
    (loadOrCreateParams toyHalo2 fs dir 18 .done).2 = .ok (paramsFor toyHalo2 (toyParams 22) 18) ∧
    (paramsFor toyHalo2 (toyParams 22) 18).k = 18 := by
  have hH := toyHalo2_lawful
  have h0 := toyFS_fresh dir
  have hr : Runs toyHalo2 dir (toyFS dir) _ := .step (.params 18 (.cut 1000)) .init
  have hm : loadParams toyHalo2 (toyFS dir) (paramsPath dir maxDegree) maxDegree =
      .ok (toyParams 22) := loadParams_write (p := toyParams 22) h0.wf (by
        show 22 ≤ 56
        norm_num) h0.max
  have hrun : Op.run toyHalo2 dir (toyFS dir) (.params 18 (.cut 1000)) =
      Function.update (toyFS dir) (paramsPath dir 18)
        (some (.file ((paramsFor toyHalo2 (toyParams 22) 18).write.take 1000))) := by
    show (loadOrCreateParams toyHalo2 (toyFS dir) dir 18 (.cut 1000)).1 = _
    unfold loadOrCreateParams
    rw [loadParams_none (h0.noParams 18 (by norm_num))]
    simp only [hm]
    rw [if_pos (show 18 < maxDegree by unfold maxDegree; norm_num),
      downsize_eq (M := toyParams 22) rfl (by norm_num)]
    simp only [writeFile]
    rw [if_neg (by rw [h0.noParams 18 (by norm_num)]; simp)]
  rw [hrun] at hr
  have hmax : (Function.update (toyFS dir) (paramsPath dir 18)
        (some (.file ((paramsFor toyHalo2 (toyParams 22) 18).write.take 1000))))
          (paramsPath dir 22) = some (.file (toyParams 22).write) := by
    rw [Function.update_of_ne (fun e => absurd (paramsPath_inj e) (by norm_num))]
    exact h0.max
  refine ⟨_, hr, ⟨_, Function.update_self _ _ _, ?_⟩,
    C44_available toyHalo2 hH dir _ _ _ h0 hr hmax 18 (by norm_num), ?_⟩
  · rw [List.length_take]; omega
  · exact (paramsFor_wf hH h0.wf h0.deg 18).2

/-- Files of the right length with a smaller degree in the header exist. -/
example : ((toyParams 1).write ++ List.replicate (2 * 64 * 2) 0).length =
    4 + 2 ^ 2 * 64 + 2 ^ 2 * 64 + 128 + 128 := by
  rw [List.length_append, length_write (toyParams_wf 1 (by norm_num)), List.length_replicate]
  simp only [toyParams]
  norm_num

/-- `C45_create_then_load_vk`, `C45_create_then_load_pk`, `C45_crash_key`: keys are made and written into a
directory without files; a cut key file is not readable and the key can be made again. -/
example (dir : Path) :
    (∃ fs', loadOrCreateVk toyHalo2 (toyFS dir) ⟨3, 5⟩ dir (toyParams 18) 18 .done =
      (fs', .ok (Fin.ofNat 256 3)) ∧ fs' (vkPath dir ⟨3, 5⟩ 18) = some (.file [Fin.ofNat 256 3])) ∧
    (∃ fs', loadOrCreatePk toyHalo2 (toyFS dir) ⟨3, 5⟩ dir (toyParams 18) 18 .done .done =
      (fs', .ok (Fin.ofNat 256 3 + 1))) ∧
    toyHalo2.readVk ((toyHalo2.writeVk (Fin.ofNat 256 3)).take 0) = .error .err ∧
    toyHalo2.keygenVk (toyParams 18) ⟨3, 5⟩ = some (Fin.ofNat 256 3) := by
  have hdir : toyFS dir dir = some .dir := if_pos rfl
  have hv : toyFS dir (vkPath dir ⟨3, 5⟩ 18) = none := by
    unfold toyFS
    rw [if_neg (fun h : vkPath dir ⟨3, 5⟩ 18 = dir => dir_ne _ dir ⟨3, 5⟩ 18 h.symm), if_neg (fun h => params_ne_vk dir 22 _ _ h.symm)]
  have hp : toyFS dir (pkPath dir ⟨3, 5⟩ 18) = none := by
    unfold toyFS
    rw [if_neg (fun h : pkPath dir ⟨3, 5⟩ 18 = dir => dir_ne _ dir ⟨3, 5⟩ 18 h.symm), if_neg (fun h => params_ne_pk dir 22 _ _ h.symm)]
  have lv : loadVk toyHalo2 (toyFS dir) ⟨3, 5⟩ dir 18 = .error .err := by
    have : openFile (toyFS dir) (vkPath dir ⟨3, 5⟩ 18) = .error .err := by unfold openFile; rw [hv]
    unfold loadVk
    rw [hdir]
    change (openFile (toyFS dir) (vkPath dir ⟨3, 5⟩ 18) >>= _) = _
    rw [this]; rfl
  have lp : loadPk toyHalo2 (toyFS dir) ⟨3, 5⟩ dir 18 = .error .err := by
    have : openFile (toyFS dir) (pkPath dir ⟨3, 5⟩ 18) = .error .err := by unfold openFile; rw [hp]
    unfold loadPk
    rw [hdir]
    change (openFile (toyFS dir) (pkPath dir ⟨3, 5⟩ 18) >>= _) = _
    rw [this]; rfl
  have cv : loadOrCreateVk toyHalo2 (toyFS dir) ⟨3, 5⟩ dir (toyParams 18) 18 .done =
      (Function.update (toyFS dir) (vkPath dir ⟨3, 5⟩ 18) (some (.file [Fin.ofNat 256 3])),
        .ok (Fin.ofNat 256 3)) := by
    unfold loadOrCreateVk
    rw [if_neg (not_not.2 hdir), lv]
    dsimp only [toyHalo2, writeFile]
    rw [if_neg (by rw [hv]; exact fun h => nomatch h)]
  refine ⟨⟨_, cv, Function.update_self _ _ _⟩, ?_, rfl, rfl⟩
  unfold loadOrCreatePk
  rw [if_neg (not_not.2 hdir), lp, cv]
  dsimp only [toyHalo2, writeFile]
  rw [if_neg (by
    rw [Function.update_of_ne (fun h => vk_ne_pk dir _ _ _ _ h.symm), hp]; exact fun h => nomatch h)]
  exact ⟨_, rfl⟩

/-- Asked for degree 23, the client works with the parameters of degree 22; a file for degree 2 that was cut
after 100 bytes is noticed; so is a file of another length; a file for degree 1 padded to the length for degree 2
is taken for one of degree 2. -/
example (dir : Path) :
    (∀ w, ∃ p, (loadOrCreateParams toyHalo2 (toyFS dir) dir 23 w).2 = .ok p ∧ p.k = 22) ∧
    (∃ fs' res, writeFile (toyFS dir) (paramsPath dir 2) (toyParams 2).write (.cut 100) = (fs', res) ∧
      loadParams toyHalo2 fs' (paramsPath dir 2) 2 = .error .err) ∧
    loadParams toyHalo2 (fun _ => some (.file [])) (paramsPath dir 2) 2 = .error .err ∧
    loadParams toyHalo2 (fun _ => some (.file ((toyParams 1).write ++ List.replicate (2 * 64 * 2) 0)))
      (paramsPath dir 2) 2 = .ok (toyParams 1) := by
  refine ⟨fun w => ⟨_, (C44_violation_large_degree toyHalo2 dir _ _ (toyFS_fresh dir) 23 (by norm_num) w).1, rfl⟩, ?_,
    (C44_length_checked toyHalo2 _ _ 2 (by norm_num)).2 _ rfl (by norm_num), ?_⟩
  · obtain ⟨fs', res, h⟩ : ∃ fs' res, writeFile (toyFS dir) (paramsPath dir 2) (toyParams 2).write (.cut 100) =
      (fs', res) := ⟨_, _, rfl⟩
    refine ⟨fs', res, h, C45_crash_detected toyHalo2 (toyFS dir) dir (toyParams 2) (toyParams_wf 2 (by norm_num)) 2 rfl
      (by norm_num) 100 (by decide +kernel) fs' res h ?_⟩
    unfold toyFS
    rw [if_neg (params_ne_dir dir 2)]
    split <;> exact nofun
  · exact (C44_violation_header toyHalo2 _ _ 2 (by norm_num) (toyParams 1) (toyParams_wf 1 (by norm_num))
      (by decide) _ (by decide +kernel) rfl).1

end Verif.Props
