import Verif.Lemmas.Entrypoint
import Verif.Props.Cache

/-!
C44, at the level of the container: the start script prepares what it announces.
-/

namespace Verif.Props
open Verif Cache

/-- C44. If the start script of the container comes to its last line for (threshold, members, degree), after whatever has
happened to the volume before (other configurations, runs that were stopped, broken downloads, removed files), then the
configuration is valid, the volume has the parameters of exactly this degree and the proving key of exactly this
configuration, the file that announces them exists, and the client gets this key from the volume without writing. -/
theorem C44_container (H : Halo2) (hH : H.Lawful) (M : Params) (server : ℕ → List Byte) (hS : Serves H M server)
    (dir : Path) (rm : Set Path) (fs : FS) (hv : Volume H server dir rm fs) (t n d : ℕ) (hd : d ≤ 22) (f : Fate) (fs' : FS)
    (h : entrypoint H server fs dir t n d f = (fs', true)) :
    ∃ cfg, DkgConfig.new t n = .ok cfg ∧ Prepared H M fs' dir cfg d ∧ fs' (healthPath dir t n d) ≠ none ∧
      ∃ v x, H.keygenVk (paramsFor H M d) cfg = some v ∧ H.keygenPk (paramsFor H M d) v cfg = some x ∧
        ∀ w0 w1 w2, clientPk H fs' cfg dir d w0 w1 w2 = (fs', .ok x) := by
  have hi := hv.vinv hH hS
  have hs := entrypoint_spec hH hS hi.inv hi.isDir hd t n f
  rw [h] at hs
  obtain ⟨_, hdir, _, _, _, h6⟩ := hs
  dsimp only at hdir h6
  obtain ⟨cfg, hc, hp, hh⟩ := h6 rfl
  obtain ⟨v, x, hvk, hpk, hl⟩ := HasPk.load hH hdir hp.pk
  refine ⟨cfg, hc, hp, hh, v, x, hvk, hpk, fun w0 w1 w2 => ?_⟩
  have hlp := HasParams.load hH hS.wf hS.deg hd hp.params
  unfold clientPk loadOrCreateParams
  rw [hlp]
  dsimp only
  unfold loadOrCreatePk
  rw [if_neg (by simp [hdir]), hl]

/-- C44. As long as nobody removes parameters or proving keys from the volume, the announcement can be trusted at any time:
whatever runs were stopped or failed since, if the file for (threshold, members, degree) exists then the configuration is
valid and its parameters and proving key are complete and right. -/
theorem C44_container_health (H : Halo2) (hH : H.Lawful) (M : Params) (server : ℕ → List Byte) (hS : Serves H M server)
    (dir : Path) (rm : Set Path) (hparams : ∀ d, paramsPath dir d ∉ rm) (hpk : ∀ cfg d, pkPath dir cfg d ∉ rm)
    (fs : FS) (hv : Volume H server dir rm fs) (t n d : ℕ) (hd : d ≤ 22) (h : fs (healthPath dir t n d) ≠ none) :
    ∃ cfg, DkgConfig.new t n = .ok cfg ∧ Prepared H M fs dir cfg d := by
  induction hv generalizing t n d with
  | new hn => exact absurd (hn.empty _ (health_ne_dir t n d)) h
  | @script fs0 t' n' d' f hd' hv ih =>
    have hi := hv.vinv hH hS
    obtain ⟨_, _, h3, h4, h5, _⟩ := entrypoint_spec hH hS hi.inv hi.isDir hd' t' n' f
    by_cases he : healthPath dir t n d = healthPath dir t' n' d'
    · obtain ⟨rfl, rfl, rfl⟩ := healthPath_inj he
      rcases h5 with h5 | h5
      · rw [h5] at h
        obtain ⟨cfg, hc, hp⟩ := ih t n d hd h
        exact ⟨cfg, hc, h3 cfg d hd hp⟩
      · exact h5
    · rw [h4 _ (Other.health t n d) he] at h
      obtain ⟨cfg, hc, hp⟩ := ih t n d hd h
      exact ⟨cfg, hc, h3 cfg d hd hp⟩
  | @client fs0 op hop hv ih =>
    have hi := hv.vinv hH hS
    by_cases hr : ∃ p, op = .remove p
    · obtain ⟨p, rfl⟩ := hr
      have hp := hop p rfl
      have hne : ∀ q, q ∉ rm → q ≠ p := fun q hq e => hq (e ▸ hp.1)
      dsimp only [Op.run] at h
      have hh : healthPath dir t n d ≠ p := by
        intro e
        rw [e, Function.update_self] at h
        exact h rfl
      rw [Function.update_of_ne hh] at h
      obtain ⟨cfg, hc, hpp, v, x, hvk, hx, hf⟩ := ih t n d hd h
      refine ⟨cfg, hc, ?_, v, x, hvk, hx, ?_⟩
      · show Function.update fs0 p none (paramsPath dir d) = _
        rw [Function.update_of_ne (hne _ (hparams d))]; exact hpp
      · show Function.update fs0 p none (pkPath dir cfg d) = _
        rw [Function.update_of_ne (hne _ (hpk cfg d))]; exact hf
    · obtain ⟨_, hk⟩ := hi.client hH hS op (fun p e => hr ⟨p, e⟩)
      rw [hk.other _ (Other.health t n d)] at h
      obtain ⟨cfg, hc, hp⟩ := ih t n d hd h
      exact ⟨cfg, hc, hk.prepared hd hp⟩

/-- C44. The nodes share the volume.  As long as nobody removes parameters or keys, once the announcement for (threshold,
members, degree) is there everybody only reads: for this configuration and degree the client gets the proving key and the
verifying key without writing, and the script, started again, succeeds and changes nothing, so that any number of processes
can use the volume at the same time. -/
theorem C44_container_only_reads (H : Halo2) (hH : H.Lawful) (M : Params) (server : ℕ → List Byte) (hS : Serves H M server)
    (dir : Path) (rm : Set Path) (hparams : ∀ d, paramsPath dir d ∉ rm) (hvk : ∀ cfg d, vkPath dir cfg d ∉ rm)
    (hpk : ∀ cfg d, pkPath dir cfg d ∉ rm)
    (fs : FS) (hv : Volume H server dir rm fs) (t n d : ℕ) (hd : d ≤ 22) (h : fs (healthPath dir t n d) ≠ none) :
    ∃ cfg v x, DkgConfig.new t n = .ok cfg ∧
      H.keygenVk (paramsFor H M d) cfg = some v ∧ H.keygenPk (paramsFor H M d) v cfg = some x ∧
      (∀ w0, loadOrCreateParams H fs dir d w0 = (fs, .ok (paramsFor H M d))) ∧
      (∀ w0 w1, clientVk H fs cfg dir d w0 w1 = (fs, .ok v)) ∧
      (∀ w0 w1 w2, clientPk H fs cfg dir d w0 w1 w2 = (fs, .ok x)) ∧
      (∀ f, f.touch = true → entrypoint H server fs dir t n d f = (fs, true)) := by
  have hdir := (hv.vinv hH hS).isDir
  obtain ⟨cfg, hc, hp⟩ := C44_container_health H hH M server hS dir rm hparams hpk fs hv t n d hd h
  obtain ⟨v, x, hgv, hgx, hl⟩ := HasPk.load hH hdir hp.pk
  have hvk' := hv.hasVk hH hS hvk cfg d (by
    obtain ⟨_, _, _, _, hf⟩ := hp.pk
    rw [hf]; simp)
  obtain ⟨v', hgv', hlv⟩ := hvk'.load hH hdir
  rw [hgv] at hgv'
  cases hgv'
  have hlp : ∀ w0, loadOrCreateParams H fs dir d w0 = (fs, .ok (paramsFor H M d)) := fun w0 => by
    unfold loadOrCreateParams
    rw [HasParams.load hH hS.wf hS.deg hd hp.params]
  have hlk : ∀ w1 w2, loadOrCreatePk H fs cfg dir (paramsFor H M d) d w1 w2 = (fs, .ok x) := fun w1 w2 => by
    unfold loadOrCreatePk
    rw [if_neg (not_not.mpr hdir), hl]
  refine ⟨cfg, v, x, hc, hgv, hgx, hlp, fun w0 w1 => ?_, fun w0 w1 w2 => ?_, fun f hf => ?_⟩
  · unfold clientVk
    rw [hlp]
    dsimp only
    unfold loadOrCreateVk
    rw [if_neg (not_not.mpr hdir), hlv]
  · unfold clientPk
    rw [hlp]
    exact hlk w1 w2
  · have his : isFile fs (paramsPath dir d) = true := by
      unfold isFile; rw [hp.params]
    unfold entrypoint
    rw [his]
    simp only [if_true]
    unfold setupSkip
    rw [hlp]
    dsimp only
    rw [hc]
    dsimp only
    rw [hlk]
    dsimp only
    unfold touch
    rw [if_neg (by rw [hf]; simp)]
    cases he : fs (healthPath dir t n d) with
    | none => exact absurd he h
    | some e => rfl

/-- C44. In every history of the volume: where the parameters of the degree are missing or complete, a run of the script
that nothing disturbs comes to its last line, for every valid configuration (if the halo2 library rejects a truncated key
with an error, and can generate the keys). -/
theorem C44_container_recovers (H : Halo2) (hH : H.Lawful) (M : Params) (server : ℕ → List Byte) (hS : Serves H M server)
    (hvk : ∀ v k, H.readVk ((H.writeVk v).take k) ≠ .error .panic)
    (hpk : ∀ x k, H.readPk ((H.writePk x).take k) ≠ .error .panic)
    (dir : Path) (rm : Set Path) (fs : FS) (hv : Volume H server dir rm fs) (t n d : ℕ) (hd : d ≤ 22)
    (hp : fs (paramsPath dir d) = none ∨ fs (paramsPath dir d) = some (.file (server d)))
    (cfg : DkgConfig) (hc : DkgConfig.new t n = .ok cfg)
    (hgen : ∃ v x, H.keygenVk (paramsFor H M d) cfg = some v ∧ H.keygenPk (paramsFor H M d) v cfg = some x) :
    (entrypoint H server fs dir t n d ⟨.complete, .done, .done, .done, true⟩).2 = true := by
  have hi := hv.vinv hH hS
  obtain ⟨v, x, hgv, hgx⟩ := hgen
  -- the parameters
  have h1 : ∃ fs1, (if isFile fs (paramsPath dir d) then (fs, true)
      else download fs (paramsPath dir d) (server d) .complete) = (fs1, true) ∧ HasParams H M dir fs1 d := by
    rcases hp with hp | hp
    · refine ⟨Function.update fs (paramsPath dir d) (some (.file (server d))), ?_, ?_⟩
      · have : isFile fs (paramsPath dir d) = false := by unfold isFile; rw [hp]
        rw [this]
        simp only [download, hp]
        rfl
      · unfold HasParams
        rw [Function.update_self, hS.files d hd]
    · refine ⟨fs, ?_, ?_⟩
      · have : isFile fs (paramsPath dir d) = true := by unfold isFile; rw [hp]
        rw [this]
        rfl
      · unfold HasParams
        rw [hp, hS.files d hd]
  obtain ⟨fs1, he, hpar⟩ := h1
  have hf := fetch_spec hS hi.inv hd (.complete)
  rw [he] at hf
  obtain ⟨hi1, hk1⟩ := hf
  have hdir1 := hk1.isDir hi.isDir
  dsimp only at hi1 hk1 hdir1
  -- the proving key
  have h2 : ∃ fs2, loadOrCreatePk H fs1 cfg dir (paramsFor H M d) d .done .done = (fs2, .ok x) := by
    unfold loadOrCreatePk
    rw [if_neg (by simp [hdir1])]
    have hpkl : loadPk H fs1 cfg dir d = .ok x ∨ loadPk H fs1 cfg dir d = .error .err := by
      simp only [loadPk, hdir1, bind, Except.bind, openFile]
      rcases hi1.pk cfg d with h' | ⟨v', x', k, hv', hx', h'⟩
      · rw [h']; exact Or.inr rfl
      · rw [h']
        dsimp only
        rw [hgv] at hv'
        cases hv'
        rw [hgx] at hx'
        cases hx'
        by_cases hl : k < (H.writePk x).length
        · cases hr : H.readPk ((H.writePk x).take k) with
          | ok y => exact absurd hr (hH.pk_cut x k hl y)
          | error e =>
            cases e with
            | err => exact Or.inr rfl
            | panic => exact absurd hr (hpk x k)
        · rw [List.take_of_length_le (by omega), hH.pk_read]
          exact Or.inl rfl
    rcases hpkl with hl | hl
    · rw [hl]; exact ⟨fs1, rfl⟩
    · rw [hl]
      dsimp only
      have hvkl : loadVk H fs1 cfg dir d = .ok v ∨ loadVk H fs1 cfg dir d = .error .err := by
        simp only [loadVk, hdir1, bind, Except.bind, openFile]
        rcases hi1.vk cfg d with h' | ⟨v', k, hv', h'⟩
        · rw [h']; exact Or.inr rfl
        · rw [h']
          dsimp only
          rw [hgv] at hv'
          cases hv'
          by_cases hl : k < (H.writeVk v).length
          · cases hr : H.readVk ((H.writeVk v).take k) with
            | ok y => exact absurd hr (hH.vk_cut v k hl y)
            | error e =>
              cases e with
              | err => exact Or.inr rfl
              | panic => exact absurd hr (hvk v k)
          · rw [List.take_of_length_le (by omega), hH.vk_read]
            exact Or.inl rfl
      have hvn : fs1 (vkPath dir cfg d) ≠ some .dir := by
        rcases hi1.vk cfg d with h' | ⟨_, _, _, h'⟩ <;> rw [h'] <;> simp
      have hpn : fs1 (pkPath dir cfg d) ≠ some .dir := by
        rcases hi1.pk cfg d with h' | ⟨_, _, _, _, _, h'⟩ <;> rw [h'] <;> simp
      have hvr : ∃ fs2, loadOrCreateVk H fs1 cfg dir (paramsFor H M d) d .done = (fs2, .ok v) ∧
          fs2 (pkPath dir cfg d) ≠ some .dir := by
        unfold loadOrCreateVk
        rw [if_neg (by simp [hdir1])]
        rcases hvkl with hl | hl
        · rw [hl]; exact ⟨fs1, rfl, hpn⟩
        · rw [hl]
          dsimp only
          rw [hgv]
          dsimp only [writeFile]
          rw [if_neg hvn]
          refine ⟨_, rfl, ?_⟩
          rw [Function.update_of_ne (vk_ne_pk dir cfg d cfg d).symm]
          exact hpn
      obtain ⟨fs2, hv2, hpn2⟩ := hvr
      rw [hv2]
      dsimp only
      rw [hgx]
      dsimp only [writeFile]
      rw [if_neg hpn2]
      exact ⟨_, rfl⟩
  obtain ⟨fs2, h2⟩ := h2
  unfold entrypoint
  dsimp only
  rw [he]
  dsimp only
  unfold setupSkip loadOrCreateParams
  rw [HasParams.load hH hS.wf hS.deg hd hpar]
  dsimp only
  rw [hc]
  dsimp only
  rw [h2]
  dsimp only
  unfold touch
  rw [if_neg (by simp)]
  split <;> rfl

/-- C44, violated by the start script. If the download of the parameters breaks off, the script leaves the part that has
arrived under the final name.  From then on every run of the script for this degree fails, with every configuration and
however well everything goes, and changes nothing (unless the parameters of degree 22 are there): the next run skips the
download because the file exists, the client rejects it, and nobody removes it. -/
theorem C44_container_violation (H : Halo2) (M : Params) (server : ℕ → List Byte) (hS : Serves H M server)
    (dir : Path) (fs : FS) (h0 : NewVolume dir fs) (hH : H.Lawful) (d : ℕ) (hd : d ≤ 22) (t n : ℕ) (f : Fate) (k : ℕ)
    (hk : k < (server d).length) (hf : f.download = .broken k) :
    ∃ fs', entrypoint H server fs dir t n d f = (fs', false) ∧
      fs' (paramsPath dir d) = some (.file ((server d).take k)) ∧
      ∀ t' n' f', entrypoint H server fs' dir t' n' d f' = (fs', false) := by
  have hne : fs (paramsPath dir d) = none := h0.empty _ (params_ne_dir dir d)
  have hnf : isFile fs (paramsPath dir d) = false := by unfold isFile; rw [hne]
  have hfile : Function.update fs (paramsPath dir d) (some (.file ((server d).take k))) (paramsPath dir d) =
      some (.file ((server d).take k)) := Function.update_self _ _ _
  refine ⟨Function.update fs (paramsPath dir d) (some (.file ((server d).take k))), ?_, hfile, fun t' n' f' => ?_⟩
  · unfold entrypoint
    rw [hnf, hf]
    simp only [download, hne]
    rfl
  · have his : isFile (Function.update fs (paramsPath dir d) (some (.file ((server d).take k)))) (paramsPath dir d) = true := by
      unfold isFile; rw [hfile]
    obtain ⟨wf, kk⟩ := paramsFor_wf hH hS.wf hS.deg d
    have hlen := length_write wf
    rw [kk, Nat.min_eq_left hd, ← hS.files d hd] at hlen
    have hl : loadParams H (Function.update fs (paramsPath dir d) (some (.file ((server d).take k)))) (paramsPath dir d) d =
        .error .err := loadParams_len (by omega) hfile (by rw [List.length_take]; omega)
    have hm : loadParams H (Function.update fs (paramsPath dir d) (some (.file ((server d).take k))))
        (paramsPath dir maxDegree) maxDegree = .error .err := by
      by_cases he : d = maxDegree
      · rw [← he]; exact hl
      · refine loadParams_none ?_
        rw [Function.update_of_ne (fun e => he (paramsPath_inj e).symm)]
        exact h0.empty _ (params_ne_dir dir maxDegree)
    unfold entrypoint
    rw [his]
    simp only [if_true]
    unfold setupSkip loadOrCreateParams
    rw [hl]
    dsimp only
    rw [hm]

/-- C44, violated by the start script if the halo2 library panics on a key that is cut off (as some versions of halo2curves do
in the format `RawBytesUnchecked`).  If the container is stopped while the proving key is written, then every later run for this
configuration and degree fails and changes nothing, until somebody removes the file.  (If the library returns an error there, the next run
recovers: `C44_container_recovers`.) -/
theorem C44_container_violation_key (H : Halo2) (M : Params) (server : ℕ → List Byte) (hS : Serves H M server)
    (dir : Path) (fs : FS) (h0 : NewVolume dir fs) (hH : H.Lawful) (t n d : ℕ) (hd : d ≤ 22)
    (cfg : DkgConfig) (hc : DkgConfig.new t n = .ok cfg) (v : H.Vk) (x : H.Pk)
    (hgv : H.keygenVk (paramsFor H M d) cfg = some v) (hgx : H.keygenPk (paramsFor H M d) v cfg = some x)
    (k : ℕ) (hpanic : H.readPk ((H.writePk x).take k) = .error .panic) (b : Bool) :
    ∃ fs', entrypoint H server fs dir t n d ⟨.complete, .done, .done, .cut k, b⟩ = (fs', false) ∧
      fs' (pkPath dir cfg d) = some (.file ((H.writePk x).take k)) ∧
      ∀ f', entrypoint H server fs' dir t n d f' = (fs', false) := by
  have hpd := params_ne_dir dir d
  have hvd : vkPath dir cfg d ≠ dir := key_ne_dir "vk" dir cfg d
  have hkd : pkPath dir cfg d ≠ dir := key_ne_dir "pk" dir cfg d
  have hnp : fs (paramsPath dir d) = none := h0.empty _ hpd
  have hnf : isFile fs (paramsPath dir d) = false := by unfold isFile; rw [hnp]
  -- the files after each step
  obtain ⟨fs1, e1⟩ : ∃ g : FS, g = Function.update fs (paramsPath dir d) (some (.file (server d))) := ⟨_, rfl⟩
  obtain ⟨fs2, e2⟩ : ∃ g : FS, g = Function.update fs1 (vkPath dir cfg d) (some (.file (H.writeVk v))) := ⟨_, rfl⟩
  obtain ⟨fs3, e3⟩ : ∃ g : FS, g = Function.update fs2 (pkPath dir cfg d) (some (.file ((H.writePk x).take k))) := ⟨_, rfl⟩
  have p1 : HasParams H M dir fs1 d := by
    unfold HasParams; rw [e1, Function.update_self, hS.files d hd]
  have d1 : fs1 dir = some .dir := by rw [e1, Function.update_of_ne hpd.symm]; exact h0.isDir
  have v1 : fs1 (vkPath dir cfg d) = none := by
    rw [e1, Function.update_of_ne (params_ne_vk dir d cfg d).symm]; exact h0.empty _ hvd
  have k1 : fs1 (pkPath dir cfg d) = none := by
    rw [e1, Function.update_of_ne (params_ne_pk dir d cfg d).symm]; exact h0.empty _ hkd
  have k2 : fs2 (pkPath dir cfg d) = none := by
    rw [e2, Function.update_of_ne (vk_ne_pk dir cfg d cfg d).symm]; exact k1
  have p3 : HasParams H M dir fs3 d := by
    unfold HasParams
    rw [e3, Function.update_of_ne (params_ne_pk dir d cfg d), e2, Function.update_of_ne (params_ne_vk dir d cfg d)]
    exact p1
  have d3 : fs3 dir = some .dir := by
    rw [e3, Function.update_of_ne hkd.symm, e2, Function.update_of_ne hvd.symm]; exact d1
  have k3 : fs3 (pkPath dir cfg d) = some (.file ((H.writePk x).take k)) := by rw [e3, Function.update_self]
  refine ⟨fs3, ?_, k3, fun f' => ?_⟩
  · have l1 : loadVk H fs1 cfg dir d = .error .err := by
      simp only [loadVk, d1, bind, Except.bind, openFile, v1]
    have l2 : loadPk H fs1 cfg dir d = .error .err := by
      simp only [loadPk, d1, bind, Except.bind, openFile, k1]
    have hdown : download fs (paramsPath dir d) (server d) .complete = (fs1, true) := by
      simp only [download, hnp, e1]; rfl
    unfold entrypoint
    dsimp only
    rw [hnf, hdown]
    simp only [Bool.false_eq_true, if_false]
    unfold setupSkip loadOrCreateParams
    rw [HasParams.load hH hS.wf hS.deg hd p1]
    dsimp only
    rw [hc]
    dsimp only
    have hvk : loadOrCreateVk H fs1 cfg dir (paramsFor H M d) d .done = (fs2, .ok v) := by
      unfold loadOrCreateVk
      rw [if_neg (not_not.mpr d1), l1]
      dsimp only
      rw [hgv]
      dsimp only [writeFile]
      rw [if_neg (by rw [v1]; simp), e2]
    unfold loadOrCreatePk
    rw [if_neg (not_not.mpr d1), l2]
    dsimp only
    rw [hvk]
    dsimp only
    rw [hgx]
    dsimp only [writeFile]
    rw [if_neg (by rw [k2]; simp), ← e3]
  · have his : isFile fs3 (paramsPath dir d) = true := by
      unfold isFile; rw [show fs3 (paramsPath dir d) = _ from p3]
    have l3 : loadPk H fs3 cfg dir d = .error .panic := by
      simp only [loadPk, d3, bind, Except.bind, openFile, k3, hpanic]
    unfold entrypoint
    rw [his]
    simp only [if_true]
    unfold setupSkip loadOrCreateParams
    rw [HasParams.load hH hS.wf hS.deg hd p3]
    dsimp only
    rw [hc]
    dsimp only
    unfold loadOrCreatePk
    rw [if_neg (not_not.mpr d3), l3]

/-! ### Examples -/

/-- A server, and a new volume. -/
private def toyServer : ℕ → List Byte := fun d => (paramsFor toyHalo2 (toyParams 22) d).write

private theorem toyServes : Serves toyHalo2 (toyParams 22) toyServer :=
  ⟨toyParams_wf 22 (by norm_num), rfl, fun _ _ => rfl⟩

private def newFS (dir : Path) : FS := fun p => if p = dir then some .dir else none

private theorem newFS_new (dir : Path) : NewVolume dir (newFS dir) :=
  ⟨if_pos rfl, fun _ h => if_neg h⟩

private theorem toyKeys_no_panic : (∀ v k, toyHalo2.readVk ((toyHalo2.writeVk v).take k) ≠ .error .panic) ∧
    (∀ x k, toyHalo2.readPk ((toyHalo2.writePk x).take k) ≠ .error .panic) := by
  refine ⟨fun v k => ?_, fun v k => ?_⟩ <;> rcases k with _ | k
  · simp [toyHalo2]
  · rw [List.take_of_length_le (show 1 ≤ k + 1 by omega), toyHalo2_lawful.vk_read]; simp
  · simp [toyHalo2]
  · rw [List.take_of_length_le (show 1 ≤ k + 1 by omega), toyHalo2_lawful.pk_read]; simp

/-- The first run is stopped during the download of the parameters of degree 18 and blocks the volume for (3, 5); the file is
removed, the next run comes to its end; then the key of 3 of 5 is there, and is still there after a run for 4 of 7 of degree 19
that is stopped while it writes the key. -/
example (dir : Path) : ∃ fs1 fs2 fs3,
    entrypoint toyHalo2 toyServer (newFS dir) dir 3 5 18 ⟨.broken 1000, .done, .done, .done, true⟩ = (fs1, false) ∧
    (∀ f, entrypoint toyHalo2 toyServer fs1 dir 3 5 18 f = (fs1, false)) ∧
    entrypoint toyHalo2 toyServer (Function.update fs1 (paramsPath dir 18) none) dir 3 5 18
      ⟨.complete, .done, .done, .done, true⟩ = (fs2, true) ∧
    Prepared toyHalo2 (toyParams 22) fs2 dir ⟨3, 5⟩ 18 ∧
    fs3 = (entrypoint toyHalo2 toyServer fs2 dir 4 7 19 ⟨.complete, .done, .done, .cut 0, true⟩).1 ∧
    fs3 (healthPath dir 3 5 18) = fs2 (healthPath dir 3 5 18) ∧ fs2 (healthPath dir 3 5 18) ≠ none ∧
    Prepared toyHalo2 (toyParams 22) fs3 dir ⟨3, 5⟩ 18 := by
  have hlen : (1000 : ℕ) < (toyServer 18).length := by
    obtain ⟨wf, kk⟩ := paramsFor_wf toyHalo2_lawful toyServes.wf toyServes.deg 18
    have := length_write wf
    rw [kk] at this
    unfold toyServer
    rw [this]; norm_num
  obtain ⟨fs1, h1, h2, h3⟩ := C44_container_violation toyHalo2 _ toyServer toyServes dir _ (newFS_new dir) toyHalo2_lawful 18
    (by norm_num) 3 5 ⟨.broken 1000, .done, .done, .done, true⟩ 1000 hlen rfl
  have v1 : Volume toyHalo2 toyServer dir {paramsPath dir 18} fs1 := by
    have := Volume.script (rm := {paramsPath dir 18}) 3 5 18 ⟨.broken 1000, .done, .done, .done, true⟩ (by norm_num)
      (Volume.new (H := toyHalo2) (server := toyServer) (newFS_new dir))
    rwa [h1] at this
  have v2 : Volume toyHalo2 toyServer dir {paramsPath dir 18} (Function.update fs1 (paramsPath dir 18) none) :=
    Volume.client (.remove (paramsPath dir 18)) (fun p hp => by
      cases hp; exact ⟨rfl, params_ne_dir dir 18⟩) v1
  have hcfg : DkgConfig.new 3 5 = .ok ⟨3, 5⟩ := rfl
  have hr := C44_container_recovers toyHalo2 toyHalo2_lawful _ toyServer toyServes toyKeys_no_panic.1 toyKeys_no_panic.2 dir _ _ v2
    3 5 18 (by norm_num) (Or.inl (Function.update_self _ _ _)) ⟨3, 5⟩ hcfg ⟨_, _, rfl, rfl⟩
  rcases h4 : entrypoint toyHalo2 toyServer (Function.update fs1 (paramsPath dir 18) none) dir 3 5 18
      ⟨.complete, .done, .done, .done, true⟩ with ⟨fs2, b⟩
  rw [h4] at hr
  cases hr
  obtain ⟨cfg, hc, hp, hh, _⟩ := C44_container toyHalo2 toyHalo2_lawful _ toyServer toyServes dir _ _ v2 3 5 18 (by norm_num) _ fs2 h4
  rw [hcfg] at hc
  cases hc
  have v3 : Volume toyHalo2 toyServer dir {paramsPath dir 18} fs2 := by
    have := Volume.script 3 5 18 ⟨.complete, .done, .done, .done, true⟩ (by norm_num) v2
    rwa [h4] at this
  have hi := v3.vinv toyHalo2_lawful toyServes
  obtain ⟨_, _, s3, s4, _, _⟩ := entrypoint_spec toyHalo2_lawful toyServes hi.inv hi.isDir (show 19 ≤ 22 by norm_num) 4 7
    ⟨.complete, .done, .done, .cut 0, true⟩
  exact ⟨fs1, fs2, _, h1, fun f => h3 3 5 f, h4, hp, rfl,
    s4 _ (Other.health 3 5 18) (fun e => by have := healthPath_inj e; omega), hh, s3 _ 18 (by norm_num) hp⟩

/-- The announcement after a history where nothing is removed. -/
example (dir : Path) : ∃ fs, Volume toyHalo2 toyServer dir ∅ fs ∧ fs (healthPath dir 3 5 18) ≠ none ∧
    Prepared toyHalo2 (toyParams 22) fs dir ⟨3, 5⟩ 18 ∧
    ∀ w0 w1, clientVk toyHalo2 fs ⟨3, 5⟩ dir 18 w0 w1 = (fs, .ok (Fin.ofNat 256 3)) := by
  have v1 : Volume toyHalo2 toyServer dir ∅ (newFS dir) := .new (newFS_new dir)
  have hr := C44_container_recovers toyHalo2 toyHalo2_lawful _ toyServer toyServes toyKeys_no_panic.1 toyKeys_no_panic.2 dir _ _ v1
    3 5 18 (by norm_num) (Or.inl ((newFS_new dir).empty _ (params_ne_dir dir 18))) ⟨3, 5⟩ rfl ⟨_, _, rfl, rfl⟩
  rcases h4 : entrypoint toyHalo2 toyServer (newFS dir) dir 3 5 18 ⟨.complete, .done, .done, .done, true⟩ with ⟨fs2, b⟩
  rw [h4] at hr
  cases hr
  obtain ⟨_, _, _, hh, _⟩ := C44_container toyHalo2 toyHalo2_lawful _ toyServer toyServes dir _ _ v1 3 5 18 (by norm_num) _ fs2 h4
  have v3 : Volume toyHalo2 toyServer dir ∅ fs2 := by
    have := Volume.script 3 5 18 ⟨.complete, .done, .done, .done, true⟩ (by norm_num) v1
    rwa [h4] at this
  have v4 := Volume.script 4 7 19 ⟨.broken 5, .done, .done, .done, true⟩ (by norm_num) v3
  have hi := v3.vinv toyHalo2_lawful toyServes
  obtain ⟨_, _, _, s4, _, _⟩ := entrypoint_spec toyHalo2_lawful toyServes hi.inv hi.isDir (show 19 ≤ 22 by norm_num) 4 7
    ⟨.broken 5, .done, .done, .done, true⟩
  have hh4 := hh
  rw [← s4 _ (Other.health 3 5 18) (fun e => by have := healthPath_inj e; omega)] at hh4
  obtain ⟨cfg, hc, hp⟩ := C44_container_health toyHalo2 toyHalo2_lawful _ toyServer toyServes dir ∅ (fun _ h => h) (fun _ _ h => h)
    _ v4 3 5 18 (by norm_num) hh4
  cases hc
  obtain ⟨_, _, _, hc, hgv, _, _, hcl, _⟩ := C44_container_only_reads toyHalo2 toyHalo2_lawful _ toyServer toyServes dir ∅
    (fun _ h => h) (fun _ _ h => h) (fun _ _ h => h) _ v4 3 5 18 (by norm_num) hh4
  cases hc
  cases hgv
  exact ⟨_, v4, hh4, hp, hcl⟩

/-- A library that panics on a key that is cut off: a stop during the first write of the key blocks 3 of 5 for good. -/
private def panicHalo2 : Halo2 := { toyHalo2 with readPk := fun b => match b with | [v] => .ok v | _ => .error .panic }

private theorem panicHalo2_lawful : panicHalo2.Lawful :=
  { toyHalo2_lawful with
    pk_read := fun _ => rfl
    pk_cut := fun v k hk v' => by
      have : k = 0 := by
        have h1 : k < 1 := hk
        omega
      subst this
      simp [panicHalo2] }

example (dir : Path) : ∃ fs', entrypoint panicHalo2 (fun d => (paramsFor panicHalo2 (toyParams 22) d).write) (newFS dir) dir 3 5 18
      ⟨.complete, .done, .done, .cut 0, true⟩ = (fs', false) ∧
    ∀ f', entrypoint panicHalo2 (fun d => (paramsFor panicHalo2 (toyParams 22) d).write) fs' dir 3 5 18 f' = (fs', false) := by
  obtain ⟨fs', h1, _, h2⟩ := C44_container_violation_key panicHalo2 (toyParams 22) _
    ⟨toyParams_wf 22 (by norm_num), rfl, fun _ _ => rfl⟩ dir (newFS dir) (newFS_new dir) panicHalo2_lawful 3 5 18 (by norm_num)
    ⟨3, 5⟩ rfl _ _ rfl rfl 0 rfl true
  exact ⟨fs', h1, h2⟩

end Verif.Props
