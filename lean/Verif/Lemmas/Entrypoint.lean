import Verif.Lemmas.Cache
import Verif.Spec.Entrypoint

/-!
Lemmas about the start script of the container: what a step leaves as it is.
-/

namespace Verif.Cache

variable {H : Halo2} {dir : Path} {M : Params} {fs fs' fs'' : FS}

theorem params_ne_dir (dir : Path) (d : ℕ) : paramsPath dir d ≠ dir := by
  intro h
  have := congrArg List.length h
  have h1 : (strBytes "/params").length = 7 := by decide
  simp only [paramsPath, List.length_append, h1] at this
  omega

theorem key_ne_dir (kind : String) (dir : Path) (c : DkgConfig) (d : ℕ) : keyPath kind dir c d ≠ dir := by
  intro h
  have := congrArg List.length h
  have h1 : (strBytes "/").length = 1 := by decide
  simp only [keyPath, List.length_append, h1] at this
  omega

theorem under_not_mem (n : ℕ) : (95 : Byte) ∉ decimal n := by
  intro h
  have := (decimal_digits n _ h).2
  simp at this

private theorem str_health : strBytes "/health_check_" =
    [47, 104, 101, 97, 108, 116, 104, 95, 99, 104, 101, 99, 107, 95] := by decide
private theorem str_under : strBytes "_" = [95] := by decide
private theorem str_params : strBytes "/params" = [47, 112, 97, 114, 97, 109, 115] := by decide
private theorem str_slash : strBytes "/" = [47] := by decide
private theorem str_vk : strBytes "vk" = [118, 107] := by decide
private theorem str_pk : strBytes "pk" = [112, 107] := by decide

theorem healthPath_inj {t n d t' n' d' : ℕ} (h : healthPath dir t n d = healthPath dir t' n' d') :
    t = t' ∧ n = n' ∧ d = d' := by
  simp only [healthPath, List.append_assoc, str_under] at h
  have h := List.append_cancel_left (List.append_cancel_left h)
  have h1 := split_unique (under_not_mem t) (under_not_mem t') h
  have h2 := split_unique (under_not_mem n) (under_not_mem n') h1.2
  exact ⟨Zkdvrf.decimal_inj _ _ h1.1, Zkdvrf.decimal_inj _ _ h2.1, Zkdvrf.decimal_inj _ _ h2.2⟩

/-- A path that is none of the cached files. -/
structure Other (dir q : Path) : Prop where
  params : ∀ d, q ≠ paramsPath dir d
  vk : ∀ c d, q ≠ vkPath dir c d
  pk : ∀ c d, q ≠ pkPath dir c d

theorem Other.ofDir : Other dir dir :=
  ⟨fun d => (params_ne_dir dir d).symm, fun c d => (key_ne_dir "vk" dir c d).symm, fun c d => (key_ne_dir "pk" dir c d).symm⟩

theorem Other.health (t n d : ℕ) : Other dir (healthPath dir t n d) := by
  refine ⟨fun d' h => ?_, fun c d' h => ?_, fun c d' h => ?_⟩
  · simp only [healthPath, paramsPath, List.append_assoc, str_params, str_health] at h
    have h := List.append_cancel_left h
    simp at h
  · simp only [healthPath, vkPath, keyPath, List.append_assoc, str_slash, str_vk, str_health] at h
    have h := List.append_cancel_left h
    simp at h
  · simp only [healthPath, pkPath, keyPath, List.append_assoc, str_slash, str_pk, str_health] at h
    have h := List.append_cancel_left h
    simp at h

theorem health_ne_dir (t n d : ℕ) : healthPath dir t n d ≠ dir := by
  intro h
  have := congrArg List.length h
  simp only [healthPath, List.length_append, str_health, List.length_cons, List.length_nil] at this
  omega

/-- The parameters of degree `d` are complete. -/
def HasParams (H : Halo2) (M : Params) (dir : Path) (fs : FS) (d : ℕ) : Prop :=
  fs (paramsPath dir d) = some (.file (paramsFor H M d).write)

/-- The proving key is complete. -/
def HasPk (H : Halo2) (M : Params) (dir : Path) (fs : FS) (cfg : DkgConfig) (d : ℕ) : Prop :=
  ∃ v x, H.keygenVk (paramsFor H M d) cfg = some v ∧ H.keygenPk (paramsFor H M d) v cfg = some x ∧
    fs (pkPath dir cfg d) = some (.file (H.writePk x))

/-- A step does not damage complete files, and does not touch other files. -/
structure Keep (H : Halo2) (dir : Path) (M : Params) (fs fs' : FS) : Prop where
  other : ∀ q, Other dir q → fs' q = fs q
  params : ∀ d, d ≤ 22 → HasParams H M dir fs d → HasParams H M dir fs' d
  pk : ∀ c d, HasPk H M dir fs c d → HasPk H M dir fs' c d

theorem Keep.refl : Keep H dir M fs fs := ⟨fun _ _ => rfl, fun _ _ h => h, fun _ _ h => h⟩

theorem Keep.trans (h : Keep H dir M fs fs') (h' : Keep H dir M fs' fs'') : Keep H dir M fs fs'' :=
  ⟨fun q hq => (h'.other q hq).trans (h.other q hq), fun d hd hp => h'.params d hd (h.params d hd hp),
    fun c d hp => h'.pk c d (h.pk c d hp)⟩

theorem Keep.isDir (h : Keep H dir M fs fs') (hd : fs dir = some .dir) : fs' dir = some .dir :=
  (h.other dir Other.ofDir).trans hd

theorem HasParams.load (hH : H.Lawful) (hM : M.Wf) (hk : M.k = 22) {d : ℕ} (hd : d ≤ 22)
    (h : HasParams H M dir fs d) : loadParams H fs (paramsPath dir d) d = .ok (paramsFor H M d) := by
  obtain ⟨wf, kk⟩ := paramsFor_wf hH hM hk d
  have hkd : (paramsFor H M d).k = d := by rw [kk]; exact Nat.min_eq_left hd
  have := loadParams_write (H := H) wf (by omega) h
  rwa [hkd] at this

theorem HasPk.load (hH : H.Lawful) (hdir : fs dir = some .dir) {c : DkgConfig} {d : ℕ}
    (h : HasPk H M dir fs c d) : ∃ v x, H.keygenVk (paramsFor H M d) c = some v ∧
      H.keygenPk (paramsFor H M d) v c = some x ∧ loadPk H fs c dir d = .ok x := by
  obtain ⟨v, x, hv, hx, hf⟩ := h
  refine ⟨v, x, hv, hx, ?_⟩
  simp only [loadPk, hdir, bind, Except.bind, openFile, hf, hH.pk_read]

theorem keep_writeParams {d : ℕ} {b : List Byte} {w : Write} {res : Io Unit} (hn : d ≤ 22 → ¬ HasParams H M dir fs d)
    (h : writeFile fs (paramsPath dir d) b w = (fs', res)) : Keep H dir M fs fs' := by
  refine ⟨fun q hq => writeFile_other h (hq.params d), fun d' hd' hp => ?_, fun c d' hp => ?_⟩
  · have hne : d' ≠ d := fun e => hn (e ▸ hd') (e ▸ hp)
    unfold HasParams
    rw [writeFile_other h (fun e => hne (paramsPath_inj e))]
    exact hp
  · obtain ⟨v, x, hv, hx, hf⟩ := hp
    exact ⟨v, x, hv, hx, by rw [writeFile_other h (params_ne_pk dir d c d').symm]; exact hf⟩

theorem keep_writeVk {c : DkgConfig} {d : ℕ} {b : List Byte} {w : Write} {res : Io Unit}
    (h : writeFile fs (vkPath dir c d) b w = (fs', res)) : Keep H dir M fs fs' := by
  refine ⟨fun q hq => writeFile_other h (hq.vk c d), fun d' hd' hp => ?_, fun c' d' hp => ?_⟩
  · unfold HasParams
    rw [writeFile_other h (params_ne_vk dir d' c d)]
    exact hp
  · obtain ⟨v, x, hv, hx, hf⟩ := hp
    exact ⟨v, x, hv, hx, by rw [writeFile_other h (vk_ne_pk dir c d c' d').symm]; exact hf⟩

theorem keep_writePk {c : DkgConfig} {d : ℕ} {b : List Byte} {w : Write} {res : Io Unit} (hn : ¬ HasPk H M dir fs c d)
    (h : writeFile fs (pkPath dir c d) b w = (fs', res)) : Keep H dir M fs fs' := by
  refine ⟨fun q hq => writeFile_other h (hq.pk c d), fun d' hd' hp => ?_, fun c' d' hp => ?_⟩
  · unfold HasParams
    rw [writeFile_other h (params_ne_pk dir d' c d)]
    exact hp
  · obtain ⟨v, x, hv, hx, hf⟩ := hp
    refine ⟨v, x, hv, hx, ?_⟩
    have hne : pkPath dir c' d' ≠ pkPath dir c d := by
      intro e
      obtain ⟨rfl, rfl⟩ := keyPath_inj e
      exact hn ⟨v, x, hv, hx, hf⟩
    rw [writeFile_other h hne]; exact hf

theorem Inv.fullOfLoad (hH : H.Lawful) (hM : M.Wf) (hk : M.k = 22) (hi : Inv H dir M fs) {d : ℕ}
    {p : Params} (h : loadParams H fs (paramsPath dir d) d = .ok p) : HasParams H M dir fs d := by
  obtain ⟨b, hb, _, hl, _⟩ := loadParams_ok (hi.notDir d) h
  rcases hi.params d with h' | ⟨hd, k, h'⟩
  · rw [h'] at hb; cases hb
  · have e := h'
    rw [hb] at e
    simp only [Option.some.injEq, Entry.file.injEq] at e
    obtain ⟨wf, kk⟩ := paramsFor_wf hH hM hk d
    have hlen := length_write wf
    rw [kk, Nat.min_eq_left hd] at hlen
    unfold HasParams
    rw [h', List.take_of_length_le]
    rw [e, List.length_take] at hl
    omega

theorem keep_lcParams (hH : H.Lawful) (hM : M.Wf) (hk : M.k = 22) (hi : Inv H dir M fs) (d : ℕ) (w : Write) :
    Keep H dir M fs (loadOrCreateParams H fs dir d w).1 ∧
    (∀ p, d ≤ 22 → (loadOrCreateParams H fs dir d w).2 = .ok p →
      HasParams H M dir (loadOrCreateParams H fs dir d w).1 d) := by
  unfold loadOrCreateParams
  cases h : loadParams H fs (paramsPath dir d) d with
  | ok p => exact ⟨Keep.refl, fun _ _ _ => hi.fullOfLoad hH hM hk h⟩
  | error f =>
    cases f with
    | panic => exact ⟨Keep.refl, fun p _ hp => (by cases hp)⟩
    | err =>
      simp only
      have hn : d ≤ 22 → ¬ HasParams H M dir fs d := fun hd hp => by
        rw [hp.load hH hM hk hd] at h; cases h
      cases hm : loadParams H fs (paramsPath dir maxDegree) maxDegree with
      | error f => cases f <;> exact ⟨Keep.refl, fun p _ hp => (by cases hp)⟩
      | ok p =>
        have hpM : p = M := (hi.load hH hM hk hm).1.trans paramsFor_max
        subst hpM
        simp only
        by_cases hd : d < maxDegree
        · rw [if_pos hd, downsize_eq hk hd]
          simp only
          rcases hw : writeFile fs (paramsPath dir d) (paramsFor H p d).write w with ⟨fs1, res⟩
          have hi' := keep_writeParams (M := p) hn hw
          cases res with
          | error f => exact ⟨hi', fun p _ hp => (by cases hp)⟩
          | ok u =>
            refine ⟨hi', fun _ _ _ => ?_⟩
            have := writeFile_ok (by simpa using hw)
            show fs1 _ = _
            rw [this]; exact Function.update_self _ _ _
        · rw [if_neg hd]
          refine ⟨Keep.refl, fun p' hd' hp' => ?_⟩
          have : d = 22 := by simp only [maxDegree] at hd; omega
          subst this
          exact hi.fullOfLoad hH hM hk hm

theorem keep_lcVk (c : DkgConfig) (p : Params) (d : ℕ) (w : Write) :
    Keep H dir M fs (loadOrCreateVk H fs c dir p d w).1 := by
  unfold loadOrCreateVk
  split
  · exact Keep.refl
  · split
    · exact Keep.refl
    · exact Keep.refl
    · split
      · exact Keep.refl
      · rename_i vk _
        rcases hw : writeFile fs (vkPath dir c d) (H.writeVk vk) w with ⟨fs1, res⟩
        cases res <;> exact keep_writeVk hw

theorem keep_lcPk (hH : H.Lawful) (hi : Inv H dir M fs) (c : DkgConfig) (d : ℕ) (w w' : Write) :
    Keep H dir M fs (loadOrCreatePk H fs c dir (paramsFor H M d) d w w').1 ∧
    (∀ x, (loadOrCreatePk H fs c dir (paramsFor H M d) d w w').2 = .ok x →
      HasPk H M dir (loadOrCreatePk H fs c dir (paramsFor H M d) d w w').1 c d) := by
  unfold loadOrCreatePk
  by_cases hd : fs dir = some .dir
  · rw [if_neg (by simp [hd])]
    cases h : Cache.loadPk H fs c dir d with
    | ok v =>
      refine ⟨Keep.refl, fun x hx => ?_⟩
      simp only [Cache.loadPk, hd, bind, Except.bind, openFile] at h
      rcases hi.pk c d with h' | ⟨v', x', k, hv, hx', h'⟩
      · simp [h'] at h
      · simp only [h'] at h
        by_cases hl : k < (H.writePk x').length
        · exact absurd h (hH.pk_cut x' k hl v)
        · rw [List.take_of_length_le (by omega)] at h'
          exact ⟨v', x', hv, hx', h'⟩
    | error f =>
      cases f with
      | panic => exact ⟨Keep.refl, fun v' h' => (by cases h')⟩
      | err =>
        simp only
        have hn : ¬ HasPk H M dir fs c d := fun hp => by
          obtain ⟨v, x, _, _, hl⟩ := hp.load hH hd
          rw [hl] at h; cases h
        have h1 := hi.lcVk hH c d w
        have hk1 := keep_lcVk (H := H) (M := M) (dir := dir) (fs := fs) c (paramsFor H M d) d w
        have hpk1 : (loadOrCreateVk H fs c dir (paramsFor H M d) d w).1 (pkPath dir c d) = fs (pkPath dir c d) := by
          unfold loadOrCreateVk
          split
          · rfl
          · split
            · rfl
            · rfl
            · split
              · rfl
              · rename_i vk _
                rcases hw : writeFile fs (vkPath dir c d) (H.writeVk vk) w with ⟨fs1, res⟩
                cases res <;> exact writeFile_other hw (vk_ne_pk dir c d c d).symm
        rcases hv : loadOrCreateVk H fs c dir (paramsFor H M d) d w with ⟨fs1, res⟩
        rw [hv] at h1 hk1 hpk1
        obtain ⟨hi1, hk2⟩ := h1
        have hn1 : ¬ HasPk H M dir fs1 c d := by
          rintro ⟨v, x, hv, hx, hf⟩
          exact hn ⟨v, x, hv, hx, by rw [← hpk1]; exact hf⟩
        cases res with
        | error f => exact ⟨hk1, fun v' h' => (by cases h')⟩
        | ok v =>
          simp only
          have hkv := hk2 v rfl
          cases hx : H.keygenPk (paramsFor H M d) v c with
          | none => exact ⟨hk1, fun v' h' => (by cases h')⟩
          | some x =>
            simp only
            rcases hw : writeFile fs1 (pkPath dir c d) (H.writePk x) w' with ⟨fs2, res⟩
            have hi' := keep_writePk hn1 hw
            cases res with
            | error f => exact ⟨hk1.trans hi', fun v' h' => (by cases h')⟩
            | ok u =>
              refine ⟨hk1.trans hi', fun x' _ => ⟨v, x, hkv, hx, ?_⟩⟩
              have := writeFile_ok (by simpa using hw)
              show fs2 _ = _
              rw [this]; exact Function.update_self _ _ _
  · rw [if_pos hd]
    exact ⟨Keep.refl, fun v' h' => (by cases h')⟩

theorem keep_clVk (hH : H.Lawful) (hM : M.Wf) (hk : M.k = 22) (hi : Inv H dir M fs)
    (c : DkgConfig) (d : ℕ) (w0 w1 : Write) : Keep H dir M fs (clientVk H fs c dir d w0 w1).1 := by
  unfold clientVk
  have h0 := keep_lcParams hH hM hk hi d w0
  rcases hp : loadOrCreateParams H fs dir d w0 with ⟨fs1, res⟩
  rw [hp] at h0
  cases res with
  | error f => exact h0.1
  | ok p => exact h0.1.trans (keep_lcVk c p d w1)

theorem keep_clPk (hH : H.Lawful) (hM : M.Wf) (hk : M.k = 22) (hi : Inv H dir M fs)
    (c : DkgConfig) (d : ℕ) (w0 w1 w2 : Write) : Keep H dir M fs (clientPk H fs c dir d w0 w1 w2).1 := by
  unfold clientPk
  have h0 := keep_lcParams hH hM hk hi d w0
  have h1 := hi.lcParams hH hM hk d w0
  rcases hp : loadOrCreateParams H fs dir d w0 with ⟨fs1, res⟩
  rw [hp] at h0 h1
  cases res with
  | error f => exact h0.1
  | ok p =>
    have := h1.2 p rfl
    subst this
    exact h0.1.trans (keep_lcPk hH h1.1 c d w1 w2).1

/-- A download is a write that can fail. -/
theorem download_write (fs : FS) (p : Path) (b : List Byte) (x : Download) :
    ∃ w res, writeFile fs p b w = ((download fs p b x).1, res) := by
  cases x with
  | refused => exact ⟨.noCreate, _, rfl⟩
  | broken k =>
    refine ⟨.cut k, .error .err, ?_⟩
    unfold writeFile download
    by_cases h : fs p = some .dir
    · simp only [if_pos h]
    · simp only [if_neg h]
  | complete =>
    by_cases h : fs p = some .dir
    · exact ⟨.done, .error .err, by unfold writeFile download; simp only [if_pos h]⟩
    · exact ⟨.done, .ok (), by unfold writeFile download; simp only [if_neg h]⟩

/-- What the client leaves after `setup --skip`. -/
theorem setupSkip_spec (hH : H.Lawful) (hM : M.Wf) (hk : M.k = 22) (hi : Inv H dir M fs)
    (t n d : ℕ) (w0 w1 w2 : Write) :
    Inv H dir M (setupSkip H fs t n d dir w0 w1 w2).1 ∧
    Keep H dir M fs (setupSkip H fs t n d dir w0 w1 w2).1 ∧
    (d ≤ 22 → (setupSkip H fs t n d dir w0 w1 w2).2 = true → ∃ cfg, DkgConfig.new t n = .ok cfg ∧
      Prepared H M (setupSkip H fs t n d dir w0 w1 w2).1 dir cfg d) := by
  unfold setupSkip
  have h0 := keep_lcParams hH hM hk hi d w0
  have h1 := hi.lcParams hH hM hk d w0
  rcases hp : loadOrCreateParams H fs dir d w0 with ⟨fs1, res⟩
  rw [hp] at h0 h1
  cases res with
  | error f => exact ⟨h1.1, h0.1, fun _ h => (by cases h)⟩
  | ok p =>
    have := h1.2 p rfl
    subst this
    cases hc : DkgConfig.new t n with
    | error e => exact ⟨h1.1, h0.1, fun _ h => (by cases h)⟩
    | ok cfg =>
      simp only
      have h2 := Inv.lcPk hH h1.1 cfg d w1 w2
      have h3 := keep_lcPk hH h1.1 cfg d w1 w2
      rcases hq : loadOrCreatePk H fs1 cfg dir (paramsFor H M d) d w1 w2 with ⟨fs2, res⟩
      rw [hq] at h2 h3
      cases res with
      | error f => exact ⟨h2.1, h0.1.trans h3.1, fun _ h => (by cases h)⟩
      | ok x =>
        refine ⟨h2.1, h0.1.trans h3.1, fun hd _ => ⟨cfg, rfl, ?_, h3.2 x rfl⟩⟩
        exact h3.1.params d hd (h0.2 _ hd rfl)

theorem Inv.other (hi : Inv H dir M fs) {q : Path} (hq : Other dir q) (e : Option Entry) :
    Inv H dir M (Function.update fs q e) := by
  constructor
  · intro d
    rw [Function.update_of_ne (hq.params d).symm]; exact hi.params d
  · intro c d
    rw [Function.update_of_ne (hq.vk c d).symm]; exact hi.vk c d
  · intro c d
    rw [Function.update_of_ne (hq.pk c d).symm]; exact hi.pk c d

theorem Prepared.other {c : DkgConfig} {d : ℕ} (h : Prepared H M fs dir c d) {q : Path} (hq : Other dir q)
    (e : Option Entry) : Prepared H M (Function.update fs q e) dir c d := by
  obtain ⟨hp, v, x, hv, hx, hf⟩ := h
  exact ⟨by rw [Function.update_of_ne (hq.params d).symm]; exact hp,
    v, x, hv, hx, by rw [Function.update_of_ne (hq.pk c d).symm]; exact hf⟩

theorem Keep.prepared (h : Keep H dir M fs fs') {c : DkgConfig} {d : ℕ} (hd : d ≤ 22) (hp : Prepared H M fs dir c d) :
    Prepared H M fs' dir c d := ⟨h.params d hd hp.params, h.pk c d hp.pk⟩

theorem touch_cases (fs : FS) (p : Path) (ok : Bool) :
    (touch fs p ok).1 = fs ∨ (ok = true ∧ fs p = none ∧ (touch fs p ok).1 = Function.update fs p (some (.file []))) := by
  unfold touch
  split
  · exact Or.inl rfl
  · rename_i h
    cases hf : fs p with
    | none => exact Or.inr ⟨by simpa using h, rfl, rfl⟩
    | some e => exact Or.inl rfl

/-- The file of the parameters is there after the first part of the script. -/
theorem fetch_spec {server : ℕ → List Byte} (hS : Serves H M server) (hi : Inv H dir M fs) {d : ℕ} (hd : d ≤ 22)
    (x : Download) :
    Inv H dir M (if isFile fs (paramsPath dir d) then (fs, true)
      else download fs (paramsPath dir d) (server d) x).1 ∧
    Keep H dir M fs (if isFile fs (paramsPath dir d) then (fs, true)
      else download fs (paramsPath dir d) (server d) x).1 := by
  by_cases h : isFile fs (paramsPath dir d) = true
  · rw [if_pos h]; exact ⟨hi, Keep.refl⟩
  · rw [if_neg h, hS.files d hd]
    obtain ⟨w, res, hw⟩ := download_write fs (paramsPath dir d) (paramsFor H M d).write x
    refine ⟨hi.setParams hd hw, keep_writeParams (fun _ hp => h ?_) hw⟩
    unfold HasParams at hp
    unfold isFile
    rw [hp]

/-- Everything about a run of the script. -/
theorem entrypoint_spec (hH : H.Lawful) {server : ℕ → List Byte} (hS : Serves H M server) (hi : Inv H dir M fs)
    (hdir : fs dir = some .dir) {d : ℕ} (hd : d ≤ 22) (t n : ℕ) (f : Fate) :
    Inv H dir M (entrypoint H server fs dir t n d f).1 ∧
    (entrypoint H server fs dir t n d f).1 dir = some .dir ∧
    (∀ c d', d' ≤ 22 → Prepared H M fs dir c d' → Prepared H M (entrypoint H server fs dir t n d f).1 dir c d') ∧
    (∀ q, Other dir q → q ≠ healthPath dir t n d → (entrypoint H server fs dir t n d f).1 q = fs q) ∧
    ((entrypoint H server fs dir t n d f).1 (healthPath dir t n d) = fs (healthPath dir t n d) ∨
      ∃ cfg, DkgConfig.new t n = .ok cfg ∧ Prepared H M (entrypoint H server fs dir t n d f).1 dir cfg d) ∧
    ((entrypoint H server fs dir t n d f).2 = true → ∃ cfg, DkgConfig.new t n = .ok cfg ∧
      Prepared H M (entrypoint H server fs dir t n d f).1 dir cfg d ∧
      (entrypoint H server fs dir t n d f).1 (healthPath dir t n d) ≠ none) := by
  unfold entrypoint
  obtain ⟨hi1, hk1⟩ := fetch_spec hS hi hd f.download
  rcases h1 : (if isFile fs (paramsPath dir d) then (fs, true)
      else download fs (paramsPath dir d) (server d) f.download) with ⟨fs1, b1⟩
  rw [h1] at hi1 hk1
  cases b1 with
  | false =>
    exact ⟨hi1, hk1.isDir hdir, fun c d' hd' hp => hk1.prepared hd' hp, fun q hq _ => hk1.other q hq,
      Or.inl (hk1.other _ (Other.health t n d)), fun h => (by cases h)⟩
  | true =>
    simp only
    obtain ⟨hi2, hk2, hp2⟩ := setupSkip_spec hH hS.wf hS.deg hi1 t n d f.params f.vk f.pk
    rcases h2 : setupSkip H fs1 t n d dir f.params f.vk f.pk with ⟨fs2, b2⟩
    rw [h2] at hi2 hk2 hp2
    have hk := hk1.trans hk2
    cases b2 with
    | false =>
      exact ⟨hi2, hk.isDir hdir, fun c d' hd' hp => hk.prepared hd' hp, fun q hq _ => hk.other q hq,
        Or.inl (hk.other _ (Other.health t n d)), fun h => (by cases h)⟩
    | true =>
      simp only
      obtain ⟨cfg, hcfg, hprep⟩ := hp2 hd rfl
      have ho : Other dir (healthPath dir t n d) := Other.health t n d
      have hne : healthPath dir t n d ≠ dir := health_ne_dir t n d
      rcases touch_cases fs2 (healthPath dir t n d) f.touch with he | ⟨hf, hnone, he⟩
      · refine ⟨by rw [he]; exact hi2, by rw [he]; exact hk.isDir hdir, fun c d' hd' hp => by rw [he]; exact hk.prepared hd' hp,
          fun q hq _ => by rw [he]; exact hk.other q hq, Or.inl (by rw [he]; exact hk.other _ ho), fun h => ?_⟩
        refine ⟨cfg, hcfg, by rw [he]; exact hprep, ?_⟩
        rw [he]
        intro hn
        unfold touch at h he
        split at h
        · cases h
        · rename_i hb
          rw [if_neg hb, hn] at he
          have := congrFun he (healthPath dir t n d)
          simp only [Function.update_self, hn] at this
          cases this
      · refine ⟨by rw [he]; exact hi2.other ho _, by rw [he, Function.update_of_ne hne.symm]; exact hk.isDir hdir,
          fun c d' hd' hp => by rw [he]; exact (hk.prepared hd' hp).other ho _,
          fun q hq hqne => by rw [he, Function.update_of_ne hqne]; exact hk.other q hq,
          Or.inr ⟨cfg, hcfg, by rw [he]; exact hprep.other ho _⟩, fun _ => ⟨cfg, hcfg, by rw [he]; exact hprep.other ho _, ?_⟩⟩
        rw [he, Function.update_self]
        simp

/-- What holds of every volume. -/
structure VInv (H : Halo2) (dir : Path) (M : Params) (fs : FS) : Prop where
  inv : Inv H dir M fs
  isDir : fs dir = some .dir

theorem NewVolume.vinv (h : NewVolume dir fs) : VInv H dir M fs :=
  ⟨⟨fun d => Or.inl (h.empty _ (params_ne_dir dir d)), fun c d => Or.inl (h.empty _ (key_ne_dir "vk" dir c d)),
    fun c d => Or.inl (h.empty _ (key_ne_dir "pk" dir c d))⟩, h.isDir⟩

theorem VInv.client (hH : H.Lawful) {server : ℕ → List Byte} (hS : Serves H M server) (h : VInv H dir M fs) (op : Op)
    (hop : ∀ p, op ≠ .remove p) : VInv H dir M (op.run H dir fs) ∧ Keep H dir M fs (op.run H dir fs) := by
  cases op with
  | params d w =>
    have hk := (keep_lcParams hH hS.wf hS.deg h.inv d w).1
    exact ⟨⟨(h.inv.lcParams hH hS.wf hS.deg d w).1, hk.isDir h.isDir⟩, hk⟩
  | vk c d w0 w1 =>
    have hk := keep_clVk hH hS.wf hS.deg h.inv c d w0 w1
    exact ⟨⟨(h.inv.clVk hH hS.wf hS.deg c d w0 w1).1, hk.isDir h.isDir⟩, hk⟩
  | pk c d w0 w1 w2 =>
    have hk := keep_clPk hH hS.wf hS.deg h.inv c d w0 w1 w2
    exact ⟨⟨(h.inv.clPk hH hS.wf hS.deg c d w0 w1 w2).1, hk.isDir h.isDir⟩, hk⟩
  | remove p => exact absurd rfl (hop p)

theorem Volume.vinv (hH : H.Lawful) {server : ℕ → List Byte} (hS : Serves H M server) {rm : Set Path}
    (h : Volume H server dir rm fs) : VInv H dir M fs := by
  induction h with
  | new h => exact h.vinv
  | script t n d f hd _ ih =>
    have := entrypoint_spec hH hS ih.inv ih.isDir hd t n f
    exact ⟨this.1, this.2.1⟩
  | client op hop _ ih =>
    by_cases hr : ∃ p, op = .remove p
    · obtain ⟨p, rfl⟩ := hr
      exact ⟨ih.inv.remove p, by
        dsimp only [Op.run]
        rw [Function.update_of_ne (hop p rfl).2.symm]; exact ih.isDir⟩
    · exact (ih.client hH hS op (fun p e => hr ⟨p, e⟩)).1

/-! ### The verifying key is there when the proving key is -/

/-- The verifying key is complete. -/
def HasVk (H : Halo2) (M : Params) (dir : Path) (fs : FS) (c : DkgConfig) (d : ℕ) : Prop :=
  ∃ v, H.keygenVk (paramsFor H M d) c = some v ∧ fs (vkPath dir c d) = some (.file (H.writeVk v))

/-- A step keeps complete verifying keys, and writes a proving key only when its verifying key is complete. -/
structure KeepVk (H : Halo2) (dir : Path) (M : Params) (fs fs' : FS) : Prop where
  vk : ∀ c d, HasVk H M dir fs c d → HasVk H M dir fs' c d
  pk : ∀ c d, fs' (pkPath dir c d) ≠ none → fs (pkPath dir c d) ≠ none ∨ HasVk H M dir fs' c d

theorem KeepVk.trans (h : KeepVk H dir M fs fs') (h' : KeepVk H dir M fs' fs'') : KeepVk H dir M fs fs'' := by
  refine ⟨fun c d hv => h'.vk c d (h.vk c d hv), fun c d hp => ?_⟩
  rcases h'.pk c d hp with h1 | h1
  · rcases h.pk c d h1 with h2 | h2
    · exact Or.inl h2
    · exact Or.inr (h'.vk c d h2)
  · exact Or.inr h1

/-- Where neither a verifying nor a proving key is touched. -/
theorem KeepVk.of_eq (hv : ∀ c d, fs' (vkPath dir c d) = fs (vkPath dir c d))
    (hp : ∀ c d, fs' (pkPath dir c d) = fs (pkPath dir c d)) : KeepVk H dir M fs fs' := by
  refine ⟨fun c d ⟨v, h1, h2⟩ => ⟨v, h1, by rw [hv]; exact h2⟩, fun c d h => Or.inl ?_⟩
  rw [hp] at h; exact h

theorem KeepVk.refl : KeepVk H dir M fs fs := .of_eq (fun _ _ => rfl) (fun _ _ => rfl)

theorem keepVk_writeParams {d : ℕ} {b : List Byte} {w : Write} {res : Io Unit}
    (h : writeFile fs (paramsPath dir d) b w = (fs', res)) : KeepVk H dir M fs fs' :=
  .of_eq (fun c d' => writeFile_other h (params_ne_vk dir d c d').symm)
    (fun c d' => writeFile_other h (params_ne_pk dir d c d').symm)

theorem HasVk.load (hH : H.Lawful) (hdir : fs dir = some .dir) {c : DkgConfig} {d : ℕ}
    (h : HasVk H M dir fs c d) : ∃ v, H.keygenVk (paramsFor H M d) c = some v ∧ loadVk H fs c dir d = .ok v := by
  obtain ⟨v, hv, hf⟩ := h
  refine ⟨v, hv, ?_⟩
  simp only [loadVk, hdir, bind, Except.bind, openFile, hf, hH.vk_read]

theorem keepVk_lcParams (hM : M.Wf) (hk : M.k = 22) (hH : H.Lawful) (hi : Inv H dir M fs) (d : ℕ) (w : Write) :
    KeepVk H dir M fs (loadOrCreateParams H fs dir d w).1 := by
  unfold loadOrCreateParams
  cases h : loadParams H fs (paramsPath dir d) d with
  | ok p => exact .refl
  | error f =>
    cases f with
    | panic => exact .refl
    | err =>
      simp only
      cases hm : loadParams H fs (paramsPath dir maxDegree) maxDegree with
      | error f => cases f <;> exact .refl
      | ok p =>
        have hpM : p = M := (hi.load hH hM hk hm).1.trans paramsFor_max
        subst hpM
        simp only
        by_cases hd : d < maxDegree
        · rw [if_pos hd, downsize_eq hk hd]
          simp only
          rcases hw : writeFile fs (paramsPath dir d) (paramsFor H p d).write w with ⟨fs1, res⟩
          cases res <;> exact keepVk_writeParams hw
        · rw [if_neg hd]
          exact .refl

theorem keepVk_lcVk (hH : H.Lawful) (hi : Inv H dir M fs) (c : DkgConfig) (d : ℕ) (w : Write) :
    KeepVk H dir M fs (loadOrCreateVk H fs c dir (paramsFor H M d) d w).1 ∧
    (∀ v, (loadOrCreateVk H fs c dir (paramsFor H M d) d w).2 = .ok v →
      HasVk H M dir (loadOrCreateVk H fs c dir (paramsFor H M d) d w).1 c d) ∧
    (loadOrCreateVk H fs c dir (paramsFor H M d) d w).1 (pkPath dir c d) = fs (pkPath dir c d) := by
  unfold loadOrCreateVk
  by_cases hd : fs dir = some .dir
  · rw [if_neg (not_not.mpr hd)]
    cases h : Cache.loadVk H fs c dir d with
    | ok v =>
      refine ⟨.refl, fun x _ => ?_, rfl⟩
      simp only [Cache.loadVk, hd, bind, Except.bind, openFile] at h
      rcases hi.vk c d with h' | ⟨v', k, hv, h'⟩
      · simp [h'] at h
      · simp only [h'] at h
        by_cases hl : k < (H.writeVk v').length
        · exact absurd h (hH.vk_cut v' k hl v)
        · rw [List.take_of_length_le (by omega)] at h'
          exact ⟨v', hv, h'⟩
    | error f =>
      cases f with
      | panic => exact ⟨.refl, fun v' h' => (by cases h'), rfl⟩
      | err =>
        simp only
        have hn : ¬ HasVk H M dir fs c d := fun hp => by
          obtain ⟨v, _, hl⟩ := hp.load hH hd
          rw [hl] at h; cases h
        cases hv : H.keygenVk (paramsFor H M d) c with
        | none => exact ⟨.refl, fun v' h' => (by cases h'), rfl⟩
        | some v =>
          simp only
          rcases hw : writeFile fs (vkPath dir c d) (H.writeVk v) w with ⟨fs1, res⟩
          have hpk : ∀ c' d', fs1 (pkPath dir c' d') = fs (pkPath dir c' d') := fun c' d' =>
            writeFile_other hw (vk_ne_pk dir c d c' d').symm
          have hkeep : KeepVk H dir M fs fs1 := by
            refine ⟨fun c' d' ⟨v', h1, h2⟩ => ⟨v', h1, ?_⟩, fun c' d' h => Or.inl (by rw [hpk] at h; exact h)⟩
            have hne : vkPath dir c' d' ≠ vkPath dir c d := by
              intro e
              obtain ⟨rfl, rfl⟩ := keyPath_inj e
              exact hn ⟨v', h1, h2⟩
            rw [writeFile_other hw hne]; exact h2
          cases res with
          | error f => exact ⟨hkeep, fun v' h' => (by cases h'), hpk c d⟩
          | ok u =>
            refine ⟨hkeep, fun v' _ => ⟨v, hv, ?_⟩, hpk c d⟩
            have := writeFile_ok (by simpa using hw)
            show fs1 _ = _
            rw [this]; exact Function.update_self _ _ _
  · rw [if_pos hd]
    exact ⟨.refl, fun v' h' => (by cases h'), rfl⟩

theorem keepVk_lcPk (hH : H.Lawful) (hi : Inv H dir M fs) (c : DkgConfig) (d : ℕ) (w w' : Write) :
    KeepVk H dir M fs (loadOrCreatePk H fs c dir (paramsFor H M d) d w w').1 := by
  unfold loadOrCreatePk
  by_cases hd : fs dir = some .dir
  · rw [if_neg (not_not.mpr hd)]
    cases h : Cache.loadPk H fs c dir d with
    | ok v => exact .refl
    | error f =>
      cases f with
      | panic => exact .refl
      | err =>
        simp only
        have h1 := keepVk_lcVk hH hi c d w
        rcases hv : loadOrCreateVk H fs c dir (paramsFor H M d) d w with ⟨fs1, res⟩
        rw [hv] at h1
        obtain ⟨hk1, hv1, _⟩ := h1
        cases res with
        | error f => exact hk1
        | ok v =>
          simp only
          cases hx : H.keygenPk (paramsFor H M d) v c with
          | none => exact hk1
          | some x =>
            simp only
            have hv2 := hv1 v rfl
            dsimp only at hv2 hk1
            rcases hw : writeFile fs1 (pkPath dir c d) (H.writePk x) w' with ⟨fs2, res⟩
            have hvk : ∀ c' d', fs2 (vkPath dir c' d') = fs1 (vkPath dir c' d') := fun c' d' =>
              writeFile_other hw (vk_ne_pk dir c' d' c d)
            have hkeep : KeepVk H dir M fs1 fs2 := by
              refine ⟨fun c' d' ⟨v', h1, h2⟩ => ⟨v', h1, by rw [hvk]; exact h2⟩, fun c' d' h => ?_⟩
              by_cases he : c' = c ∧ d' = d
              · obtain ⟨rfl, rfl⟩ := he
                obtain ⟨v', h1, h2⟩ := hv2
                exact Or.inr ⟨v', h1, by rw [hvk]; exact h2⟩
              · rw [writeFile_other (p' := pkPath dir c' d') hw (fun e => he (keyPath_inj e))] at h
                exact Or.inl h
            cases res <;> exact hk1.trans hkeep
  · rw [if_pos hd]
    exact .refl

theorem keepVk_clVk (hH : H.Lawful) (hM : M.Wf) (hk : M.k = 22) (hi : Inv H dir M fs)
    (c : DkgConfig) (d : ℕ) (w0 w1 : Write) : KeepVk H dir M fs (clientVk H fs c dir d w0 w1).1 := by
  unfold clientVk
  have h0 := keepVk_lcParams hM hk hH hi d w0
  have h1 := hi.lcParams hH hM hk d w0
  rcases hp : loadOrCreateParams H fs dir d w0 with ⟨fs1, res⟩
  rw [hp] at h0 h1
  cases res with
  | error f => exact h0
  | ok p =>
    have := h1.2 p rfl
    subst this
    exact h0.trans (keepVk_lcVk hH h1.1 c d w1).1

theorem keepVk_clPk (hH : H.Lawful) (hM : M.Wf) (hk : M.k = 22) (hi : Inv H dir M fs)
    (c : DkgConfig) (d : ℕ) (w0 w1 w2 : Write) : KeepVk H dir M fs (clientPk H fs c dir d w0 w1 w2).1 := by
  unfold clientPk
  have h0 := keepVk_lcParams hM hk hH hi d w0
  have h1 := hi.lcParams hH hM hk d w0
  rcases hp : loadOrCreateParams H fs dir d w0 with ⟨fs1, res⟩
  rw [hp] at h0 h1
  cases res with
  | error f => exact h0
  | ok p =>
    have := h1.2 p rfl
    subst this
    exact h0.trans (keepVk_lcPk hH h1.1 c d w1 w2)

theorem keepVk_setupSkip (hH : H.Lawful) (hM : M.Wf) (hk : M.k = 22) (hi : Inv H dir M fs)
    (t n d : ℕ) (w0 w1 w2 : Write) : KeepVk H dir M fs (setupSkip H fs t n d dir w0 w1 w2).1 := by
  unfold setupSkip
  have h0 := keepVk_lcParams hM hk hH hi d w0
  have h1 := hi.lcParams hH hM hk d w0
  rcases hp : loadOrCreateParams H fs dir d w0 with ⟨fs1, res⟩
  rw [hp] at h0 h1
  cases res with
  | error f => exact h0
  | ok p =>
    have := h1.2 p rfl
    subst this
    cases hc : DkgConfig.new t n with
    | error e => exact h0
    | ok cfg =>
      simp only
      have h3 := keepVk_lcPk hH h1.1 cfg d w1 w2
      rcases hq : loadOrCreatePk H fs1 cfg dir (paramsFor H M d) d w1 w2 with ⟨fs2, res⟩
      rw [hq] at h3
      cases res <;> exact h0.trans h3

theorem keepVk_other {q : Path} (hq : Other dir q) (e : Option Entry) : KeepVk H dir M fs (Function.update fs q e) :=
  .of_eq (fun c d => Function.update_of_ne (hq.vk c d).symm _ _) (fun c d => Function.update_of_ne (hq.pk c d).symm _ _)

theorem keepVk_entrypoint (hH : H.Lawful) {server : ℕ → List Byte} (hS : Serves H M server) (hi : Inv H dir M fs)
    {d : ℕ} (hd : d ≤ 22) (t n : ℕ) (f : Fate) : KeepVk H dir M fs (entrypoint H server fs dir t n d f).1 := by
  unfold entrypoint
  obtain ⟨hi1, _⟩ := fetch_spec hS hi hd f.download
  have hk1 : KeepVk H dir M fs (if isFile fs (paramsPath dir d) then (fs, true)
      else download fs (paramsPath dir d) (server d) f.download).1 := by
    by_cases h : isFile fs (paramsPath dir d) = true
    · rw [if_pos h]; exact .refl
    · rw [if_neg h]
      obtain ⟨w, res, hw⟩ := download_write fs (paramsPath dir d) (server d) f.download
      exact keepVk_writeParams hw
  rcases h1 : (if isFile fs (paramsPath dir d) then (fs, true)
      else download fs (paramsPath dir d) (server d) f.download) with ⟨fs1, b1⟩
  rw [h1] at hi1 hk1
  cases b1 with
  | false => exact hk1
  | true =>
    simp only
    have hk2 := keepVk_setupSkip hH hS.wf hS.deg hi1 t n d f.params f.vk f.pk
    rcases h2 : setupSkip H fs1 t n d dir f.params f.vk f.pk with ⟨fs2, b2⟩
    rw [h2] at hk2
    cases b2 with
    | false => exact hk1.trans hk2
    | true =>
      simp only
      refine (hk1.trans hk2).trans ?_
      rcases touch_cases fs2 (healthPath dir t n d) f.touch with he | ⟨_, _, he⟩
      · rw [he]; exact .refl
      · rw [he]; exact keepVk_other (Other.health t n d) _

/-- In every volume from which no verifying key is removed, where there is a proving key its verifying key is complete. -/
theorem Volume.hasVk (hH : H.Lawful) {server : ℕ → List Byte} (hS : Serves H M server) {rm : Set Path}
    (hrm : ∀ c d, vkPath dir c d ∉ rm) (h : Volume H server dir rm fs) (c : DkgConfig) (d : ℕ)
    (hp : fs (pkPath dir c d) ≠ none) : HasVk H M dir fs c d := by
  induction h with
  | new h => exact absurd (h.empty _ (key_ne_dir "pk" dir c d)) hp
  | script t n d' f hd' hv ih =>
    have hk := keepVk_entrypoint hH hS (hv.vinv hH hS).inv hd' t n f
    rcases hk.pk c d hp with h | h
    · exact hk.vk c d (ih h)
    · exact h
  | @client fs0 op hop hv ih =>
    have hi := (hv.vinv hH hS).inv
    have done : ∀ fs1, KeepVk H dir M fs0 fs1 → fs1 (pkPath dir c d) ≠ none → HasVk H M dir fs1 c d := by
      intro fs1 hk hp
      rcases hk.pk c d hp with h | h
      · exact hk.vk c d (ih h)
      · exact h
    cases op with
    | params d' w => exact done _ (keepVk_lcParams hS.wf hS.deg hH hi d' w) hp
    | vk c' d' w0 w1 => exact done _ (keepVk_clVk hH hS.wf hS.deg hi c' d' w0 w1) hp
    | pk c' d' w0 w1 w2 => exact done _ (keepVk_clPk hH hS.wf hS.deg hi c' d' w0 w1 w2) hp
    | remove p =>
      dsimp only [Op.run] at hp ⊢
      have hpp : pkPath dir c d ≠ p := by
        intro e
        rw [e, Function.update_self] at hp
        exact hp rfl
      rw [Function.update_of_ne hpp] at hp
      obtain ⟨v, h1, h2⟩ := ih hp
      refine ⟨v, h1, ?_⟩
      rw [Function.update_of_ne (fun e => hrm c d (by rw [e]; exact (hop p rfl).1))]
      exact h2

end Verif.Cache
