import Verif.Model.Clean
import Verif.Props.Setup

/-!
C45, for the scripts that remove the keys and download the parameters again.
-/

namespace Verif.Props
open Verif Cache

private theorem str_dir : kzgDir = [46, 47, 107, 122, 103, 95, 112, 97, 114, 97, 109, 115] := by decide
private theorem str_con : strBytes "./contracts" = [46, 47, 99, 111, 110, 116, 114, 97, 99, 116, 115] := by decide
private theorem str_params : strBytes "/params" = [47, 112, 97, 114, 97, 109, 115] := by decide
private theorem str_slash : strBytes "/" = [47] := by decide
private theorem str_vk : strBytes "vk" = [118, 107] := by decide
private theorem str_pk : strBytes "pk" = [112, 107] := by decide
private theorem str_g2 : strBytes "-g2-" = [45, 103, 50, 45] := by decide
private theorem str_dash : strBytes "-" = [45] := by decide

private theorem decimal_no_slash (n : ℕ) : (47 : Byte) ∉ decimal n := by
  intro h
  have := (decimal_digits n _ h).1
  simp at this

private theorem key_globbed (kind : String) (cfg : DkgConfig) (d : ℕ) :
    Globbed (strBytes kind) (keyPath kind kzgDir cfg d) := by
  refine ⟨strBytes "-g2-" ++ decimal cfg.threshold ++ strBytes "-" ++ decimal cfg.numberOfMembers ++ strBytes "-" ++ decimal d,
    by simp only [keyPath, List.append_assoc], ?_⟩
  simp only [List.mem_append, str_g2, str_dash, not_or]
  exact ⟨⟨⟨⟨⟨by decide, decimal_no_slash _⟩, by decide⟩, decimal_no_slash _⟩, by decide⟩, decimal_no_slash _⟩

private theorem params_not (d : ℕ) : ¬ Globbed (strBytes "pk") (paramsPath kzgDir d) ∧
    ¬ Globbed (strBytes "vk") (paramsPath kzgDir d) := by
  constructor <;> rintro ⟨rest, h, -⟩ <;> simp [paramsPath, str_params, str_slash, str_pk, str_vk] at h

private theorem contract_not (name : List Byte) : ¬ Globbed (strBytes "pk") (contractPath name) ∧
    ¬ Globbed (strBytes "vk") (contractPath name) := by
  constructor <;> rintro ⟨rest, h, -⟩ <;> simp [contractPath, str_con, str_dir] at h

private theorem rm_other {start : List Byte} {fs : FS} {p : Path} (h : ¬ Globbed start p) : (rmAll start fs).1 p = fs p :=
  if_neg (fun e => h e.1)

private theorem rm_flag (start : List Byte) (fs : FS) : (rmAll start fs).2 = true ↔
    (∃ p, Globbed start p ∧ fs p ≠ none) ∧ ∀ p, Globbed start p → fs p ≠ some .dir := by
  simp only [rmAll, decide_eq_true_eq]

private theorem rm_ok {start : List Byte} {fs fs' : FS} (h : rmAll start fs = (fs', true)) {p : Path} (hp : Globbed start p) :
    fs' p = none := by
  have h1 : (rmAll start fs).1 = fs' := by rw [h]
  have h2 : (rmAll start fs).2 = true := by rw [h]
  have h3 := ((rm_flag _ _).1 h2).2 p hp
  rw [← h1]
  exact if_pos ⟨hp, h3⟩

private theorem clean_ok {fs fs' : FS} (h : clean fs = (fs', true)) :
    ∃ fs1, rmAll (strBytes "pk") fs = (fs1, true) ∧ rmAll (strBytes "vk") fs1 = (fs', true) := by
  unfold clean at h
  rcases e : rmAll (strBytes "pk") fs with ⟨fs1, b⟩
  rw [e] at h
  cases b with
  | false => cases h
  | true => exact ⟨fs1, rfl, h⟩

private theorem pk_not_vk {p : Path} (h : Globbed (strBytes "pk") p) : ¬ Globbed (strBytes "vk") p := by
  rintro ⟨r', h', -⟩
  obtain ⟨r, h, -⟩ := h
  rw [h] at h'
  simp [str_pk, str_vk] at h'

/-- C45. Whatever is in the directory: if clean.sh succeeds, then no proving or verifying key of any configuration and degree is
left, and every file that is not named like a key (all parameters and all contracts among them) is as before. -/
theorem C45_clean (fs fs' : FS) (h : clean fs = (fs', true)) :
    (∀ cfg d, fs' (vkPath kzgDir cfg d) = none ∧ fs' (pkPath kzgDir cfg d) = none) ∧
    (∀ p, ¬ Globbed (strBytes "pk") p → ¬ Globbed (strBytes "vk") p → fs' p = fs p) ∧
    (∀ d, fs' (paramsPath kzgDir d) = fs (paramsPath kzgDir d)) ∧
    (∀ name, fs' (contractPath name) = fs (contractPath name)) := by
  obtain ⟨fs1, h1, h2⟩ := clean_ok h
  have ho : ∀ p, ¬ Globbed (strBytes "pk") p → ¬ Globbed (strBytes "vk") p → fs' p = fs p := by
    intro p n1 n2
    have e1 := rm_other (fs := fs) n1
    have e2 := rm_other (fs := fs1) n2
    rw [h1] at e1
    rw [h2] at e2
    exact e2.trans e1
  refine ⟨fun cfg d => ⟨rm_ok h2 (key_globbed "vk" cfg d), ?_⟩, ho, fun d => ho _ (params_not d).1 (params_not d).2,
    fun name => ho _ (contract_not name).1 (contract_not name).2⟩
  have hk := key_globbed "pk" cfg d
  have e2 := rm_other (fs := fs1) (pk_not_vk hk)
  rw [h2] at e2
  exact e2.trans (rm_ok h1 hk)

/-- C45. It succeeds exactly if there is something named like a proving key and something named like a verifying key, and no
directory is. -/
theorem C45_clean_succeeds (fs : FS) : (clean fs).2 = true ↔
    (∃ p, Globbed (strBytes "pk") p ∧ fs p ≠ none) ∧ (∃ p, Globbed (strBytes "vk") p ∧ fs p ≠ none) ∧
      ∀ p, Globbed (strBytes "pk") p ∨ Globbed (strBytes "vk") p → fs p ≠ some .dir := by
  have hv : ∀ p, Globbed (strBytes "vk") p → (rmAll (strBytes "pk") fs).1 p = fs p := fun p hp =>
    rm_other (fun e => pk_not_vk e hp)
  have hb : (rmAll (strBytes "pk") fs).2 = true ↔ (∃ p, Globbed (strBytes "pk") p ∧ fs p ≠ none) ∧
      ∀ p, Globbed (strBytes "pk") p → fs p ≠ some .dir := rm_flag _ _
  unfold clean
  rcases e : rmAll (strBytes "pk") fs with ⟨fs1, b⟩
  rw [e] at hv hb
  cases b with
  | false =>
    refine ⟨fun h => (by cases h), fun h => ?_⟩
    exact absurd (hb.2 ⟨h.1, fun p hp => h.2.2 p (Or.inl hp)⟩) (fun h => by cases h)
  | true =>
    have hp := hb.1 rfl
    dsimp only
    rw [rm_flag]
    constructor
    · rintro ⟨⟨p, h1, h2⟩, h3⟩
      refine ⟨hp.1, ⟨p, h1, by rw [← hv p h1]; exact h2⟩, fun q hq => ?_⟩
      rcases hq with hq | hq
      · exact hp.2 q hq
      · rw [← hv q hq]; exact h3 q hq
    · rintro ⟨-, ⟨p, h1, h2⟩, h3⟩
      exact ⟨⟨p, h1, by rw [show fs1 p = fs p from hv p h1]; exact h2⟩, fun q hq => by
        rw [show fs1 q = fs q from hv q hq]; exact h3 q (Or.inr hq)⟩

/-- C45. download_params.sh changes nothing but the file of the parameters of degree 22, which afterwards is what was downloaded,
and if it was stopped is absent or a beginning of that, whatever it was before. -/
theorem C45_download (fs fs' : FS) (bytes : List Byte) (w : Write) (res : Io Unit)
    (h : downloadParams fs bytes w = (fs', res)) :
    (∀ p, p ≠ paramsPath kzgDir 22 → fs' p = fs p) ∧
    (res = .ok () → fs' (paramsPath kzgDir 22) = some (.file bytes)) ∧
    (fs' (paramsPath kzgDir 22) = none ∨ ∃ k, fs' (paramsPath kzgDir 22) = some (.file (bytes.take k))) := by
  unfold downloadParams at h
  refine ⟨fun p hp => ?_, fun hr => ?_, ?_⟩
  · rw [writeFile_other h hp, Function.update_of_ne hp]
  · subst hr
    rw [writeFile_ok h]
    exact Function.update_self _ _ _
  · rcases writeFile_self h with h' | h'
    · exact Or.inl (h'.trans (Function.update_self _ _ _))
    · exact Or.inr h'

/-- C45. Together the scripts repair every cache that has no other parameter files: after a complete download of the parameters
and a clean.sh that succeeds, the directory is fresh, so that all theorems about histories from a fresh directory hold from
there, whatever the keys and the parameters were before. -/
theorem C45_repair (M : Params) (hw : M.Wf) (hk : M.k = 22) (fs fs1 fs' : FS)
    (hp : ∀ d, d ≠ 22 → fs (paramsPath kzgDir d) = none)
    (h1 : downloadParams fs M.write .done = (fs1, .ok ())) (h2 : clean fs1 = (fs', true)) : Fresh kzgDir M fs' := by
  obtain ⟨c1, -, c2, -⟩ := C45_clean fs1 fs' h2
  have e := writeFile_ok h1
  refine ⟨hw, hk, ?_, fun d hd => ?_, fun cfg d => (c1 cfg d).1, fun cfg d => (c1 cfg d).2⟩
  · rw [c2, e]; exact Function.update_self _ _ _
  · have hne : paramsPath kzgDir d ≠ paramsPath kzgDir 22 := fun h => hd (paramsPath_inj h)
    rw [c2, e, Function.update_of_ne hne, Function.update_of_ne hne]
    exact hp d hd

/-- C45 (limit). Without a proving key clean.sh fails and removes nothing: verifying keys stay, although they may be wrong. -/
theorem C45_clean_violation (fs : FS) (h : ∀ p, Globbed (strBytes "pk") p → fs p = none) : clean fs = (fs, false) := by
  have h1 : (rmAll (strBytes "pk") fs).1 = fs := by
    funext p
    by_cases hp : Globbed (strBytes "pk") p ∧ fs p ≠ some .dir
    · exact (if_pos hp).trans (h p hp.1).symm
    · exact if_neg hp
  have h2 : (rmAll (strBytes "pk") fs).2 = false := by
    rw [← Bool.not_eq_true, rm_flag]
    rintro ⟨⟨p, hp, hn⟩, -⟩
    exact hn (h p hp)
  unfold clean
  rcases e : rmAll (strBytes "pk") fs with ⟨fs1, b⟩
  rw [e] at h1 h2
  cases h1
  cases h2
  rfl

/-- A directory with a cut proving key and a verifying key of 3 of 5. -/
private def dirty : FS := Function.update (Function.update (fun _ => none) (pkPath kzgDir ⟨3, 5⟩ 18) (some (.file [1])))
  (vkPath kzgDir ⟨3, 5⟩ 18) (some (.file [3]))

private theorem dirty_clean (bytes : List Byte) :
    ∃ fs1, downloadParams dirty bytes .done = (fs1, .ok ()) ∧ (clean fs1).2 = true := by
  refine ⟨Function.update (Function.update dirty (paramsPath kzgDir 22) none) (paramsPath kzgDir 22) (some (.file bytes)), ?_, ?_⟩
  · unfold downloadParams
    dsimp only [writeFile]
    rw [if_neg (by rw [Function.update_self]; exact (fun h => by cases h))]
  · have hne : pkPath kzgDir ⟨3, 5⟩ 18 ≠ vkPath kzgDir ⟨3, 5⟩ 18 := fun e =>
      pk_not_vk (key_globbed "pk" ⟨3, 5⟩ 18) (by
        rw [show keyPath "pk" kzgDir ⟨3, 5⟩ 18 = _ from e]; exact key_globbed "vk" ⟨3, 5⟩ 18)
    refine (C45_clean_succeeds _).2 ⟨⟨pkPath kzgDir ⟨3, 5⟩ 18, key_globbed "pk" ⟨3, 5⟩ 18, ?_⟩,
      ⟨vkPath kzgDir ⟨3, 5⟩ 18, key_globbed "vk" ⟨3, 5⟩ 18, ?_⟩, fun p _ => ?_⟩
    · rw [Function.update_of_ne (params_ne_pk _ _ _ _).symm, Function.update_of_ne (params_ne_pk _ _ _ _).symm]
      unfold dirty
      rw [Function.update_of_ne hne, Function.update_self]
      exact (fun h => by cases h)
    · rw [Function.update_of_ne (params_ne_vk _ _ _ _).symm, Function.update_of_ne (params_ne_vk _ _ _ _).symm]
      unfold dirty
      rw [Function.update_self]
      exact (fun h => by cases h)
    · by_cases h0 : p = paramsPath kzgDir 22
      · rw [h0, Function.update_self]; exact (fun h => by cases h)
      rw [Function.update_of_ne h0, Function.update_of_ne h0]
      unfold dirty
      by_cases h1 : p = vkPath kzgDir ⟨3, 5⟩ 18
      · rw [h1, Function.update_self]; exact (fun h => by cases h)
      · rw [Function.update_of_ne h1]
        by_cases h2 : p = pkPath kzgDir ⟨3, 5⟩ 18
        · rw [h2, Function.update_self]; exact (fun h => by cases h)
        · rw [Function.update_of_ne h2]; exact (fun h => by cases h)

/-- Both scripts succeed in that directory, and make it fresh. -/
example : ∃ fs1 fs', downloadParams dirty (toyParams 22).write .done = (fs1, .ok ()) ∧ clean fs1 = (fs', true) ∧
    Fresh kzgDir (toyParams 22) fs' := by
  obtain ⟨fs1, h1, h2⟩ := dirty_clean (toyParams 22).write
  rcases h : clean fs1 with ⟨fs', b⟩
  rw [h] at h2
  cases h2
  have hf := toyFS_fresh kzgDir
  refine ⟨fs1, fs', h1, h, C45_repair _ hf.wf hf.deg dirty fs1 fs' (fun d _ => ?_) h1 h⟩
  unfold dirty
  rw [Function.update_of_ne (params_ne_vk _ _ _ _), Function.update_of_ne (params_ne_pk _ _ _ _)]

/-- With a verifying key alone nothing happens. -/
example : clean (Function.update (fun _ => none) (vkPath kzgDir ⟨3, 5⟩ 18) (some (.file [3]))) =
    (Function.update (fun _ => none) (vkPath kzgDir ⟨3, 5⟩ 18) (some (.file [3])), false) := by
  refine C45_clean_violation _ (fun p hp => Function.update_of_ne (fun e => ?_) _ _)
  rw [e] at hp
  exact pk_not_vk hp (key_globbed "vk" ⟨3, 5⟩ 18)

end Verif.Props
