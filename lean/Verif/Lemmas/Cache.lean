import Verif.Spec.Cache
import Verif.Lemmas.Bytes
import Verif.Lemmas.ZkdvrfMono

namespace Verif.Cache

/-! ### Reading and writing parameters -/

theorem readExact_append (eof : IoFail) {len : ℕ} (a b : List Byte) (h : a.length = len) :
    readExact eof len (a ++ b) = .ok (a, b) := by
  unfold readExact
  rw [if_neg (by rw [List.length_append]; omega), List.take_left' h, List.drop_left' h]

theorem readExact_ok {eof : IoFail} {len : ℕ} {bs a b : List Byte}
    (h : readExact eof len bs = .ok (a, b)) : a.length = len ∧ bs = a ++ b := by
  unfold readExact at h
  split at h
  · cases h
  · rename_i hl
    simp only [Except.ok.injEq, Prod.mk.injEq] at h
    obtain ⟨rfl, rfl⟩ := h
    exact ⟨by rw [List.length_take]; omega, (List.take_append_drop _ _).symm⟩

theorem readPoints_flatten (eof : IoFail) (len : ℕ) (ps : List (List Byte)) (rest : List Byte)
    (h : ∀ b ∈ ps, b.length = len) :
    readPoints eof len ps.length (ps.flatten ++ rest) = .ok (ps, rest) := by
  induction ps with
  | nil => rfl
  | cons p ps ih =>
    simp only [List.length_cons, readPoints, List.flatten_cons, List.append_assoc]
    rw [readExact_append eof p _ (h p (by simp))]
    simp only [bind, Except.bind, ih (fun b hb => h b (by simp [hb]))]
    rfl

theorem readPoints_ok {eof : IoFail} {len : ℕ} : ∀ {n : ℕ} {bs : List Byte}
    {ps : List (List Byte)} {rest : List Byte}, readPoints eof len n bs = .ok (ps, rest) →
    ps.length = n ∧ (∀ b ∈ ps, b.length = len) ∧ bs = ps.flatten ++ rest
  | 0, bs, ps, rest, h => by
    simp only [readPoints, Except.ok.injEq, Prod.mk.injEq] at h
    obtain ⟨rfl, rfl⟩ := h
    simp
  | n + 1, bs, ps, rest, h => by
    simp only [readPoints, bind, Except.bind] at h
    split at h
    · cases h
    rename_i x hx
    obtain ⟨p, b1⟩ := x
    obtain ⟨h1, rfl⟩ := readExact_ok hx
    simp only at h
    split at h
    · cases h
    rename_i y hy
    obtain ⟨ps', b2⟩ := y
    obtain ⟨h2, h3, rfl⟩ := readPoints_ok hy
    simp only [pure, Except.pure, Except.ok.injEq, Prod.mk.injEq] at h
    obtain ⟨rfl, rfl⟩ := h
    refine ⟨by simp [h2], ?_, by simp⟩
    intro b hb
    rcases List.mem_cons.1 hb with rfl | hb
    · exact h1
    · exact h3 b hb

theorem readParams_write (eof : IoFail) {p : Params} (h : p.Wf) (rest : List Byte) :
    readParams eof (p.write ++ rest) = .ok p := by
  obtain ⟨k, g, gl, g2, sg2⟩ := p
  obtain ⟨h0, h1, h2, h3, h4, h5, h6⟩ := h
  simp only at h0 h1 h2 h3 h4 h5 h6
  have hk : ofLE (leBytes 4 k) = k := by
    rw [ofLE_leBytes]
    exact Nat.mod_eq_of_lt (by simpa using h0)
  simp only [readParams, Params.write, List.append_assoc]
  rw [readExact_append .err _ _ (length_leBytes 4 k)]
  simp only [bind, Except.bind, hk]
  rw [← h1, readPoints_flatten eof 64 g _ h3]
  simp only
  rw [h1, ← h2, readPoints_flatten eof 64 gl _ h4]
  simp only
  rw [readExact_append eof _ _ h5]
  simp only
  rw [readExact_append eof _ _ h6]
  rfl

theorem readParams_ok {eof : IoFail} {bs : List Byte} {p : Params}
    (h : readParams eof bs = .ok p) : p.Wf ∧ ∃ rest, bs = p.write ++ rest := by
  simp only [readParams, bind, Except.bind] at h
  split at h
  · cases h
  rename_i x hx
  obtain ⟨hd, b1⟩ := x
  obtain ⟨l1, rfl⟩ := readExact_ok hx
  simp only at h
  split at h
  · cases h
  rename_i x hx
  obtain ⟨g, b2⟩ := x
  obtain ⟨l2, p2, rfl⟩ := readPoints_ok hx
  simp only at h
  split at h
  · cases h
  rename_i x hx
  obtain ⟨gl, b3⟩ := x
  obtain ⟨l3, p3, rfl⟩ := readPoints_ok hx
  simp only at h
  split at h
  · cases h
  rename_i x hx
  obtain ⟨g2, b4⟩ := x
  obtain ⟨l4, rfl⟩ := readExact_ok hx
  simp only at h
  split at h
  · cases h
  rename_i x hx
  obtain ⟨sg2, b5⟩ := x
  obtain ⟨l5, rfl⟩ := readExact_ok hx
  simp only [pure, Except.pure, Except.ok.injEq] at h
  subst h
  have e : leBytes 4 (ofLE hd) = hd := by
    have := leBytes_ofLE hd
    rwa [l1] at this
  refine ⟨⟨?_, l2, l3, p2, p3, l4, l5⟩, b5, ?_⟩
  · have := ofLE_lt hd
    rw [l1] at this
    simpa using this
  · simp only [Params.write, e, List.append_assoc]

private theorem flatten_len {n : ℕ} (ps : List (List Byte)) (h : ∀ b ∈ ps, b.length = n) :
    ps.flatten.length = ps.length * n := by
  induction ps with
  | nil => simp
  | cons p ps ih =>
    rw [List.flatten_cons, List.length_append, h p (by simp), ih (fun b hb => h b (by simp [hb])),
      List.length_cons, Nat.succ_mul, Nat.add_comm]

theorem length_write {p : Params} (h : p.Wf) : p.write.length = 4 + 2 * 2 ^ p.k * 64 + 256 := by
  unfold Params.write
  simp only [List.length_append, length_leBytes, flatten_len _ h.g_pt, flatten_len _ h.gl_pt,
    h.g_len, h.gl_len, h.g2_len, h.sg2_len]
  omega

theorem expectedLen_ok {d len : ℕ} (h : expectedLen d = .ok len) :
    d ≤ 56 ∧ len = 4 + 2 * 2 ^ d * 64 + 256 := by
  unfold expectedLen at h
  split at h
  · cases h
  · simp only [Except.ok.injEq] at h
    exact ⟨by omega, by omega⟩

theorem len_inj {a b : ℕ} (h : 4 + 2 * 2 ^ a * 64 + 256 = 4 + 2 * 2 ^ b * 64 + 256) : a = b :=
  Nat.pow_right_injective (le_refl 2) (by simp only; omega)

/-- What a successful load of parameters from a path that is not a directory has read. -/
theorem loadParams_ok {H : Halo2} {fs : FS} {path : Path} {d : ℕ} {p : Params}
    (hd : fs path ≠ some .dir) (h : loadParams H fs path d = .ok p) :
    ∃ b, fs path = some (.file b) ∧ d ≤ 56 ∧ b.length = 4 + 2 * 2 ^ d * 64 + 256 ∧ p.Wf ∧
      ∃ rest, b = p.write ++ rest := by
  cases hf : fs path with
  | none => simp [loadParams, hf, bind, Except.bind] at h
  | some e =>
    cases e with
    | dir => exact absurd hf hd
    | file b =>
      simp only [loadParams, hf, bind, Except.bind, openFile] at h
      cases he : expectedLen d with
      | error f => simp [he] at h
      | ok len =>
        simp only [he] at h
        split at h
        · simp at h
        · rename_i hl
          obtain ⟨h1, h2⟩ := expectedLen_ok he
          have hl' : b.length = len := by
            by_contra hc
            exact hl hc
          obtain ⟨h3, h4⟩ := readParams_ok h
          exact ⟨b, rfl, h1, by omega, h3, h4⟩

theorem loadParams_len {H : Halo2} {fs : FS} {path : Path} {d : ℕ} {b : List Byte} (hd : d ≤ 56)
    (hf : fs path = some (.file b)) (hl : b.length ≠ 4 + 2 * 2 ^ d * 64 + 256) :
    loadParams H fs path d = .error .err := by
  have he : expectedLen d = .ok (4 + 2 * 2 ^ d * 64 + 256) := by
    unfold expectedLen
    rw [if_neg (by omega)]
  simp only [loadParams, hf, bind, Except.bind, openFile, he]
  rw [if_pos hl]

theorem loadParams_none {H : Halo2} {fs : FS} {path : Path} {d : ℕ} (hf : fs path = none) :
    loadParams H fs path d = .error .err := by
  simp [loadParams, hf, bind, Except.bind]

theorem loadParams_write {H : Halo2} {fs : FS} {path : Path} {p : Params} (hp : p.Wf)
    (hk : p.k ≤ 56) (hf : fs path = some (.file p.write)) :
    loadParams H fs path p.k = .ok p := by
  have he : expectedLen p.k = .ok (4 + 2 * 2 ^ p.k * 64 + 256) := by
    unfold expectedLen
    rw [if_neg (by omega)]
  simp only [loadParams, hf, bind, Except.bind, openFile, he]
  rw [if_neg (by rw [length_write hp]; simp)]
  have := readParams_write H.eof hp []
  rwa [List.append_nil] at this

/-! ### Names -/

theorem decimal_digits (n : ℕ) : ∀ b ∈ decimal n, 48 ≤ b.val ∧ b.val ≤ 57 := by
  induction n using Nat.strong_induction_on with
  | _ n ih =>
    intro b hb
    rw [decimal.eq_def] at hb
    have hdig : ∀ a, a < 10 → 48 ≤ (Fin.ofNat 256 (48 + a) : Byte).val ∧
        (Fin.ofNat 256 (48 + a) : Byte).val ≤ 57 := by
      intro a ha
      simp only [Fin.ofNat]
      omega
    split at hb
    · rename_i hn
      rw [List.mem_singleton] at hb
      subst hb
      exact hdig n hn
    · rename_i hn
      rcases List.mem_append.1 hb with hb | hb
      · exact ih (n / 10) (by omega) b hb
      · rw [List.mem_singleton] at hb
        subst hb
        exact hdig _ (Nat.mod_lt _ (by norm_num))

theorem split_unique {x : Byte} : ∀ {a a' b b' : List Byte}, x ∉ a → x ∉ a' →
    a ++ x :: b = a' ++ x :: b' → a = a' ∧ b = b'
  | [], [], b, b', _, _, h => by simpa using h
  | [], c :: a', b, b', _, h2, h => by
    simp only [List.nil_append, List.cons_append, List.cons.injEq] at h
    exact absurd (by simp [h.1]) h2
  | c :: a, [], b, b', h1, _, h => by
    simp only [List.nil_append, List.cons_append, List.cons.injEq] at h
    exact absurd (by simp [h.1]) h1
  | c :: a, c' :: a', b, b', h1, h2, h => by
    simp only [List.cons_append, List.cons.injEq] at h
    obtain ⟨rfl, h⟩ := h
    have := split_unique (fun hm => h1 (by simp [hm])) (fun hm => h2 (by simp [hm])) h
    exact ⟨by rw [this.1], this.2⟩

theorem dash_not_mem (n : ℕ) : (45 : Byte) ∉ decimal n := by
  intro h
  have := (decimal_digits n _ h).1
  simp at this

private theorem str_dash : strBytes "-" = [45] := by decide
private theorem str_params : strBytes "/params" = [47, 112, 97, 114, 97, 109, 115] := by decide
private theorem str_slash : strBytes "/" = [47] := by decide
private theorem str_vk : strBytes "vk" = [118, 107] := by decide
private theorem str_pk : strBytes "pk" = [112, 107] := by decide

theorem paramsPath_inj {dir : Path} {d d' : ℕ} (h : paramsPath dir d = paramsPath dir d') :
    d = d' := Zkdvrf.decimal_inj _ _ (List.append_cancel_left h)

theorem keyPath_inj {kind : String} {dir : Path} {c c' : DkgConfig} {d d' : ℕ}
    (h : keyPath kind dir c d = keyPath kind dir c' d') : c = c' ∧ d = d' := by
  obtain ⟨t, n⟩ := c
  obtain ⟨t', n'⟩ := c'
  simp only [keyPath, List.append_assoc, str_dash] at h
  have h := List.append_cancel_left (List.append_cancel_left (List.append_cancel_left
    (List.append_cancel_left h)))
  have h1 := split_unique (dash_not_mem t) (dash_not_mem t') h
  have h2 := split_unique (dash_not_mem n) (dash_not_mem n') h1.2
  rw [Zkdvrf.decimal_inj _ _ h1.1, Zkdvrf.decimal_inj _ _ h2.1, Zkdvrf.decimal_inj _ _ h2.2]
  exact ⟨rfl, rfl⟩

theorem params_ne_vk (dir : Path) (d : ℕ) (c : DkgConfig) (d' : ℕ) :
    paramsPath dir d ≠ vkPath dir c d' := by
  intro h
  simp only [paramsPath, vkPath, keyPath, List.append_assoc, str_params, str_slash, str_vk] at h
  have h := List.append_cancel_left h
  simp at h

theorem params_ne_pk (dir : Path) (d : ℕ) (c : DkgConfig) (d' : ℕ) :
    paramsPath dir d ≠ pkPath dir c d' := by
  intro h
  simp only [paramsPath, pkPath, keyPath, List.append_assoc, str_params, str_slash, str_pk] at h
  have h := List.append_cancel_left h
  simp at h

theorem vk_ne_pk (dir : Path) (c : DkgConfig) (d : ℕ) (c' : DkgConfig) (d' : ℕ) :
    vkPath dir c d ≠ pkPath dir c' d' := by
  intro h
  simp only [vkPath, pkPath, keyPath, List.append_assoc, str_slash, str_vk, str_pk] at h
  have h := List.append_cancel_left h
  simp at h

/-! ### The invariant of a cache directory -/

theorem paramsFor_wf {H : Halo2} (hH : H.Lawful) {M : Params} (hM : M.Wf) (hk : M.k = 22) (d : ℕ) :
    (paramsFor H M d).Wf ∧ (paramsFor H M d).k = min d 22 := by
  unfold paramsFor
  split
  · rename_i hd
    have hl : (M.g.take (2 ^ d)).length = 2 ^ d := by
      rw [List.length_take, hM.g_len, hk]
      exact Nat.min_eq_left (Nat.pow_le_pow_right (by norm_num) (by omega))
    refine ⟨⟨?_, hl, hH.lagrange_len _ _ hl, fun b hb => hM.g_pt b (List.mem_of_mem_take hb),
      hH.lagrange_pt _ _, hM.g2_len, hM.sg2_len⟩, ?_⟩
    · show d < 2 ^ 32
      calc d < 22 := hd
        _ < 2 ^ 32 := by norm_num
    · show d = min d 22
      omega
  · exact ⟨hM, by omega⟩

structure Inv (H : Halo2) (dir : Path) (M : Params) (fs : FS) : Prop where
  params : ∀ d, fs (paramsPath dir d) = none ∨
    (d ≤ 22 ∧ ∃ k, fs (paramsPath dir d) = some (.file ((paramsFor H M d).write.take k)))
  vk : ∀ cfg d, fs (vkPath dir cfg d) = none ∨
    ∃ v k, H.keygenVk (paramsFor H M d) cfg = some v ∧
      fs (vkPath dir cfg d) = some (.file ((H.writeVk v).take k))
  pk : ∀ cfg d, fs (pkPath dir cfg d) = none ∨
    ∃ v w k, H.keygenVk (paramsFor H M d) cfg = some v ∧
      H.keygenPk (paramsFor H M d) v cfg = some w ∧
      fs (pkPath dir cfg d) = some (.file ((H.writePk w).take k))

theorem writeFile_other {fs fs' : FS} {p p' : Path} {b : List Byte} {w : Write} {res : Io Unit}
    (h : writeFile fs p b w = (fs', res)) (hp : p' ≠ p) : fs' p' = fs p' := by
  unfold writeFile at h
  split at h
  · obtain ⟨rfl, _⟩ := Prod.mk.inj h; rfl
  · split at h
    · obtain ⟨rfl, _⟩ := Prod.mk.inj h; rfl
    · obtain ⟨rfl, _⟩ := Prod.mk.inj h; exact Function.update_of_ne hp _ _
  · split at h
    · obtain ⟨rfl, _⟩ := Prod.mk.inj h; rfl
    · obtain ⟨rfl, _⟩ := Prod.mk.inj h; exact Function.update_of_ne hp _ _

theorem writeFile_self {fs fs' : FS} {p : Path} {b : List Byte} {w : Write} {res : Io Unit}
    (h : writeFile fs p b w = (fs', res)) :
    fs' p = fs p ∨ ∃ k, fs' p = some (.file (b.take k)) := by
  unfold writeFile at h
  split at h
  · obtain ⟨rfl, _⟩ := Prod.mk.inj h; exact Or.inl rfl
  · split at h
    · obtain ⟨rfl, _⟩ := Prod.mk.inj h; exact Or.inl rfl
    · obtain ⟨rfl, _⟩ := Prod.mk.inj h
      exact Or.inr ⟨b.length, by rw [Function.update_self, List.take_length]⟩
  · split at h
    · obtain ⟨rfl, _⟩ := Prod.mk.inj h; exact Or.inl rfl
    · obtain ⟨rfl, _⟩ := Prod.mk.inj h
      rename_i k _ _
      exact Or.inr ⟨k, Function.update_self _ _ _⟩

theorem writeFile_ok {fs fs' : FS} {p : Path} {b : List Byte} {w : Write}
    (h : writeFile fs p b w = (fs', .ok ())) :
    fs' = Function.update fs p (some (.file b)) := by
  unfold writeFile at h
  split at h
  · cases (Prod.mk.inj h).2
  · split at h
    · cases (Prod.mk.inj h).2
    · exact (Prod.mk.inj h).1.symm
  · split at h
    · cases (Prod.mk.inj h).2
    · cases (Prod.mk.inj h).2

variable {H : Halo2} {dir : Path} {M : Params} {fs : FS}

theorem Inv.notDir (hi : Inv H dir M fs) (d : ℕ) : fs (paramsPath dir d) ≠ some .dir := by
  rcases hi.params d with h | ⟨_, k, h⟩ <;> rw [h] <;> simp

/-- A prefix of a parameter file that is loaded successfully is the whole file. -/
theorem Inv.load (hH : H.Lawful) (hM : M.Wf) (hk : M.k = 22) (hi : Inv H dir M fs) {d : ℕ}
    {p : Params} (h : loadParams H fs (paramsPath dir d) d = .ok p) :
    p = paramsFor H M d ∧ d ≤ 22 := by
  obtain ⟨b, hb, h56, hl, hw, rest, hr⟩ := loadParams_ok (hi.notDir d) h
  rcases hi.params d with h' | ⟨hd, k, h'⟩
  · rw [h'] at hb; cases hb
  · rw [h'] at hb
    simp only [Option.some.injEq, Entry.file.injEq] at hb
    obtain ⟨wf, kk⟩ := paramsFor_wf hH hM hk d
    have hlen := length_write wf
    rw [kk, Nat.min_eq_left hd] at hlen
    have hfull : b = (paramsFor H M d).write := by
      rw [← hb]
      apply List.take_of_length_le
      rw [← hb, List.length_take] at hl
      omega
    have := readParams_write H.eof hw rest
    rw [← hr, hfull] at this
    have h2 := readParams_write H.eof wf []
    rw [List.append_nil, this] at h2
    exact ⟨Except.ok.inj h2, hd⟩

theorem Inv.setParams (hi : Inv H dir M fs) {d : ℕ} (hd : d ≤ 22) {fs' : FS} {w : Write}
    {res : Io Unit}
    (h : writeFile fs (paramsPath dir d) (paramsFor H M d).write w = (fs', res)) :
    Inv H dir M fs' := by
  constructor
  · intro d'
    by_cases he : d' = d
    · subst he
      rcases writeFile_self h with h' | ⟨k, h'⟩
      · rw [h']; exact hi.params d'
      · exact Or.inr ⟨hd, k, h'⟩
    · rw [writeFile_other h (fun e => he (paramsPath_inj e))]
      exact hi.params d'
  · intro c d'
    rw [writeFile_other h (params_ne_vk dir d c d').symm]
    exact hi.vk c d'
  · intro c d'
    rw [writeFile_other h (params_ne_pk dir d c d').symm]
    exact hi.pk c d'

theorem Inv.setVk (hi : Inv H dir M fs) {cfg : DkgConfig} {d : ℕ} {v : H.Vk}
    (hv : H.keygenVk (paramsFor H M d) cfg = some v) {fs' : FS} {w : Write}
    {res : Io Unit} (h : writeFile fs (vkPath dir cfg d) (H.writeVk v) w = (fs', res)) :
    Inv H dir M fs' := by
  constructor
  · intro d'
    rw [writeFile_other h (params_ne_vk dir d' cfg d)]
    exact hi.params d'
  · intro c d'
    by_cases he : c = cfg ∧ d' = d
    · obtain ⟨rfl, rfl⟩ := he
      rcases writeFile_self h with h' | ⟨k, h'⟩
      · rw [h']; exact hi.vk c d'
      · exact Or.inr ⟨v, k, hv, h'⟩
    · rw [writeFile_other (p' := vkPath dir c d') h (fun e => he (keyPath_inj e))]
      exact hi.vk c d'
  · intro c d'
    rw [writeFile_other h (vk_ne_pk dir cfg d c d').symm]
    exact hi.pk c d'

theorem Inv.setPk (hi : Inv H dir M fs) {cfg : DkgConfig} {d : ℕ} {v : H.Vk} {x : H.Pk}
    (hv : H.keygenVk (paramsFor H M d) cfg = some v)
    (hx : H.keygenPk (paramsFor H M d) v cfg = some x) {fs' : FS} {w : Write}
    {res : Io Unit} (h : writeFile fs (pkPath dir cfg d) (H.writePk x) w = (fs', res)) :
    Inv H dir M fs' := by
  constructor
  · intro d'
    rw [writeFile_other h (params_ne_pk dir d' cfg d)]
    exact hi.params d'
  · intro c d'
    rw [writeFile_other h (vk_ne_pk dir c d' cfg d)]
    exact hi.vk c d'
  · intro c d'
    by_cases he : c = cfg ∧ d' = d
    · obtain ⟨rfl, rfl⟩ := he
      rcases writeFile_self h with h' | ⟨k, h'⟩
      · rw [h']; exact hi.pk c d'
      · exact Or.inr ⟨v, x, k, hv, hx, h'⟩
    · rw [writeFile_other (p' := pkPath dir c d') h (fun e => he (keyPath_inj e))]
      exact hi.pk c d'

theorem downsize_eq {H : Halo2} {M : Params} (hk : M.k = 22) {d : ℕ} (hd : d < 22) :
    M.downsize H d = .ok (paramsFor H M d) := by
  unfold Params.downsize paramsFor
  rw [if_pos (by omega), if_pos hd]

theorem paramsFor_max : paramsFor H M 22 = M := by
  unfold paramsFor
  rw [if_neg (by omega)]

/-- `load_or_create_params` preserves the invariant and returns the right parameters. -/
theorem Inv.lcParams (hH : H.Lawful) (hM : M.Wf) (hk : M.k = 22) (hi : Inv H dir M fs) (d : ℕ)
    (w : Write) :
    Inv H dir M (loadOrCreateParams H fs dir d w).1 ∧
    (∀ p, (loadOrCreateParams H fs dir d w).2 = .ok p → p = paramsFor H M d) := by
  unfold loadOrCreateParams
  cases h : loadParams H fs (paramsPath dir d) d with
  | ok p =>
    refine ⟨hi, ?_⟩
    intro p' hp'
    cases hp'
    exact (hi.load hH hM hk h).1
  | error f =>
    cases f with
    | panic => exact ⟨hi, fun p hp => (by cases hp)⟩
    | err =>
      simp only
      cases hm : loadParams H fs (paramsPath dir maxDegree) maxDegree with
      | error f => cases f <;> exact ⟨hi, fun p hp => (by cases hp)⟩
      | ok p =>
        have hpM : p = M := (hi.load hH hM hk hm).1.trans paramsFor_max
        subst hpM
        simp only
        by_cases hd : d < maxDegree
        · rw [if_pos hd, downsize_eq hk hd]
          simp only
          rcases hw : writeFile fs (paramsPath dir d) (paramsFor H p d).write w with ⟨fs', res⟩
          have hi' := hi.setParams (le_of_lt hd) hw
          cases res with
          | error f => exact ⟨hi', fun p hp => (by cases hp)⟩
          | ok u => exact ⟨hi', fun p hp => (by cases hp; rfl)⟩
        · rw [if_neg hd]
          refine ⟨hi, fun p' hp' => ?_⟩
          cases hp'
          unfold paramsFor
          exact (if_neg hd).symm

theorem Inv.loadVk (hH : H.Lawful) (hi : Inv H dir M fs) (hd : fs dir = some .dir)
    {cfg : DkgConfig} {d : ℕ} {v : H.Vk} (h : loadVk H fs cfg dir d = .ok v) :
    H.keygenVk (paramsFor H M d) cfg = some v := by
  simp only [Cache.loadVk, hd, bind, Except.bind, openFile] at h
  rcases hi.vk cfg d with h' | ⟨v', k, hv, h'⟩
  · simp [h'] at h
  · simp only [h'] at h
    by_cases hl : k < (H.writeVk v').length
    · exact absurd h (hH.vk_cut v' k hl v)
    · rw [List.take_of_length_le (by omega), hH.vk_read] at h
      cases h
      exact hv

theorem Inv.loadPk (hH : H.Lawful) (hi : Inv H dir M fs) (hd : fs dir = some .dir)
    {cfg : DkgConfig} {d : ℕ} {x : H.Pk} (h : loadPk H fs cfg dir d = .ok x) :
    ∃ v, H.keygenVk (paramsFor H M d) cfg = some v ∧
      H.keygenPk (paramsFor H M d) v cfg = some x := by
  simp only [Cache.loadPk, hd, bind, Except.bind, openFile] at h
  rcases hi.pk cfg d with h' | ⟨v', x', k, hv, hx, h'⟩
  · simp [h'] at h
  · simp only [h'] at h
    by_cases hl : k < (H.writePk x').length
    · exact absurd h (hH.pk_cut x' k hl x)
    · rw [List.take_of_length_le (by omega), hH.pk_read] at h
      cases h
      exact ⟨v', hv, hx⟩

theorem Inv.lcVk (hH : H.Lawful) (hi : Inv H dir M fs) (cfg : DkgConfig) (d : ℕ) (w : Write) :
    Inv H dir M (loadOrCreateVk H fs cfg dir (paramsFor H M d) d w).1 ∧
    ∀ v, (loadOrCreateVk H fs cfg dir (paramsFor H M d) d w).2 = .ok v →
      H.keygenVk (paramsFor H M d) cfg = some v := by
  unfold loadOrCreateVk
  by_cases hd : fs dir = some .dir
  · rw [if_neg (by simp [hd])]
    cases h : Cache.loadVk H fs cfg dir d with
    | ok v => exact ⟨hi, fun v' h' => (by cases h'; exact hi.loadVk hH hd h)⟩
    | error f =>
      cases f with
      | panic => exact ⟨hi, fun v' h' => (by cases h')⟩
      | err =>
        simp only
        cases hv : H.keygenVk (paramsFor H M d) cfg with
        | none => exact ⟨hi, fun v' h' => (by cases h')⟩
        | some v =>
          simp only
          rcases hw : writeFile fs (vkPath dir cfg d) (H.writeVk v) w with ⟨fs', res⟩
          have hi' := hi.setVk hv hw
          cases res with
          | error f => exact ⟨hi', fun v' h' => (by cases h')⟩
          | ok u => exact ⟨hi', fun v' h' => (by cases h'; rfl)⟩
  · rw [if_pos hd]
    exact ⟨hi, fun v' h' => (by cases h')⟩

theorem Inv.lcPk (hH : H.Lawful) (hi : Inv H dir M fs) (cfg : DkgConfig) (d : ℕ) (w w' : Write) :
    Inv H dir M (loadOrCreatePk H fs cfg dir (paramsFor H M d) d w w').1 ∧
    ∀ x, (loadOrCreatePk H fs cfg dir (paramsFor H M d) d w w').2 = .ok x →
      ∃ v, H.keygenVk (paramsFor H M d) cfg = some v ∧
        H.keygenPk (paramsFor H M d) v cfg = some x := by
  unfold loadOrCreatePk
  by_cases hd : fs dir = some .dir
  · rw [if_neg (by simp [hd])]
    cases h : Cache.loadPk H fs cfg dir d with
    | ok v => exact ⟨hi, fun v' h' => (by cases h'; exact hi.loadPk hH hd h)⟩
    | error f =>
      cases f with
      | panic => exact ⟨hi, fun v' h' => (by cases h')⟩
      | err =>
        simp only
        have h1 := hi.lcVk hH cfg d w
        rcases hv : loadOrCreateVk H fs cfg dir (paramsFor H M d) d w with ⟨fs1, res⟩
        rw [hv] at h1
        obtain ⟨hi1, hk1⟩ := h1
        cases res with
        | error f => exact ⟨hi1, fun v' h' => (by cases h')⟩
        | ok v =>
          simp only
          have hkv := hk1 v rfl
          cases hx : H.keygenPk (paramsFor H M d) v cfg with
          | none => exact ⟨hi1, fun v' h' => (by cases h')⟩
          | some x =>
            simp only
            rcases hw : writeFile fs1 (pkPath dir cfg d) (H.writePk x) w' with ⟨fs2, res⟩
            have hi' := Inv.setPk hi1 hkv hx hw
            cases res with
            | error f => exact ⟨hi', fun v' h' => (by cases h')⟩
            | ok u => exact ⟨hi', fun v' h' => (by cases h'; exact ⟨v, hkv, hx⟩)⟩
  · rw [if_pos hd]
    exact ⟨hi, fun v' h' => (by cases h')⟩

theorem Inv.clVk (hH : H.Lawful) (hM : M.Wf) (hk : M.k = 22) (hi : Inv H dir M fs)
    (cfg : DkgConfig) (d : ℕ) (w0 w1 : Write) :
    Inv H dir M (clientVk H fs cfg dir d w0 w1).1 ∧
    ∀ v, (clientVk H fs cfg dir d w0 w1).2 = .ok v →
      H.keygenVk (paramsFor H M d) cfg = some v := by
  unfold clientVk
  have h1 := hi.lcParams hH hM hk d w0
  rcases hp : loadOrCreateParams H fs dir d w0 with ⟨fs1, res⟩
  rw [hp] at h1
  cases res with
  | error f => exact ⟨h1.1, fun v' h' => (by cases h')⟩
  | ok p =>
    have := h1.2 p rfl
    subst this
    exact Inv.lcVk hH h1.1 cfg d w1

theorem Inv.clPk (hH : H.Lawful) (hM : M.Wf) (hk : M.k = 22) (hi : Inv H dir M fs)
    (cfg : DkgConfig) (d : ℕ) (w0 w1 w2 : Write) :
    Inv H dir M (clientPk H fs cfg dir d w0 w1 w2).1 ∧
    ∀ x, (clientPk H fs cfg dir d w0 w1 w2).2 = .ok x →
      ∃ v, H.keygenVk (paramsFor H M d) cfg = some v ∧
        H.keygenPk (paramsFor H M d) v cfg = some x := by
  unfold clientPk
  have h1 := hi.lcParams hH hM hk d w0
  rcases hp : loadOrCreateParams H fs dir d w0 with ⟨fs1, res⟩
  rw [hp] at h1
  cases res with
  | error f => exact ⟨h1.1, fun v' h' => (by cases h')⟩
  | ok p =>
    have := h1.2 p rfl
    subst this
    exact Inv.lcPk hH h1.1 cfg d w1 w2

theorem Fresh.inv (h : Fresh dir M fs) : Inv H dir M fs := by
  refine ⟨?_, fun cfg d => Or.inl (h.noVk cfg d), fun cfg d => Or.inl (h.noPk cfg d)⟩
  intro d
  by_cases hd : d = 22
  · subst hd
    refine Or.inr ⟨le_rfl, M.write.length, ?_⟩
    rw [paramsFor_max, List.take_length]
    exact h.max
  · exact Or.inl (h.noParams d hd)

theorem Inv.remove (hi : Inv H dir M fs) (p : Path) :
    Inv H dir M (Function.update fs p none) := by
  constructor
  · intro d
    by_cases h : paramsPath dir d = p
    · subst h; exact Or.inl (Function.update_self _ _ _)
    · rw [Function.update_of_ne h]; exact hi.params d
  · intro c d
    by_cases h : vkPath dir c d = p
    · subst h; exact Or.inl (Function.update_self _ _ _)
    · rw [Function.update_of_ne h]; exact hi.vk c d
  · intro c d
    by_cases h : pkPath dir c d = p
    · subst h; exact Or.inl (Function.update_self _ _ _)
    · rw [Function.update_of_ne h]; exact hi.pk c d

theorem Runs.inv {fs0 : FS} (hH : H.Lawful) (h0 : Fresh dir M fs0) (hr : Runs H dir fs0 fs) :
    Inv H dir M fs := by
  induction hr with
  | init => exact h0.inv
  | step op _ ih =>
    cases op with
    | params d w => exact (ih.lcParams hH h0.wf h0.deg d w).1
    | vk cfg d w0 w1 => exact (ih.clVk hH h0.wf h0.deg cfg d w0 w1).1
    | pk cfg d w0 w1 w2 => exact (ih.clPk hH h0.wf h0.deg cfg d w0 w1 w2).1
    | remove p => exact ih.remove p

end Verif.Cache
