import Verif.Lemmas.Halo2Word

/-! Helper lemmas about reading call data in the on-chain proof verifier. -/

namespace Verif.Halo2

/-- The first `n` words of memory. -/
def memWords (m : Mem) (n : ℕ) : List Word := (List.range n).map fun i => m (0x20 * i)

/-- `n` words of the call data. -/
def cdWords (c : ℕ → Word) (a n : ℕ) : List Word := (List.range n).map fun i => c (a + 0x20 * i)

/-- Bytes of a list of words. -/
def wordBytes (l : List Word) : List Byte := l.flatMap Word.bytes

theorem memBytes_eq (m : Mem) (n : ℕ) : memBytes m n = wordBytes (memWords m n) := by
  unfold memBytes wordBytes memWords
  rw [List.flatMap_map]

/-- The check of `read_ec_point`. -/
def PointOk (x y : Word) : Prop :=
  x.toNat < q ∧ y.toNat < q ∧ mulmod y y qWord = addmod (mulmod x (mulmod x x qWord) qWord) 3 qWord

instance (x y : Word) : Decidable (PointOk x y) := by unfold PointOk; infer_instance

theorem memWords_congr {m m' : Mem} {n : ℕ} (h : ∀ i < n, m (0x20 * i) = m' (0x20 * i)) :
    memWords m n = memWords m' n := by
  unfold memWords
  apply List.map_congr_left
  intro i hi
  exact h i (List.mem_range.1 hi)

theorem memWords_succ (m : Mem) (n : ℕ) : memWords m (n + 1) = memWords m n ++ [m (0x20 * n)] := by
  unfold memWords
  rw [List.range_succ, List.map_append]
  rfl

theorem readScalar_spec (c : ℕ → Word) (s : Rd) (a h : ℕ) (hh : s.hash = 0x20 * h) :
    (readScalar c s a).hash = 0x20 * (h + 1) ∧
    memWords (readScalar c s a).mem (h + 1) = memWords s.mem h ++ [c a] ∧
    (∀ b, b < s.hash ∨ s.hash + 0x20 ≤ b → (readScalar c s a).mem b = s.mem b) ∧
    ((readScalar c s a).ok = true ↔ s.ok = true ∧ (c a).toNat < r) := by
  refine ⟨?_, ?_, ?_, ?_⟩
  · simp only [readScalar, hh]; ring
  · rw [memWords_succ]
    simp only [readScalar, hh, store_same]
    rw [memWords_congr (m' := s.mem)]
    intro i hi
    rw [store_ne (by omega)]
  · intro b hb
    simp only [readScalar]
    rw [store_ne (by omega)]
  · simp only [readScalar, Bool.and_eq_true, decide_eq_true_eq, toNat_rWord]

theorem readScalars_spec (c : ℕ → Word) (s : Rd) (a n h : ℕ) (hh : s.hash = 0x20 * h) :
    (readScalars c s a n).hash = 0x20 * (h + n) ∧
    memWords (readScalars c s a n).mem (h + n) = memWords s.mem h ++ cdWords c a n ∧
    (∀ b, b < s.hash ∨ s.hash + 0x20 * n ≤ b → (readScalars c s a n).mem b = s.mem b) ∧
    ((readScalars c s a n).ok = true ↔ s.ok = true ∧ ∀ i < n, (c (a + 0x20 * i)).toNat < r) := by
  induction n with
  | zero =>
    simp [readScalars, upFrom, cdWords, hh]
  | succ n ih =>
    obtain ⟨i1, i2, i3, i4⟩ := ih
    have e : readScalars c s a (n + 1) = readScalar c (readScalars c s a n) (a + 0x20 * n) := by
      unfold readScalars upFrom
      rw [List.range_succ, List.map_append, List.foldl_append]
      rfl
    rw [e]
    obtain ⟨j1, j2, j3, j4⟩ := readScalar_spec c (readScalars c s a n) (a + 0x20 * n) (h + n) i1
    refine ⟨?_, ?_, ?_, ?_⟩
    · rw [j1, add_assoc]
    · rw [← add_assoc, j2, i2]
      unfold cdWords
      rw [List.range_succ, List.map_append, List.append_assoc]
      rfl
    · intro b hb
      rw [j3 b (by rw [i1]; omega), i3 b (by omega)]
    · rw [j4, i4]
      constructor
      · rintro ⟨⟨h1, h2⟩, h3⟩
        refine ⟨h1, fun i hi => ?_⟩
        by_cases hin : i = n
        · subst hin; exact h3
        · exact h2 i (by omega)
      · rintro ⟨h1, h2⟩
        exact ⟨⟨h1, fun i hi => h2 i (by omega)⟩, h2 n (by omega)⟩

theorem readEcPoint_spec (c : ℕ → Word) (s : Rd) (a h : ℕ) (hh : s.hash = 0x20 * h) :
    (readEcPoint c s a).hash = 0x20 * (h + 2) ∧
    memWords (readEcPoint c s a).mem (h + 2) = memWords s.mem h ++ [c a, c (a + 0x20)] ∧
    (∀ b, b < s.hash ∨ s.hash + 0x40 ≤ b → (readEcPoint c s a).mem b = s.mem b) ∧
    ((readEcPoint c s a).ok = true ↔ s.ok = true ∧ PointOk (c a) (c (a + 0x20))) := by
  refine ⟨?_, ?_, ?_, ?_⟩
  · simp only [readEcPoint, hh]; ring
  · rw [memWords_succ, memWords_succ]
    simp only [readEcPoint, hh]
    rw [show 0x20 * (h + 1) = 0x20 * h + 0x20 by ring, store_same, store_ne (by omega), store_same,
      memWords_congr (m' := s.mem), List.append_assoc]
    · rfl
    · intro i hi
      rw [store_ne (by omega), store_ne (by omega)]
  · intro b hb
    simp only [readEcPoint]
    rw [store_ne (by omega), store_ne (by omega)]
  · simp only [readEcPoint, Bool.and_eq_true, decide_eq_true_eq, toNat_qWord, PointOk, and_assoc]

theorem readPoints_spec (c : ℕ → Word) (s : Rd) (a n h : ℕ) (hh : s.hash = 0x20 * h) :
    (readPoints c s a n).hash = 0x20 * (h + 2 * n) ∧
    memWords (readPoints c s a n).mem (h + 2 * n) = memWords s.mem h ++ cdWords c a (2 * n) ∧
    (∀ b, b < s.hash ∨ s.hash + 0x40 * n ≤ b → (readPoints c s a n).mem b = s.mem b) ∧
    ((readPoints c s a n).ok = true ↔
      s.ok = true ∧ ∀ i < n, PointOk (c (a + 0x40 * i)) (c (a + 0x40 * i + 0x20))) := by
  induction n with
  | zero =>
    simp [readPoints, upFrom, cdWords, hh]
  | succ n ih =>
    obtain ⟨i1, i2, i3, i4⟩ := ih
    have e : readPoints c s a (n + 1) = readEcPoint c (readPoints c s a n) (a + 0x40 * n) := by
      unfold readPoints upFrom
      rw [List.range_succ, List.map_append, List.foldl_append]
      rfl
    rw [e]
    obtain ⟨j1, j2, j3, j4⟩ := readEcPoint_spec c (readPoints c s a n) (a + 0x40 * n) (h + 2 * n) i1
    refine ⟨?_, ?_, ?_, ?_⟩
    · rw [j1]; ring
    · rw [show h + 2 * (n + 1) = h + 2 * n + 2 by ring, j2, i2]
      unfold cdWords
      rw [show 2 * (n + 1) = 2 * n + 1 + 1 by ring, List.range_succ, List.range_succ,
        List.map_append, List.map_append, List.append_assoc, List.append_assoc]
      simp only [List.map_cons, List.map_nil, List.singleton_append]
      rw [show a + 0x20 * (2 * n) = a + 0x40 * n by ring,
        show a + 0x20 * (2 * n + 1) = a + 0x40 * n + 0x20 by ring]
    · intro b hb
      rw [j3 b (by rw [i1]; omega), i3 b (by omega)]
    · rw [j4, i4]
      constructor
      · rintro ⟨⟨h1, h2⟩, h3⟩
        refine ⟨h1, fun i hi => ?_⟩
        by_cases hin : i = n
        · subst hin; exact h3
        · exact h2 i (by omega)
      · rintro ⟨h1, h2⟩
        exact ⟨⟨h1, fun i hi => h2 i (by omega)⟩, h2 n (by omega)⟩

theorem squeeze_spec (keccak : Keccak) (s : Rd) (ch h : ℕ) (hh : s.hash = 0x20 * h) (hch : ch ≠ 0) :
    (squeezeChallenge keccak s ch).hash = 0x20 ∧
    (squeezeChallenge keccak s ch).ok = s.ok ∧
    (squeezeChallenge keccak s ch).mem 0 = keccak (wordBytes (memWords s.mem h)) ∧
    (squeezeChallenge keccak s ch).mem ch = modr (keccak (wordBytes (memWords s.mem h))) ∧
    ∀ b, b ≠ 0 → b ≠ ch → (squeezeChallenge keccak s ch).mem b = s.mem b := by
  unfold squeezeChallenge
  rw [hh, Nat.mul_div_cancel_left _ (by norm_num), memBytes_eq]
  refine ⟨rfl, rfl, ?_, ?_, ?_⟩
  · simp only
    rw [store_same]
  · simp only
    rw [store_ne hch, store_same]
  · intro b h0 h1
    simp only
    rw [store_ne h0, store_ne h1]

theorem squeezeCont_spec (keccak : Keccak) (s : Rd) (ch : ℕ) (hch : ch ≠ 0) :
    (squeezeChallengeCont keccak s ch).hash = s.hash ∧
    (squeezeChallengeCont keccak s ch).ok = s.ok ∧
    (squeezeChallengeCont keccak s ch).mem 0 = keccak (Word.bytes (s.mem 0) ++ [1]) ∧
    (squeezeChallengeCont keccak s ch).mem ch = modr (keccak (Word.bytes (s.mem 0) ++ [1])) ∧
    ∀ b, b ≠ 0 → b ≠ ch → b ≠ 0x20 → (squeezeChallengeCont keccak s ch).mem b = s.mem b := by
  unfold squeezeChallengeCont
  refine ⟨rfl, rfl, ?_, ?_, ?_⟩
  · simp only
    rw [store_same, store_ne (by omega)]
  · simp only
    rw [store_ne hch, store_same, store_ne (by omega)]
  · intro b h0 h1 h2
    simp only
    rw [store_ne h0, store_ne h1, store_ne h2]

theorem copyVk_spec (vk : List Word) (n : ℕ) (m : Mem) :
    (∀ i < n, copyVk vk n m (VK_MPTR + 0x20 * i) = vk.getD i 0) ∧
    ∀ a, a < VK_MPTR ∨ VK_MPTR + 0x20 * n ≤ a → copyVk vk n m a = m a := by
  induction n with
  | zero => exact ⟨fun i hi => absurd hi (by omega), fun a _ => rfl⟩
  | succ n ih =>
    have e : copyVk vk (n + 1) m = (copyVk vk n m).store (VK_MPTR + 0x20 * n) (vk.getD n 0) := by
      unfold copyVk
      rw [List.range_succ, List.foldl_append]
      rfl
    rw [e]
    refine ⟨?_, ?_⟩
    · intro i hi
      by_cases hin : i = n
      · subst hin; rw [store_same]
      · rw [store_ne (by omega)]; exact ih.1 i (by omega)
    · intro a ha
      rw [store_ne (by omega)]; exact ih.2 a (by omega)

/-- The eight hash values of the transcript of `digest`, the instances `ins` and the words `pw` of the
proof. -/
def hash1 (keccak : Keccak) (digest : Word) (ins pw : List Word) : Word :=
  keccak (wordBytes (digest :: ins ++ pw.take 10))
def hash2 (keccak : Keccak) (digest : Word) (ins pw : List Word) : Word :=
  keccak (wordBytes (hash1 keccak digest ins pw :: (pw.drop 10).take 20))
def hash3 (keccak : Keccak) (digest : Word) (ins pw : List Word) : Word :=
  keccak (Word.bytes (hash2 keccak digest ins pw) ++ [1])
def hash4 (keccak : Keccak) (digest : Word) (ins pw : List Word) : Word :=
  keccak (wordBytes (hash3 keccak digest ins pw :: (pw.drop 30).take 18))
def hash5 (keccak : Keccak) (digest : Word) (ins pw : List Word) : Word :=
  keccak (wordBytes (hash4 keccak digest ins pw :: (pw.drop 48).take 10))
def hash6 (keccak : Keccak) (digest : Word) (ins pw : List Word) : Word :=
  keccak (wordBytes (hash5 keccak digest ins pw :: (pw.drop 58).take 78))
def hash7 (keccak : Keccak) (digest : Word) (ins pw : List Word) : Word :=
  keccak (Word.bytes (hash6 keccak digest ins pw) ++ [1])
def hash8 (keccak : Keccak) (digest : Word) (ins pw : List Word) : Word :=
  keccak (wordBytes (hash7 keccak digest ins pw :: (pw.drop 136).take 2))

theorem cdWords_part (c : ℕ → Word) (a : ℕ) (i n m : ℕ) (h : i + n ≤ m) :
    ((cdWords c a m).drop i).take n = cdWords c (a + 0x20 * i) n := by
  apply List.ext_getElem
  · simp [cdWords]; omega
  · intro j h1 h2
    simp only [cdWords, List.getElem_take, List.getElem_drop, List.getElem_map, List.getElem_range]
    congr 1; ring

/-- What the state looks like after a challenge: the hash at 0. -/
structure AtHash (s : Rd) (h : Word) : Prop where
  hash : s.hash = 0x20
  zero : s.mem 0 = h

theorem AtHash.words {s : Rd} {h : Word} (a : AtHash s h) : memWords s.mem 1 = [h] := by
  rw [memWords_succ]
  simp [memWords, a.zero]

/-- A phase: read points, then squeeze. -/
theorem phase_spec (keccak : Keccak) (c : ℕ → Word) (s : Rd) (h : Word) (a n ch : ℕ)
    (hs : AtHash s h) (hn : 0x20 + 0x40 * n ≤ 0x1160) (hch : 0x1160 ≤ ch) :
    let s' := squeezeChallenge keccak (readPoints c s a n) ch
    let h' := keccak (wordBytes (h :: cdWords c a (2 * n)))
    AtHash s' h' ∧ s'.mem ch = modr h' ∧
    (∀ b, 0x1160 ≤ b → b ≠ ch → s'.mem b = s.mem b) ∧
    (s'.ok = true ↔ s.ok = true ∧ ∀ i < n, PointOk (c (a + 0x40 * i)) (c (a + 0x40 * i + 0x20))) := by
  intro s' h'
  obtain ⟨i1, i2, i3, i4⟩ := readPoints_spec c s a n 1 (by rw [hs.hash])
  obtain ⟨j1, j2, j3, j4, j5⟩ := squeeze_spec keccak (readPoints c s a n) ch (1 + 2 * n) i1 (by omega)
  rw [i2, hs.words] at j3 j4
  refine ⟨⟨j1, j3⟩, j4, fun b hb hne => ?_, ?_⟩
  · rw [j5 b (by omega) hne, i3 b (by rw [hs.hash]; omega)]
  · rw [show s'.ok = (readPoints c s a n).ok from j2, i4]

/-- The evaluations, then squeeze. -/
theorem evals_spec (keccak : Keccak) (c : ℕ → Word) (s : Rd) (h : Word) (a n ch : ℕ)
    (hs : AtHash s h) (hn : 0x20 + 0x20 * n ≤ 0x1160) (hch : 0x1160 ≤ ch) :
    let s' := squeezeChallenge keccak (readScalars c s a n) ch
    let h' := keccak (wordBytes (h :: cdWords c a n))
    AtHash s' h' ∧ s'.mem ch = modr h' ∧
    (∀ b, 0x1160 ≤ b → b ≠ ch → s'.mem b = s.mem b) ∧
    (s'.ok = true ↔ s.ok = true ∧ ∀ i < n, (c (a + 0x20 * i)).toNat < r) := by
  intro s' h'
  obtain ⟨i1, i2, i3, i4⟩ := readScalars_spec c s a n 1 (by rw [hs.hash])
  obtain ⟨j1, j2, j3, j4, j5⟩ := squeeze_spec keccak (readScalars c s a n) ch (1 + n) i1 (by omega)
  rw [i2, hs.words] at j3 j4
  refine ⟨⟨j1, j3⟩, j4, fun b hb hne => ?_, ?_⟩
  · rw [j5 b (by omega) hne, i3 b (by rw [hs.hash]; omega)]
  · rw [show s'.ok = (readScalars c s a n).ok from j2, i4]

/-- `squeeze_challenge_cont` after a challenge. -/
theorem cont_spec (keccak : Keccak) (s : Rd) (h : Word) (ch : ℕ)
    (hs : AtHash s h) (hch : 0x1160 ≤ ch) :
    let s' := squeezeChallengeCont keccak s ch
    let h' := keccak (Word.bytes h ++ [1])
    AtHash s' h' ∧ s'.mem ch = modr h' ∧
    (∀ b, 0x1160 ≤ b → b ≠ ch → s'.mem b = s.mem b) ∧ s'.ok = s.ok := by
  intro s' h'
  obtain ⟨j1, j2, j3, j4, j5⟩ := squeezeCont_spec keccak s ch (by omega)
  rw [hs.zero] at j3 j4
  exact ⟨⟨j1.trans hs.hash, j3⟩, j4, fun b hb hne => j5 b (by omega) hne (by omega), j2⟩

/-- One point, then squeeze. -/
theorem point_spec (keccak : Keccak) (c : ℕ → Word) (s : Rd) (h : Word) (a ch : ℕ)
    (hs : AtHash s h) (hch : 0x1160 ≤ ch) :
    let s' := squeezeChallenge keccak (readEcPoint c s a) ch
    let h' := keccak (wordBytes (h :: cdWords c a 2))
    AtHash s' h' ∧ s'.mem ch = modr h' ∧
    (∀ b, 0x1160 ≤ b → b ≠ ch → s'.mem b = s.mem b) ∧
    (s'.ok = true ↔ s.ok = true ∧ PointOk (c a) (c (a + 0x20))) := by
  intro s' h'
  obtain ⟨i1, i2, i3, i4⟩ := readEcPoint_spec c s a 1 (by rw [hs.hash])
  obtain ⟨j1, j2, j3, j4, j5⟩ := squeeze_spec keccak (readEcPoint c s a) ch (1 + 2) i1 (by omega)
  rw [i2, hs.words] at j3 j4
  refine ⟨⟨j1, j3⟩, j4, fun b hb hne => ?_, ?_⟩
  · rw [j5 b (by omega) hne, i3 b (by rw [hs.hash]; omega)]
  · rw [show s'.ok = (readEcPoint c s a).ok from j2, i4]

/-- The conditions on the call data checked while reading it. -/
structure FormatOk (num : Word) (c : ℕ → Word) : Prop where
  len : c PROOF_LEN_CPTR = 0x1180
  count : c NUM_INSTANCE_CPTR = num
  ins : ∀ i < num.toNat, (c (INSTANCE_CPTR + 0x20 * i)).toNat < r
  points : ∀ i < 29, PointOk (c (PROOF_CPTR + 0x40 * i)) (c (PROOF_CPTR + 0x40 * i + 0x20))
  evals : ∀ i < 78, (c (PROOF_CPTR + 0x740 + 0x20 * i)).toNat < r
  w : PointOk (c 0x1184) (c 0x11a4)
  w' : PointOk (c 0x11c4) (c 0x11e4)

theorem prologue_spec (keccak : Keccak) (vk : List Word) (c : ℕ → Word) :
    let p := prologue keccak vk c
    let d := vk.getD 0 0
    let num := vk.getD 1 0
    let ins := cdWords c INSTANCE_CPTR num.toNat
    let pw := cdWords c PROOF_CPTR 140
    (p.2 = true ↔ FormatOk num c) ∧
    p.1 THETA_MPTR = modr (hash1 keccak d ins pw) ∧
    p.1 BETA_MPTR = modr (hash2 keccak d ins pw) ∧
    p.1 GAMMA_MPTR = modr (hash3 keccak d ins pw) ∧
    p.1 Y_MPTR = modr (hash4 keccak d ins pw) ∧
    p.1 X_MPTR = modr (hash5 keccak d ins pw) ∧
    p.1 ZETA_MPTR = modr (hash6 keccak d ins pw) ∧
    p.1 NU_MPTR = modr (hash7 keccak d ins pw) ∧
    p.1 MU_MPTR = modr (hash8 keccak d ins pw) ∧
    ∀ i < 85, p.1 (VK_MPTR + 0x20 * i) = vk.getD i 0 := by
  intro p d num ins pw
  obtain ⟨v1, v2⟩ := copyVk_spec vk 2 (fun _ => 0)
  have vd : copyVk vk 2 (fun _ => 0) VK_DIGEST_MPTR = d := v1 0 (by norm_num)
  have vn : copyVk vk 2 (fun _ => 0) NUM_INSTANCES_MPTR = num := v1 1 (by norm_num)
  -- the state before the instances
  obtain ⟨s0, hs0⟩ : ∃ s0 : Rd, s0 = ⟨(copyVk vk 2 (fun _ => 0)).store 0x00 d,
    decide (c PROOF_LEN_CPTR = 0x1180) && decide (num = c NUM_INSTANCE_CPTR), 0x20⟩ := ⟨_, rfl⟩
  have a0 : AtHash s0 d := ⟨by rw [hs0], by rw [hs0]; simp only; rw [store_same]⟩
  have ok0 : s0.ok = true ↔ c PROOF_LEN_CPTR = 0x1180 ∧ num = c NUM_INSTANCE_CPTR := by
    rw [hs0]; simp only [Bool.and_eq_true, decide_eq_true_eq]
  obtain ⟨s1, hs1⟩ : ∃ s1, s1 = readScalars c s0 INSTANCE_CPTR num.toNat := ⟨_, rfl⟩
  obtain ⟨s2, hs2⟩ : ∃ s2, s2 = squeezeChallenge keccak (readPoints c s1 PROOF_CPTR 5)
    CHALLENGE_MPTR := ⟨_, rfl⟩
  obtain ⟨s3, hs3⟩ : ∃ s3, s3 = squeezeChallenge keccak
    (readPoints c s2 (PROOF_CPTR + 0x0140) 10) (CHALLENGE_MPTR + 0x20) := ⟨_, rfl⟩
  obtain ⟨s4, hs4⟩ : ∃ s4, s4 = squeezeChallengeCont keccak s3 (CHALLENGE_MPTR + 0x40) := ⟨_, rfl⟩
  obtain ⟨s5, hs5⟩ : ∃ s5, s5 = squeezeChallenge keccak
    (readPoints c s4 (PROOF_CPTR + 0x03c0) 9) (CHALLENGE_MPTR + 0x60) := ⟨_, rfl⟩
  obtain ⟨s6, hs6⟩ : ∃ s6, s6 = squeezeChallenge keccak
    (readPoints c s5 (PROOF_CPTR + 0x0600) 5) (CHALLENGE_MPTR + 0x80) := ⟨_, rfl⟩
  obtain ⟨s7, hs7⟩ : ∃ s7, s7 = squeezeChallenge keccak
    (readScalars c s6 (PROOF_CPTR + 0x0740) 78) (CHALLENGE_MPTR + 0xa0) := ⟨_, rfl⟩
  obtain ⟨s8, hs8⟩ : ∃ s8, s8 = squeezeChallengeCont keccak s7 (CHALLENGE_MPTR + 0xc0) := ⟨_, rfl⟩
  obtain ⟨s9, hs9⟩ : ∃ s9, s9 = squeezeChallenge keccak
    (readEcPoint c s8 (PROOF_CPTR + 0x1100)) (CHALLENGE_MPTR + 0xe0) := ⟨_, rfl⟩
  obtain ⟨s10, hs10⟩ : ∃ s10, s10 = readEcPoint c s9 (PROOF_CPTR + 0x1140) := ⟨_, rfl⟩
  have hp : p = (copyVk vk 85 s10.mem, s10.ok) := by
    rw [hs10, hs9, hs8, hs7, hs6, hs5, hs4, hs3, hs2, hs1, hs0]
    show prologue keccak vk c = _
    unfold prologue
    simp only [vd, vn]
  have e1 : cdWords c PROOF_CPTR 10 = pw.take 10 := by
    have := cdWords_part c PROOF_CPTR 0 10 140 (by norm_num)
    simpa using this.symm
  have e2 : cdWords c (PROOF_CPTR + 0x0140) 20 = (pw.drop 10).take 20 :=
    (cdWords_part c PROOF_CPTR 10 20 140 (by norm_num)).symm
  have e3 : cdWords c (PROOF_CPTR + 0x03c0) 18 = (pw.drop 30).take 18 :=
    (cdWords_part c PROOF_CPTR 30 18 140 (by norm_num)).symm
  have e4 : cdWords c (PROOF_CPTR + 0x0600) 10 = (pw.drop 48).take 10 :=
    (cdWords_part c PROOF_CPTR 48 10 140 (by norm_num)).symm
  have e5 : cdWords c (PROOF_CPTR + 0x0740) 78 = (pw.drop 58).take 78 :=
    (cdWords_part c PROOF_CPTR 58 78 140 (by norm_num)).symm
  have e6 : cdWords c (PROOF_CPTR + 0x1100) 2 = (pw.drop 136).take 2 :=
    (cdWords_part c PROOF_CPTR 136 2 140 (by norm_num)).symm
  -- instances and phase 1
  obtain ⟨i1, i2, -, i4⟩ := readScalars_spec c s0 INSTANCE_CPTR num.toNat 1 (by rw [a0.hash])
  rw [← hs1] at i1 i2 i4
  obtain ⟨p1, p2, -, p4⟩ := readPoints_spec c s1 PROOF_CPTR 5 _ i1
  obtain ⟨j1, j2, j3, j4, -⟩ := squeeze_spec keccak (readPoints c s1 PROOF_CPTR 5) CHALLENGE_MPTR _ p1
    (by norm_num)
  rw [p2, i2, a0.words, show 2 * 5 = 10 from rfl, e1, List.singleton_append] at j3 j4
  rw [← hs2] at j1 j2 j3 j4
  have a2 : AtHash s2 (hash1 keccak d ins pw) := ⟨j1, j3⟩
  have t2 : s2.mem THETA_MPTR = modr (hash1 keccak d ins pw) := j4
  obtain ⟨a3, t3, f3, k3⟩ := phase_spec keccak c s2 _ (PROOF_CPTR + 0x0140) 10 (CHALLENGE_MPTR + 0x20)
    a2 (by norm_num) (by norm_num)
  rw [← hs3, show 2 * 10 = 20 from rfl, e2] at a3 t3
  rw [← hs3] at f3 k3
  obtain ⟨a4, t4, f4, k4⟩ := cont_spec keccak s3 _ (CHALLENGE_MPTR + 0x40) a3 (by norm_num)
  rw [← hs4] at a4 t4 f4 k4
  obtain ⟨a5, t5, f5, k5⟩ := phase_spec keccak c s4 _ (PROOF_CPTR + 0x03c0) 9 (CHALLENGE_MPTR + 0x60)
    a4 (by norm_num) (by norm_num)
  rw [← hs5, show 2 * 9 = 18 from rfl, e3] at a5 t5
  rw [← hs5] at f5 k5
  obtain ⟨a6, t6, f6, k6⟩ := phase_spec keccak c s5 _ (PROOF_CPTR + 0x0600) 5 (CHALLENGE_MPTR + 0x80)
    a5 (by norm_num) (by norm_num)
  rw [← hs6, show 2 * 5 = 10 from rfl, e4] at a6 t6
  rw [← hs6] at f6 k6
  obtain ⟨a7, t7, f7, k7⟩ := evals_spec keccak c s6 _ (PROOF_CPTR + 0x0740) 78 (CHALLENGE_MPTR + 0xa0)
    a6 (by norm_num) (by norm_num)
  rw [← hs7, e5] at a7 t7
  rw [← hs7] at f7 k7
  obtain ⟨a8, t8, f8, k8⟩ := cont_spec keccak s7 _ (CHALLENGE_MPTR + 0xc0) a7 (by norm_num)
  rw [← hs8] at a8 t8 f8 k8
  obtain ⟨a9, t9, f9, k9⟩ := point_spec keccak c s8 _ (PROOF_CPTR + 0x1100) (CHALLENGE_MPTR + 0xe0)
    a8 (by norm_num)
  rw [← hs9, e6] at a9 t9
  rw [← hs9] at f9 k9
  obtain ⟨-, -, f10, k10⟩ := readEcPoint_spec c s9 (PROOF_CPTR + 0x1140) 1 (by rw [a9.hash])
  rw [← hs10, a9.hash] at f10
  rw [← hs10] at k10
  obtain ⟨w1, w2⟩ := copyVk_spec vk 85 s10.mem
  have hm : ∀ b, 0x1160 ≤ b → p.1 b = s9.mem b := by
    intro b hb
    rw [hp]
    simp only
    rw [w2 b (by right; norm_num; omega), f10 b (by omega)]
  refine ⟨?_, ?_, ?_, ?_, ?_, ?_, ?_, ?_, ?_, ?_⟩
  · rw [hp]
    simp only
    rw [k10, k9, k8, k7, k6, k5, k4, k3, j2, p4, i4, ok0]
    constructor
    · rintro ⟨⟨⟨⟨⟨⟨⟨⟨⟨h1, h2⟩, h3⟩, h4⟩, h5⟩, h6⟩, h7⟩, h8⟩, h9⟩, h10⟩
      refine ⟨h1, h2.symm, h3, ?_, h8, h9, h10⟩
      intro i hi
      by_cases c1 : i < 5
      · exact h4 i c1
      by_cases c2 : i < 15
      · have := h5 (i - 5) (by omega)
        rwa [show PROOF_CPTR + 320 + 64 * (i - 5) = PROOF_CPTR + 0x40 * i by omega] at this
      by_cases c3 : i < 24
      · have := h6 (i - 15) (by omega)
        rwa [show PROOF_CPTR + 960 + 64 * (i - 15) = PROOF_CPTR + 0x40 * i by omega] at this
      · have := h7 (i - 24) (by omega)
        rwa [show PROOF_CPTR + 1536 + 64 * (i - 24) = PROOF_CPTR + 0x40 * i by omega] at this
    · rintro ⟨h1, h2, h3, h4, h5, h6, h7⟩
      refine ⟨⟨⟨⟨⟨⟨⟨⟨⟨h1, h2.symm⟩, h3⟩, fun i hi => h4 i (by omega)⟩, ?_⟩, ?_⟩, ?_⟩, h5⟩, h6⟩, h7⟩
      · intro i hi
        rw [show PROOF_CPTR + 320 + 64 * i = PROOF_CPTR + 0x40 * (i + 5) by omega]
        exact h4 _ (by omega)
      · intro i hi
        rw [show PROOF_CPTR + 960 + 64 * i = PROOF_CPTR + 0x40 * (i + 15) by omega]
        exact h4 _ (by omega)
      · intro i hi
        rw [show PROOF_CPTR + 1536 + 64 * i = PROOF_CPTR + 0x40 * (i + 24) by omega]
        exact h4 _ (by omega)
  · rw [hm _ (by norm_num), f9 _ (by norm_num) (by norm_num), f8 _ (by norm_num) (by norm_num),
      f7 _ (by norm_num) (by norm_num), f6 _ (by norm_num) (by norm_num),
      f5 _ (by norm_num) (by norm_num), f4 _ (by norm_num) (by norm_num),
      f3 _ (by norm_num) (by norm_num)]
    exact t2
  · rw [hm _ (by norm_num), f9 _ (by norm_num) (by norm_num), f8 _ (by norm_num) (by norm_num),
      f7 _ (by norm_num) (by norm_num), f6 _ (by norm_num) (by norm_num),
      f5 _ (by norm_num) (by norm_num), f4 _ (by norm_num) (by norm_num)]
    exact t3
  · rw [hm _ (by norm_num), f9 _ (by norm_num) (by norm_num), f8 _ (by norm_num) (by norm_num),
      f7 _ (by norm_num) (by norm_num), f6 _ (by norm_num) (by norm_num),
      f5 _ (by norm_num) (by norm_num)]
    exact t4
  · rw [hm _ (by norm_num), f9 _ (by norm_num) (by norm_num), f8 _ (by norm_num) (by norm_num),
      f7 _ (by norm_num) (by norm_num), f6 _ (by norm_num) (by norm_num)]
    exact t5
  · rw [hm _ (by norm_num), f9 _ (by norm_num) (by norm_num), f8 _ (by norm_num) (by norm_num),
      f7 _ (by norm_num) (by norm_num)]
    exact t6
  · rw [hm _ (by norm_num), f9 _ (by norm_num) (by norm_num), f8 _ (by norm_num) (by norm_num)]
    exact t7
  · rw [hm _ (by norm_num), f9 _ (by norm_num) (by norm_num)]
    exact t8
  · rw [hm _ (by norm_num)]
    exact t9
  · intro i hi
    rw [hp]
    exact w1 i hi

end Verif.Halo2
