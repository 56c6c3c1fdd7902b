import Verif.Lemmas.Shamir

/-!
Properties C01-C07 and C09: configuration, shares, recombination, index checks, partial evaluation
proofs, pseudorandom verification and secrecy of the sharing.
-/

namespace Verif.Props
open Verif

/-! ### C01 -/

/-- C01. A configuration is accepted exactly when `0 < t ≤ n`, and carries `(t, n)`; otherwise the
call returns `InvalidParams` with the offending pair. -/
theorem C01_config_new (t n : ℕ) :
    (∀ c, DkgConfig.new t n = .ok c ↔ (0 < t ∧ t ≤ n) ∧ c.threshold = t ∧ c.numberOfMembers = n) ∧
    (¬ (0 < t ∧ t ≤ n) → DkgConfig.new t n = .error (.err (.InvalidParams t n))) := by
  constructor
  · intro c
    unfold DkgConfig.new
    split
    · rename_i h
      constructor
      · intro hc; cases hc; exact ⟨h, rfl, rfl⟩
      · rintro ⟨_, h1, h2⟩; cases c; simp_all
    · rename_i h
      constructor
      · intro hc; cases hc
      · rintro ⟨h', _⟩; exact absurd h' h
  · intro h
    unfold DkgConfig.new
    rw [if_neg (by simpa using h)]

example : DkgConfig.new 3 5 = .ok ⟨3, 5⟩ ∧ DkgConfig.new 6 5 = .error (.err (.InvalidParams 6 5)) ∧
    DkgConfig.new 0 0 = .error (.err (.InvalidParams 0 0)) := by
  simp [DkgConfig.new]

/-! ### C02 -/

/-- C02. `shares` returns `n` values; the `i`-th one (1-based) is the polynomial at `i`. -/
theorem C02_shares_are_evaluations (n : ℕ) (hn : 1 ≤ n) (coeffs : List Fr) (hc : coeffs ≠ []) :
    ∃ sh, shares n coeffs = .ok sh ∧ sh.length = n ∧
      ∀ i, 1 ≤ i → i ≤ n → sh[i - 1]? = some (Spec.poly coeffs (i : Fr)) :=
  ⟨_, shares_eq hc hn, by simp, fun _ h1 h2 => shares_getElem h1 h2⟩

/-- The hypotheses are met, and the values are what one computes by hand: `1 + 2x + 3x²`. -/
example : ∃ sh, shares 3 [1, 2, 3] = .ok sh ∧ sh = [6, 17, 34] := by
  refine ⟨_, rfl, ?_⟩
  simp [List.foldl]; norm_num

/-! ### C03 -/

/-- C03. Values lying on one polynomial of `t` coefficients, for any strictly increasing valid
index list of length `t`, recombine to the constant term times the base point. -/
theorem C03_recombination (keccak : Keccak) (cfg : DkgConfig) (ht : 0 < cfg.threshold)
    (hn : cfg.numberOfMembers < 2 ^ 64) (a0 : Fr) (rest : List Fr)
    (hc : (a0 :: rest).length = cfg.threshold) (H : G1) (sigmas : List PartialEval)
    (hlen : sigmas.length = cfg.threshold)
    (hidx : Spec.ValidIndices cfg.numberOfMembers (sigmas.map (·.index)))
    (hval : ∀ s ∈ sigmas, s.value = Spec.poly (a0 :: rest) (s.index : Fr) • H) :
    ∃ pr, combinePartialEvaluations keccak cfg sigmas = .ok pr ∧ pr.proof = a0 • H ∧
      pr.value = Word.bytes (keccak
        (beBytes 32 (coords (a0 • H)).1.val ++ beBytes 32 (coords (a0 • H)).2.val)) := by
  have h1 := combine_eq keccak cfg sigmas hlen ht
  have h2 : checkIndices cfg.numberOfMembers (sigmas.map (·.index)) = .ok () :=
    (checkIndicesFrom_ok_iff _ _ _).2 hidx
  rw [h2] at h1
  have h3 := combined_eq hn hc sigmas hlen hidx H hval
  rw [poly_zero_eval] at h3
  refine ⟨_, h1, h3, ?_⟩
  rw [hashPoint_eq, h3]

/-- Two different quorums of 2 out of 3 meet the hypotheses with the same polynomial `7 + 5x`. -/
example : ∀ (keccak : Keccak) (pf : PartialEvalProof), ∃ pr pr' : PseudoRandom,
    combinePartialEvaluations keccak ⟨2, 3⟩ [⟨1, (12 : Fr) • g1, pf⟩, ⟨3, (22 : Fr) • g1, pf⟩]
      = .ok pr ∧
    combinePartialEvaluations keccak ⟨2, 3⟩ [⟨2, (17 : Fr) • g1, pf⟩, ⟨3, (22 : Fr) • g1, pf⟩]
      = .ok pr' ∧ pr.proof = (7 : Fr) • g1 ∧ pr'.proof = (7 : Fr) • g1 := by
  intro keccak pf
  have hp : ∀ x, Spec.poly [7, 5] x = 7 + x * 5 := by
    intro x; simp [poly_cons, poly_nil]
  obtain ⟨pr, h1, h2, _⟩ := C03_recombination keccak ⟨2, 3⟩ (by simp) (by simp) 7 [5] (by simp) g1
    [⟨1, (12 : Fr) • g1, pf⟩, ⟨3, (22 : Fr) • g1, pf⟩] (by simp)
    (by simp [Spec.ValidIndices]) (by intro s hs; simp at hs; rcases hs with rfl | rfl <;>
      (rw [hp]; norm_num))
  obtain ⟨pr', h1', h2', _⟩ := C03_recombination keccak ⟨2, 3⟩ (by simp) (by simp) 7 [5] (by simp)
    g1 [⟨2, (17 : Fr) • g1, pf⟩, ⟨3, (22 : Fr) • g1, pf⟩] (by simp)
    (by simp [Spec.ValidIndices]) (by intro s hs; simp at hs; rcases hs with rfl | rfl <;>
      (rw [hp]; norm_num))
  exact ⟨pr, pr', h1, h1', h2, h2'⟩

/-! ### C04 -/

/-- C04. For a configuration with a positive threshold: the call panics exactly when the number of
evaluations is not the threshold; it succeeds exactly when in addition the indices are strictly
increasing and within `1..n`; otherwise it returns the error of the first offending position, the
order error (naming the position) before the range error (naming the index). -/
theorem C04_index_checks (keccak : Keccak) (cfg : DkgConfig) (ht : 0 < cfg.threshold)
    (sigmas : List PartialEval) :
    let out := combinePartialEvaluations keccak cfg sigmas
    let idx := sigmas.map (·.index)
    let n := cfg.numberOfMembers
    (out = .error .panic ↔ sigmas.length ≠ cfg.threshold) ∧
    ((∃ pr, out = .ok pr) ↔ sigmas.length = cfg.threshold ∧ Spec.ValidIndices n idx) ∧
    (∀ p, out = .error (.err (.InvalidOrder p)) ↔ sigmas.length = cfg.threshold ∧
      (∀ k < p, Spec.InOrderAt idx k ∧ Spec.InRangeAt n idx k) ∧ ¬ Spec.InOrderAt idx p) ∧
    (∀ a, out = .error (.err (.InvalidIndex a)) ↔ sigmas.length = cfg.threshold ∧
      ∃ p, (∀ k < p, Spec.InOrderAt idx k ∧ Spec.InRangeAt n idx k) ∧ Spec.InOrderAt idx p ∧
        idx[p]? = some a ∧ ¬ (1 ≤ a ∧ a ≤ n)) ∧
    (∀ e, out = .error (.err e) → (∃ p, e = .InvalidOrder p) ∨ ∃ a, e = .InvalidIndex a) := by
  intro out idx n
  by_cases hlen : sigmas.length = cfg.threshold
  · have h1 : out = (checkIndices n idx).bind _ := combine_eq keccak cfg sigmas hlen ht
    have hnp := checkIndicesFrom_not_panic n idx 0
    have hok := checkIndicesFrom_ok_iff n idx 0
    have hor := checkIndicesFrom_order_iff n idx 0
    have hra := checkIndicesFrom_range_iff n idx 0
    rw [checkIndices] at h1
    have htot : ∀ e, checkIndicesFrom n 0 idx = .error (.err e) →
        (∃ p, e = .InvalidOrder p) ∨ ∃ a, e = .InvalidIndex a := by
      have : ∀ (l : List ℕ) (pos : ℕ) e, checkIndicesFrom n pos l = .error (.err e) →
          (∃ p, e = .InvalidOrder p) ∨ ∃ a, e = .InvalidIndex a := by
        intro l
        induction l with
        | nil => intro pos e h; simp [checkIndicesFrom] at h
        | cons a l ih =>
          intro pos e h
          cases l with
          | nil =>
            simp only [checkIndicesFrom] at h
            split at h
            · cases h; exact Or.inr ⟨_, rfl⟩
            · cases h
          | cons b l =>
            rw [checkIndicesFrom] at h
            split at h
            · cases h; exact Or.inl ⟨_, rfl⟩
            · split at h
              · cases h; exact Or.inr ⟨_, rfl⟩
              · exact ih _ _ h
      exact this idx 0
    cases hc : checkIndicesFrom n 0 idx with
    | ok u =>
      rw [hc] at h1 hok hor hra
      have h1' : out = .ok ⟨combined sigmas, hashPoint keccak (combined sigmas)⟩ := h1
      rw [h1']
      refine ⟨by simp [hlen], ?_, ?_, ?_, by simp⟩
      · exact ⟨fun _ => ⟨hlen, hok.1 rfl⟩, fun _ => ⟨_, rfl⟩⟩
      · intro p
        constructor
        · intro h; cases h
        · rintro ⟨_, h⟩
          have := (hor p).2 ⟨p, by omega, h⟩
          cases this
      · intro a
        constructor
        · intro h; cases h
        · rintro ⟨_, h⟩
          have := (hra a).2 h
          cases this
    | error f =>
      rw [hc] at h1 hok hor hra hnp
      have h1' : out = .error f := h1
      rw [h1']
      refine ⟨⟨fun h => absurd (by simpa using h) hnp, fun h => absurd hlen h⟩,
        ?_, ?_, ?_, ?_⟩
      · constructor
        · rintro ⟨_, h⟩; cases h
        · rintro ⟨_, h⟩; have := hok.2 h; cases this
      · intro p
        rw [show ((.error f : Res PseudoRandom) = .error (.err (.InvalidOrder p))) ↔
          ((.error f : Res Unit) = .error (.err (.InvalidOrder p))) by simp, hor p]
        constructor
        · rintro ⟨i, hp, h⟩
          have : p = i := by omega
          subst this
          exact ⟨hlen, h⟩
        · rintro ⟨_, h⟩; exact ⟨p, by omega, h⟩
      · intro a
        rw [show ((.error f : Res PseudoRandom) = .error (.err (.InvalidIndex a))) ↔
          ((.error f : Res Unit) = .error (.err (.InvalidIndex a))) by simp, hra a]
        exact ⟨fun h => ⟨hlen, h⟩, fun h => h.2⟩
      · intro e h
        apply htot e
        rw [hc]
        simpa using h
  · have h1 : out = .error .panic := by
      show combinePartialEvaluations keccak cfg sigmas = _
      unfold combinePartialEvaluations
      rw [if_pos hlen]
      rfl
    rw [h1]
    simp [hlen]

/-- Each outcome occurs. -/
example (keccak : Keccak) (pf : PartialEvalProof) (P : G1) :
    combinePartialEvaluations keccak ⟨2, 3⟩ [⟨1, P, pf⟩] = .error .panic ∧
    combinePartialEvaluations keccak ⟨2, 3⟩ [⟨2, P, pf⟩, ⟨2, P, pf⟩] =
      .error (.err (.InvalidOrder 0)) ∧
    combinePartialEvaluations keccak ⟨2, 3⟩ [⟨2, P, pf⟩, ⟨4, P, pf⟩] =
      .error (.err (.InvalidIndex 4)) ∧
    ∃ pr, combinePartialEvaluations keccak ⟨2, 3⟩ [⟨2, P, pf⟩, ⟨3, P, pf⟩] = .ok pr := by
  refine ⟨?_, ?_, ?_, ?_⟩
  · exact (C04_index_checks keccak ⟨2, 3⟩ (by simp) _).1.2 (by simp)
  · refine ((C04_index_checks keccak ⟨2, 3⟩ (by simp) _).2.2.1 0).2 ⟨by simp, by simp, ?_⟩
    simp [Spec.InOrderAt]
  · refine ((C04_index_checks keccak ⟨2, 3⟩ (by simp) _).2.2.2.1 4).2
      ⟨by simp, 1, ?_, by simp [Spec.InOrderAt], by simp, by simp⟩
    intro k hk
    have : k = 0 := by omega
    subst this
    simp [Spec.InOrderAt, Spec.InRangeAt]
  · exact (C04_index_checks keccak ⟨2, 3⟩ (by simp) _).2.1.2 ⟨by simp, by simp [Spec.ValidIndices]⟩

/-! ### C05 -/

/-- C05. The partial evaluation of a share key with an in-range index and `vk = sk·g` carries the
key's index and `sk·H(input)`, and verifies under `vk`, for every input, nonce and hash. -/
theorem C05_honest_evaluation_verifies (keccak : Keccak) (h2c : List Byte → G1) (cfg : DkgConfig)
    (k : DkgShareKey) (hk : k.vk = k.sk • g1) (h1 : 1 ≤ k.index) (hn : k.index ≤ cfg.numberOfMembers)
    (input : List Byte) (nonce : Fr) :
    let p := k.evaluate keccak h2c input nonce
    p.index = k.index ∧ p.value = k.sk • h2c input ∧
      p.verify keccak h2c cfg input k.vk = .ok () := by
  exact ⟨rfl, rfl, evaluate_verifies keccak h2c cfg k hk h1 hn input nonce⟩

/-- A share key with the required shape exists. -/
example : ∃ k : DkgShareKey, k.vk = k.sk • g1 ∧ 1 ≤ k.index ∧ k.index ≤ 5 ∧ k.sk ≠ 0 :=
  ⟨⟨3, 7, (7 : Fr) • g1⟩, rfl, by simp, by simp, by decide +kernel⟩

/-- Out-of-range indices are rejected with `InvalidIndex` whatever else the evaluation contains. -/
theorem C05_index_rejected (keccak : Keccak) (h2c : List Byte → G1) (cfg : DkgConfig)
    (p : PartialEval) (input : List Byte) (vk : G1)
    (h : p.index < 1 ∨ cfg.numberOfMembers < p.index) :
    p.verify keccak h2c cfg input vk = .error (.err (.InvalidIndex p.index)) := by
  unfold PartialEval.verify
  rw [if_pos (by omega)]

/-! ### C06 -/

/-- C06 (extraction). From two accepting transcripts with equal commitments and different
challenges one computes the secret behind both the verification key and the value. -/
theorem C06_special_soundness (h vk v r1 r2 : G1) (c c' z z' : Fr) (hc : c ≠ c')
    (h1 : Spec.Accepts h vk v r1 r2 c z) (h2 : Spec.Accepts h vk v r1 r2 c' z') :
    let sk := (z - z') / (c - c')
    vk = sk • g1 ∧ v = sk • h := by
  have hne : c - c' ≠ 0 := sub_ne_zero.2 hc
  have key : ∀ (B W : G1), z • B - c • W = z' • B - c' • W →
      W = ((z - z') / (c - c')) • B := by
    intro B W hBW
    have e : (z - z') • B = (c - c') • W := by
      have : (z - z') • B - (c - c') • W = (z • B - c • W) - (z' • B - c' • W) := by module
      rw [hBW, sub_self] at this
      exact sub_eq_zero.1 this
    rw [div_eq_inv_mul, mul_smul, e, smul_smul, inv_mul_cancel₀ hne, one_smul]
  exact ⟨key g1 vk (h1.1.trans h2.1.symm), key h v (h1.2.trans h2.2.symm)⟩

/-- C06 (soundness). If value and verification key do not share a secret, then each commitment
pair determines a single challenge value that can be accepted: an evaluation that verifies must
have made the hash hit that one value on its own transcript. -/
theorem C06_false_statement_needs_bad_challenge (h vk v : G1) (hfalse : ¬ Spec.SameLog h vk v) :
    ∃ bad : G1 → G1 → Fr, ∀ (keccak : Keccak) (h2c : List Byte → G1) (cfg : DkgConfig)
      (input : List Byte) (p : PartialEval), h2c input = h → p.value = v →
      p.verify keccak h2c cfg input vk = .ok () →
      ∃ r1 r2 : G1, Spec.Accepts h vk v r1 r2 p.proof.c p.proof.z ∧
        ((keccak (transcript g1 h r1 r2 vk v)).toNat : Fr) = bad r1 r2 ∧ p.proof.c = bad r1 r2 := by
  classical
  refine ⟨fun r1 r2 => if hx : ∃ c z, Spec.Accepts h vk v r1 r2 c z then hx.choose else 0, ?_⟩
  intro keccak h2c cfg input p hh hv hver
  obtain ⟨_, hcc⟩ := (verify_ok_iff keccak h2c p cfg input vk).1 hver
  rw [hh, hv, challenge_eq] at hcc
  refine ⟨_, _, ⟨rfl, rfl⟩, ?_⟩
  have hx : ∃ c z, Spec.Accepts h vk v (p.proof.z • g1 - p.proof.c • vk)
      (p.proof.z • h - p.proof.c • v) c z := ⟨p.proof.c, p.proof.z, rfl, rfl⟩
  dsimp only
  rw [← hcc, dif_pos hx]
  have : p.proof.c = hx.choose := by
    by_contra hne
    obtain ⟨z', hz'⟩ := hx.choose_spec
    have := C06_special_soundness h vk v _ _ _ _ _ _ hne ⟨rfl, rfl⟩ hz'
    exact hfalse ⟨_, this⟩
  exact ⟨this, this⟩

/-- A false statement exists: `vk = g`, `v = 2h` with `h = g`. -/
example : ¬ Spec.SameLog g1 g1 ((2 : Fr) • g1) := by
  rintro ⟨sk, h1, h2⟩
  have e1 : (1 : Fr) = sk := smul_g1_inj (by rw [one_smul]; exact h1)
  have e2 := smul_g1_inj h2
  rw [← e1] at e2
  have : (1 : Fr) = 0 := by linear_combination e2
  exact one_ne_zero this

/-- Two accepting transcripts as required by the extraction exist. -/
example : (1 : Fr) ≠ 2 ∧ Spec.Accepts g1 ((3 : Fr) • g1) ((3 : Fr) • g1) (0 : G1) 0 1 3 ∧
    Spec.Accepts g1 ((3 : Fr) • g1) ((3 : Fr) • g1) (0 : G1) 0 2 6 := by
  refine ⟨fun h => ?_, ⟨by module, by module⟩, ⟨by module, by module⟩⟩
  have : (1 : Fr) = 0 := by linear_combination -h
  exact one_ne_zero this

/-! ### C07 -/

/-- C07. Under `gpk = k·g2` the verifier accepts exactly the point `k·H(input)` together with the
Keccak hash of its big-endian coordinates; anything else gives `VerifyFailed`. -/
theorem C07_pseudorandom_verify_iff (E : BnPairing) (keccak : Keccak) (h2c : List Byte → G1)
    (p : PseudoRandom) (input : List Byte) (k : Fr) :
    (p.verify E keccak h2c input (smul2 k g2) = .ok () ↔
      p.proof = k • h2c input ∧
      p.value = Word.bytes (keccak
        (beBytes 32 (coords p.proof).1.val ++ beBytes 32 (coords p.proof).2.val))) ∧
    (p.verify E keccak h2c input (smul2 k g2) = .ok () ∨
      p.verify E keccak h2c input (smul2 k g2) = .error (.err .VerifyFailed)) := by
  have h1 := E.check2_iff (h2c input) p.proof k
  rw [← hashPoint_eq]
  unfold PseudoRandom.verify
  simp only
  by_cases hc : E.check2 (-(h2c input)) (smul2 k g2) p.proof g2 = true
  · rw [hc] at h1
    simp only [true_iff] at h1
    by_cases hv : p.value = hashPoint keccak p.proof
    · simp [hc, hv, ← h1]
    · simp [hc, hv]
  · have h2 : ¬ p.proof = k • h2c input := fun h => hc (h1.2 h)
    simp [hc, h2]

/-- C07 (uniqueness). Two accepted outputs for the same input and key are identical. -/
theorem C07_unique_output (E : BnPairing) (keccak : Keccak) (h2c : List Byte → G1)
    (p p' : PseudoRandom) (input : List Byte) (gpk : G2) (hgpk : r • gpk = 0)
    (h : p.verify E keccak h2c input gpk = .ok ())
    (h' : p'.verify E keccak h2c input gpk = .ok ()) : p = p' := by
  obtain ⟨k, rfl⟩ := torsion_eq_smul2 hgpk
  have h1 := (C07_pseudorandom_verify_iff E keccak h2c p input k).1.1 h
  have h2 := (C07_pseudorandom_verify_iff E keccak h2c p' input k).1.1 h'
  obtain ⟨pr, v⟩ := p
  obtain ⟨pr', v'⟩ := p'
  obtain ⟨a1, a2⟩ := h1
  obtain ⟨b1, b2⟩ := h2
  simp only at a1 a2 b1 b2
  subst a1 b1
  rw [a2, b2]

/-- Accepted outputs exist for every input and key, for a concrete pairing. -/
example (keccak : Keccak) (h2c : List Byte → G1) (input : List Byte) (k : Fr) :
    ∃ p : PseudoRandom, p.verify toyPairing keccak h2c input (smul2 k g2) = .ok () ∧
      r • smul2 k g2 = 0 :=
  ⟨⟨k • h2c input, hashPoint keccak (k • h2c input)⟩,
    (C07_pseudorandom_verify_iff _ _ _ _ _ _).1.2 ⟨rfl, hashPoint_eq _ _⟩, smul2_torsion k⟩

/-! ### C09 -/

/-- C09 (existence). Any fewer than `t` shares are consistent with every secret. -/
theorem C09_any_secret_possible (n t : ℕ) (hn : 1 ≤ n) (hr : n < 2 ^ 64) (S : Finset ℕ)
    (hS : ∀ i ∈ S, 1 ≤ i ∧ i ≤ n) (hcard : S.card < t) (obs : ℕ → Fr) (s : Fr) :
    ∃ coeffs, Spec.ConsistentWith n t S obs s coeffs := by
  obtain ⟨c, hc⟩ := exists_through (lt_of_usize hr) hS hcard obs s
  exact ⟨c, (consistent_iff (by omega) hn hS obs s c).2 hc⟩

/-- C09 (uniqueness). With exactly `t - 1` shares, each secret comes from exactly one dealing. -/
theorem C09_unique_dealing (n t : ℕ) (hn : 1 ≤ n) (hr : n < 2 ^ 64) (S : Finset ℕ)
    (hS : ∀ i ∈ S, 1 ≤ i ∧ i ≤ n) (hcard : S.card + 1 = t) (obs : ℕ → Fr) (s : Fr) :
    ∃! coeffs, Spec.ConsistentWith n t S obs s coeffs := by
  obtain ⟨c, hc⟩ := C09_any_secret_possible n t hn hr S hS (by omega) obs s
  refine ⟨c, hc, ?_⟩
  intro d hd
  obtain ⟨c1, c2, c3⟩ := (consistent_iff (by omega) hn hS obs s c).1 hc
  obtain ⟨d1, d2, d3⟩ := (consistent_iff (by omega) hn hS obs s d).1 hd
  obtain ⟨hk, _, _⟩ := nodes_facts (lt_of_usize hr) hS
  apply coeffs_unique (t := t) (nodes S) (by omega) d1 c1
  intro x hx
  simp only [nodes, Finset.mem_insert, Finset.mem_image] at hx
  rcases hx with rfl | ⟨i, hi, rfl⟩
  · rw [c2, d2]
  · rw [c3 i hi, d3 i hi]

/-- C09 (equal likelihood). The dealings consistent with the observation are equally many for any
two secrets, so uniformly drawn coefficients leave the secret uniformly distributed. -/
theorem C09_equally_many_dealings (n t : ℕ) (hn : 1 ≤ n) (hr : n < 2 ^ 64) (S : Finset ℕ)
    (hS : ∀ i ∈ S, 1 ≤ i ∧ i ≤ n) (hcard : S.card < t) (obs : ℕ → Fr) (s s' : Fr) :
    Nat.card {c // Spec.ConsistentWith n t S obs s c} =
      Nat.card {c // Spec.ConsistentWith n t S obs s' c} := by
  have hit : ∀ s c, Spec.ConsistentWith n t S obs s c ↔ _ :=
    fun s c => consistent_iff (t := t) (by omega) hn hS obs s c
  obtain ⟨d, d1, d2, d3⟩ := exists_through (t := t) (lt_of_usize hr) hS hcard (fun _ => 0) (s' - s)
  apply Nat.card_congr
  refine ⟨fun c => ⟨List.zipWith (· + ·) c.1 d, ?_⟩, fun c => ⟨List.zipWith (· - ·) c.1 d, ?_⟩,
    ?_, ?_⟩
  · obtain ⟨c, hc⟩ := c
    obtain ⟨c1, c2, c3⟩ := (hit s c).1 hc
    refine (hit s' _).2 ⟨by simp [c1, d1], ?_, ?_⟩
    · rw [poly_zipWith_add _ _ (by simp only; omega), c2, d2]; ring
    · intro i hi; rw [poly_zipWith_add _ _ (by simp only; omega), c3 i hi, d3 i hi, add_zero]
  · obtain ⟨c, hc⟩ := c
    obtain ⟨c1, c2, c3⟩ := (hit s' c).1 hc
    refine (hit s _).2 ⟨by simp [c1, d1], ?_, ?_⟩
    · rw [poly_zipWith_sub _ _ (by simp only; omega), c2, d2]; ring
    · intro i hi; rw [poly_zipWith_sub _ _ (by simp only; omega), c3 i hi, d3 i hi, sub_zero]
  · rintro ⟨c, hc⟩
    have := ((hit s c).1 hc).1
    exact Subtype.ext (zipWith_sub_add _ _ (by simp only; omega))
  · rintro ⟨c, hc⟩
    have := ((hit s' c).1 hc).1
    exact Subtype.ext (zipWith_add_sub _ _ (by simp only; omega))

/-- The hypotheses are met by members 2 and 4 of 5 with threshold 3. -/
example : (∀ i ∈ ({2, 4} : Finset ℕ), 1 ≤ i ∧ i ≤ 5) ∧ ({2, 4} : Finset ℕ).card + 1 = 3 := by
  simp

end Verif.Props
