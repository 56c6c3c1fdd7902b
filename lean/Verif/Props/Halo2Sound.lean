import Verif.Props.Halo2
import Verif.Lemmas.Halo2Exceptions

/-!
Soundness of the on-chain verifier of DKG proofs, for provers that know the polynomials behind their
commitments.
-/

namespace Verif.Props
open Spec.Halo2 Halo2 Polynomial

/-! ### C64 -/

/-- C64. Round by round: apart from few challenges in each round, which depend only on what was sent before,
an accepted proof comes from columns that satisfy the constraint system with these public inputs, or the
prover has a nonzero polynomial of which the secret of the setup is a root. -/
theorem C64_soundness (E : BnPairing) (V : Key) (hV : V.Valid) (s : Fr) (K : KeyPolys) (hK : KeyFor V s K) (D : ℕ)
    (hD : V.n ≤ D + 1) (hKD : K.Bound D) (inst : List Fr) (hi : inst.length ≤ V.n) :
    ∃ B : Exceptions, B.Small V D ∧ ∀ (C : Challenges) (P : Polys) (e : Evals) (w w' : Fr[X]),
      P.Bound D → w.natDegree ≤ D → Accepts E V C inst (proofOf s P e w w') → ¬ B.Hit C P e w →
      Satisfied V K P.advice inst ∨
        openPoly V K C inst P e w w' ≠ 0 ∧ (openPoly V K C inst P e w w').eval s = 0 := by
  refine ⟨exceptions V K inst D, exceptions_small V K inst D, fun C P e w w' hP hw hacc hhit => ?_⟩
  by_cases hs : Satisfied V K P.advice inst
  · exact Or.inl hs
  · exact Or.inr ⟨(exceptions_spec hV hD hKD hi hP hs hw hhit).2 w', (accepts_iff E V s K hK C inst P e w w').1 hacc⟩

/-- C64. An interactive prover makes the verifier accept something false, without knowing a polynomial with
the secret as a root, for at most `28 u + n + 7 D + 99` out of `r` challenges (per `r ^ 7`). -/
theorem C64_interactive (E : BnPairing) (V : Key) (hV : V.Valid) (s : Fr) (K : KeyPolys) (hK : KeyFor V s K) (D : ℕ)
    (hD : V.n ≤ D + 1) (hKD : K.Bound D) (inst : List Fr) (hi : inst.length ≤ V.n) (A : Prover)
    (hA : ∀ C, (A.polys C).Bound D ∧ (A.opening C).natDegree ≤ D) (hno : ¬ Satisfied V K A.advice inst) :
    {t : Fin 8 → Fr | Accepts E V (.ofTuple t) inst (A.proof s (.ofTuple t)) ∧
      ¬ (A.claim V K inst (.ofTuple t) ≠ 0 ∧ (A.claim V K inst (.ofTuple t)).eval s = 0)}.ncard ≤ (28 * V.usable + V.n + 7 * D + 99) * r ^ 7 := by
  refine le_trans (Set.ncard_le_ncard ?_ (Set.toFinite _)) (hit_count (exceptions V K inst D) V D
    (exceptions_small V K inst D) A)
  rintro t ⟨hacc, ht⟩
  by_contra hhit
  have hroot := (accepts_iff E V s K hK _ inst _ _ _ _).1 hacc
  have ht : A.claim V K inst (.ofTuple t) = 0 := by
    by_contra h
    exact ht ⟨h, hroot⟩
  exact (exceptions_spec hV hD hKD hi (hA _).1 hno (hA _).2 hhit).2 _ ht

/-- The error for the key of the repository, with a setup that commits to polynomials of degree less than the
number of rows: less than `2 ^ -229`. -/
theorem C64_error : (28 * deployedKey.usable + deployedKey.n + 7 * (deployedKey.n - 1) + 99) * 2 ^ 229 < r := by
  rw [Key.usable, Key.n, show deployedKey.k = 18 from rfl]
  decide +kernel

/-- C64. On-chain: if the contract accepts a proof whose points are the commitments of known polynomials,
then one of the challenges it computed is an exception, or the columns satisfy the constraint system with the
public inputs passed, or a nonzero polynomial with the secret as a root is known. -/
theorem C64_on_chain (E : BnPairing) (V : Key) (hV : V.Valid) (s : Fr) (K : KeyPolys) (hK : KeyFor V s K) (D : ℕ)
    (hD : V.n ≤ D + 1) (hKD : K.Bound D) (inst : List Fr) (hi : V.instances ≤ V.n) :
    ∃ B : Exceptions, B.Small V D ∧ ∀ (keccak : Keccak) (sel : List Byte) (addr : Word) (P : Polys) (e : Evals)
      (w w' : Fr[X]), sel.length = 4 → P.Bound D → w.natDegree ≤ D →
      verifyProof E keccak V.words sel addr (proofOf s P e w w').bytes (wordsOf inst) = some true →
      B.Hit (challengesOf keccak V inst (proofOf s P e w w').words) P e w ∨ Satisfied V K P.advice inst ∨
        ∃ f : Fr[X], f ≠ 0 ∧ f.eval s = 0 ∧
          f = openPoly V K (challengesOf keccak V inst (proofOf s P e w w').words) inst P e w w' := by
  refine ⟨exceptions V K inst D, exceptions_small V K inst D, fun keccak sel addr P e w w' hs hP hw h => ?_⟩
  obtain ⟨-, -, hlen, -, π, ⟨hfin, hb⟩, -⟩ := C59_accepted_format E keccak V hV sel hs addr _ _ h
  have hπ : proofOf s P e w w' = π := words_inj (wordBytes_inj' hb)
  have hlen : inst.length = V.instances := by rw [← hlen, wordsOf, List.length_map]
  by_cases hsat : Satisfied V K P.advice inst
  · exact Or.inr (Or.inl hsat)
  by_cases hhit : (exceptions V K inst D).Hit (challengesOf keccak V inst (proofOf s P e w w').words) P e w
  · exact Or.inl hhit
  obtain ⟨hG, hne⟩ := exceptions_spec hV hD hKD (hlen.trans_le hi) hP hsat hw hhit
  have hacc := (C63_verify_iff E keccak V hV sel hs addr _ inst hlen (hπ ▸ hfin) hG).1.1 h
  exact Or.inr (Or.inr ⟨_, hne w', (accepts_iff E V s K hK _ inst P e w w').1 hacc, rfl⟩)

/-! ### Examples -/

/-- A key with eight rows and one gate: the product of the first two cells is the third. -/
noncomputable def mulPolys : KeyPolys where
  fixed := fun i => if i = 5 then 1 else if i = 2 then -1 else 0
  perm := fun j => C (Spec.Halo2.delta ^ (j : ℕ)) * X

/-- The key of these polynomials for a secret. -/
noncomputable def mulKey (s : Fr) : Key :=
  ⟨0, 1, 3, deployedKey.omega ^ 2 ^ 15, g1, g2, smul2 (-s) g2, fun i => commit s (mulPolys.fixed i),
    fun i => commit s (mulPolys.perm i)⟩

theorem mulKey_for (s : Fr) : KeyFor (mulKey s) s mulPolys := ⟨rfl, rfl, rfl, fun _ => rfl, fun _ => rfl⟩

theorem mulKey_valid (s : Fr) : (mulKey s).Valid where
  root := by
    have h := omega_root.pow (n := 2 ^ 18) (a := 2 ^ 15) (b := 2 ^ 3) (by norm_num) (by norm_num)
    exact h
  k_ge := le_refl 3
  k_le := by change 3 ≤ 28; omega
  instances := by change 1 < 2 ^ 64; norm_num
  g2 := r_nsmul_g2
  negSG2 := smul2_torsion _

theorem mulPolys_bound : mulPolys.Bound 7 where
  fixed i := by
    unfold mulPolys
    simp only
    split
    · rw [natDegree_one]; omega
    · split
      · rw [natDegree_neg, natDegree_one]; omega
      · rw [natDegree_zero]; omega
  perm j := (natDegree_C_mul_le _ _).trans (natDegree_X_le.trans (by omega))

theorem mul_gate (s : Fr) (a b c : Fr[X]) (i : ℕ) : mainGate (gateRow (mulKey s) mulPolys ![a, b, c, 0, 0] i) =
    a.eval ((mulKey s).omega ^ i) * b.eval ((mulKey s).omega ^ i) - c.eval ((mulKey s).omega ^ i) := by
  unfold mainGate gateRow evalsAt mulPolys
  simp only [Matrix.cons_val_zero, Matrix.cons_val_one, Matrix.cons_val]
  simp (config := { decide := true }) only [if_true, if_false, eval_zero, eval_one, eval_neg]
  ring

/-- Columns that satisfy the gate satisfy the system, and others do not. -/
theorem mul_satisfied (s : Fr) (a b c : Fr[X]) (inst : List Fr) :
    Satisfied (mulKey s) mulPolys ![a, b, c, 0, 0] inst ↔ ∀ i < 8,
      a.eval ((mulKey s).omega ^ i) * b.eval ((mulKey s).omega ^ i) = c.eval ((mulKey s).omega ^ i) := by
  have hn : (mulKey s).n = 8 := by rw [Key.n]; rfl
  have hf : ∀ (i : ℕ) (k : Fin 23), k ≠ 5 → k ≠ 2 → (gateRow (mulKey s) mulPolys ![a, b, c, 0, 0] i).f k = 0 := by
    intro i k h5 h2
    change (mulPolys.fixed k).eval _ = 0
    unfold mulPolys
    simp only
    rw [if_neg h5, if_neg h2, eval_zero]
  constructor
  · intro h i hi
    have := h.main i (by rw [hn]; exact hi)
    rw [mul_gate] at this
    exact sub_eq_zero.1 this
  · intro h
    refine ⟨?_, ?_, ?_, ?_, ?_, ?_⟩
    · intro i hi
      rw [hn] at hi
      rw [mul_gate, h i hi, sub_self]
    · intro i _ j
      rw [fullRound, hf i 20 (by decide) (by decide), zero_mul]
    · intro i _ c' hc'
      unfold partialRounds at hc'
      simp only [hf i 21 (by decide) (by decide), zero_mul, List.mem_cons, List.not_mem_nil, or_false, or_self] at hc'
      exact hc'
    · intro i _ c' hc'
      unfold padAndAdd at hc'
      simp only [hf i 22 (by decide) (by decide), zero_mul, List.mem_cons, List.not_mem_nil, or_false, or_self] at hc'
      exact hc'
    · intro i hi i' hi' j j' hlab
      have hu : (mulKey s).usable ≤ (mulKey s).n := Nat.sub_le _ _
      have e : (mulPolys.perm j).eval ((mulKey s).omega ^ i) = Spec.Halo2.delta ^ (j : ℕ) * (mulKey s).omega ^ i := by
        unfold mulPolys
        simp only
        rw [eval_mul, eval_C, eval_X]
      rw [e] at hlab
      obtain ⟨rfl, rfl⟩ := labels_inj _ (mulKey_valid s) (hi.trans_le hu) (hi'.trans_le hu) hlab
      rfl
    · intro l i hi
      refine ⟨i, hi, ?_⟩
      rw [hf i 9 (by decide) (by decide), hf i 10 (by decide) (by decide)]
      unfold lookupPair
      simp only [hf i 18 (by decide) (by decide), hf i 11 (by decide) (by decide), hf i 19 (by decide) (by decide),
        zero_mul]
      fin_cases l <;> rfl

/-- The hypotheses of C64 are met by a key for which some columns satisfy the system and others do not. -/
example (s : Fr) : (mulKey s).Valid ∧ KeyFor (mulKey s) s mulPolys ∧ mulPolys.Bound 7 ∧ (mulKey s).n ≤ 7 + 1 ∧
    Satisfied (mulKey s) mulPolys ![X, X, X ^ 2, 0, 0] [3] ∧ ¬ Satisfied (mulKey s) mulPolys ![X, X, X, 0, 0] [3] := by
  refine ⟨mulKey_valid s, mulKey_for s, mulPolys_bound, by rw [Key.n]; exact le_refl 8, ?_, ?_⟩
  · rw [mul_satisfied]
    intro i _
    rw [eval_X, eval_pow, eval_X, pow_two]
  · rw [mul_satisfied]
    intro h
    have h1 := h 1 (by omega)
    rw [eval_X, pow_one] at h1
    have hv := (mulKey_valid s).root
    have h0 : (mulKey s).omega ≠ 0 := hv.ne_zero (pow_ne_zero _ two_ne_zero)
    have h2 : (mulKey s).omega = 1 := mul_left_cancel₀ h0 (h1.trans (mul_one _).symm)
    have h3 := hv.pow_inj (i := 0) (j := 1) (by rw [Key.n]; change 0 < 8; omega) (by rw [Key.n]; change 1 < 8; omega)
      (by rw [h2, one_pow, one_pow])
    omega

/-- The key of the repository commits to some polynomials. -/
example : ∃ (s : Fr) (K : KeyPolys), KeyFor deployedKey s K ∧ K.Bound (deployedKey.n - 1) := by
  obtain ⟨_, _, _, _, h1, h2, _, _, s, hs⟩ := C59_deployed_key
  choose f hf using fun i => g1_generates (deployedKey.fixed i)
  choose p hp using fun i => g1_generates (deployedKey.perm i)
  refine ⟨s, ⟨fun i => C (f i), fun i => C (p i)⟩, ⟨h1, h2, ?_, ?_, ?_⟩, ⟨?_, ?_⟩⟩
  · rw [hs, neg_eq_iff_add_eq_zero, ← smul2_add, add_neg_cancel, smul2_zero']
  · intro i; rw [commit_C]; exact hf i
  · intro i; rw [commit_C]; exact hp i
  · intro i; rw [natDegree_C]; exact Nat.zero_le _
  · intro i; rw [natDegree_C]; exact Nat.zero_le _

end Verif.Props
