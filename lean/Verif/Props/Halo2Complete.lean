import Verif.Props.Halo2Sound
import Verif.Lemmas.Halo2Complete
import Verif.Lemmas.Halo2Transcript

/-!
Completeness of the on-chain verifier of DKG proofs: columns that satisfy the constraint system can be proved.
-/

namespace Verif.Props
open Spec.Halo2 Halo2 Polynomial

/-! ### C65 -/

/-- C65. Columns that satisfy the constraint system with these public inputs have a prover, with any
blinding, that commits to polynomials of degree less than the number of rows only and does not use the secret
of the setup, such that the verifier accepts, whatever the challenges, unless the evaluation point is a row or
zero, the opening point is one of the four points already used, or a denominator of the products is zero: at most `5 u`
values of `beta` and `10 u` of `gamma`, which depend only on what was sent before. -/
theorem C65_completeness (V : Key) (hV : V.Valid) (K : KeyPolys) (hKD : K.Bound (V.n - 1)) (hp : K.Permutes V)
    (inst : List Fr) (hi : inst.length ≤ V.n) (advice : Fin 5 → Fr[X]) (ha : ∀ i, (advice i).natDegree ≤ V.n - 1)
    (hs : Satisfied V K advice inst) :
    ∃ (Bβ : Fr → Finset Fr) (Bγ : Fr → Fr → Finset Fr), (∀ theta, (Bβ theta).card ≤ 5 * V.usable) ∧
      (∀ theta beta, (Bγ theta beta).card ≤ 10 * V.usable) ∧
      ∀ b : Blinding, b.random.natDegree ≤ V.n - 1 → ∃ A : Prover, A.advice = advice ∧ A.Blinded V b ∧
        (∀ C, (A.polys C).Bound (V.n - 1) ∧ (A.opening C).natDegree ≤ V.n - 1 ∧ (A.w' C).natDegree ≤ V.n - 1) ∧
        ∀ (E : BnPairing) (s : Fr), KeyFor V s K → ∀ C : Challenges, C.Good V → C.beta ∉ Bβ C.theta →
          C.gamma ∉ Bγ C.theta C.beta → Accepts E V C inst (A.proof s C) := by
  refine ⟨fun theta => zeroBeta V K advice theta, fun theta beta => zeroGamma V K inst advice theta beta,
    fun theta => zeroBeta_card V K advice theta, fun theta beta => zeroGamma_card V K inst advice theta beta,
    fun b hb => ?_⟩
  obtain ⟨A, hA, hAb, hAd, hc⟩ := honest_prover hV hKD hp hi ha hs b hb
  refine ⟨A, hA, hAb, hAd, fun E s hK C hG h1 h2 => ?_⟩
  refine (accepts_iff E V s K hK C inst _ _ _ _).2 ?_
  have h := hc C hG h1 h2
  unfold Prover.claim at h
  rw [h, eval_zero]

/-- C65. On-chain: such a prover's proof, with the challenges of its own transcript (there is exactly one choice),
is accepted by the contract, with the exceptions above or if a commitment is the point at infinity. -/
theorem C65_on_chain (V : Key) (hV : V.Valid) (K : KeyPolys) (hKD : K.Bound (V.n - 1)) (hp : K.Permutes V)
    (inst : List Fr) (hl : inst.length = V.instances) (hi : V.instances ≤ V.n) (advice : Fin 5 → Fr[X])
    (ha : ∀ i, (advice i).natDegree ≤ V.n - 1) (hs : Satisfied V K advice inst) :
    ∃ (Bβ : Fr → Finset Fr) (Bγ : Fr → Fr → Finset Fr), (∀ theta, (Bβ theta).card ≤ 5 * V.usable) ∧
      (∀ theta beta, (Bγ theta beta).card ≤ 10 * V.usable) ∧
      ∀ b : Blinding, b.random.natDegree ≤ V.n - 1 → ∃ A : Prover, A.advice = advice ∧ A.Blinded V b ∧
        ∀ (E : BnPairing) (s : Fr), KeyFor V s K → ∀ keccak : Keccak,
          (∃! C : Challenges, challengesOf keccak V inst (A.proof s C).words = C) ∧
          ∀ C : Challenges, challengesOf keccak V inst (A.proof s C).words = C →
            C.Good V → C.beta ∉ Bβ C.theta → C.gamma ∉ Bγ C.theta C.beta → (A.proof s C).Finite →
            ∀ (sel : List Byte) (addr : Word), sel.length = 4 →
              verifyProof E keccak V.words sel addr (A.proof s C).bytes (wordsOf inst) = some true := by
  obtain ⟨Bβ, Bγ, h1, h2, h⟩ := C65_completeness V hV K hKD hp inst (hl.trans_le hi) advice ha hs
  refine ⟨Bβ, Bγ, h1, h2, fun b hb => ?_⟩
  obtain ⟨A, hA, hAb, -, hacc⟩ := h b hb
  refine ⟨A, hA, hAb, fun E s hK keccak => ⟨transcript_challenges keccak V inst A s, fun C hC hG hβ hγ hfin sel addr hsel => ?_⟩⟩
  refine (C63_verify_iff E keccak V hV sel hsel addr _ inst hl hfin (by rw [hC]; exact hG)).1.2 ?_
  rw [hC]
  exact hacc E s hK C hG hβ hγ

/-- The challenges the honest prover cannot answer. -/
noncomputable def honestExceptions (V : Key) (K : KeyPolys) (inst : List Fr) : Exceptions where
  theta _ := ∅
  beta advice theta _ _ := zeroBeta V K advice theta
  gamma advice theta _ _ beta := zeroGamma V K inst advice theta beta
  y _ _ _ _ _ _ _ _ _ := ∅
  x _ _ _ _ _ := (X * (X ^ V.n - 1) : Fr[X]).roots.toFinset
  zeta _ _ _ _ _ _ _ := ∅
  nu _ _ _ _ _ _ _ _ := ∅
  mu _ _ _ _ x _ _ _ _ _ := allPoints V x

theorem X_pow_sub_one_ne (n : ℕ) (hn : 0 < n) : (X * (X ^ n - 1) : Fr[X]) ≠ 0 :=
  mul_ne_zero X_ne_zero (by rw [← C_1]; exact X_pow_sub_C_ne_zero hn 1)

theorem honestExceptions_small (V : Key) (K : KeyPolys) (inst : List Fr) :
    (honestExceptions V K inst).Small V (V.n - 1) where
  theta _ := by rw [honestExceptions, Finset.card_empty]; exact Nat.zero_le _
  beta a t _ _ := (zeroBeta_card V K a t).trans (by omega)
  gamma a t _ _ b := (zeroGamma_card V K inst a t b).trans (by omega)
  y _ _ _ _ _ _ _ _ _ := by rw [honestExceptions, Finset.card_empty]; exact Nat.zero_le _
  x _ _ _ _ _ := by
    refine (Multiset.toFinset_card_le _).trans ((card_roots' _).trans (natDegree_mul_le.trans ?_))
    have h1 : (X ^ V.n - 1 : Fr[X]).natDegree ≤ V.n := by
      refine (natDegree_sub_le _ _).trans (max_le (natDegree_X_pow_le _) ?_)
      rw [natDegree_one]
      exact Nat.zero_le _
    have h2 : (X : Fr[X]).natDegree ≤ 1 := natDegree_X_le
    omega
  zeta _ _ _ _ _ _ _ := by rw [honestExceptions, Finset.card_empty]; exact Nat.zero_le _
  nu _ _ _ _ _ _ _ _ := by rw [honestExceptions, Finset.card_empty]; exact Nat.zero_le _
  mu _ _ _ _ x _ _ _ _ _ := (allPoints_card V x).trans (by omega)

theorem compl_arith (p m a b : ℕ) (h : a + b = p ^ 8) (hb : b ≤ m * p ^ 7) (hr : 2 * m < p) : m * p ^ 7 < a := by
  have h4 : 0 < p ^ 7 := pow_pos (by omega) 7
  rw [pow_succ'] at h
  generalize p ^ 7 = R at *
  have h5 : 2 * m * R < p * R := Nat.mul_lt_mul_of_pos_right hr h4
  have h6 : 2 * m * R = m * R + m * R := by ring
  omega

theorem count_compl (S : Set (Fin 8 → Fr)) (m : ℕ) (hr : 2 * m < r) (h : Sᶜ.ncard ≤ m * r ^ 7) :
    m * r ^ 7 < S.ncard := by
  have h2 := Set.ncard_add_ncard_compl S
  have h3 : Nat.card (Fin 8 → Fr) = r ^ 8 := by
    rw [Nat.card_eq_fintype_card, Fintype.card_fun, Fintype.card_fin, ZMod.card]
  rw [h3] at h2
  exact compl_arith _ _ _ _ h2 h hr

/-- C65. For polynomials of degree less than the number of rows, satisfying the constraint system is what
the protocol decides: the columns satisfy it if and only if some prover that begins with them answers more
than `28 u + n + 7 (n - 1) + 99` out of `r` challenges (per `r ^ 7`) by an opening that is right whatever the secret. -/
theorem C65_decides (V : Key) (hV : V.Valid) (K : KeyPolys) (hKD : K.Bound (V.n - 1)) (hp : K.Permutes V)
    (inst : List Fr) (hi : inst.length ≤ V.n) (hr : 2 * (28 * V.usable + V.n + 7 * (V.n - 1) + 99) < r)
    (advice : Fin 5 → Fr[X]) (ha : ∀ i, (advice i).natDegree ≤ V.n - 1) :
    Satisfied V K advice inst ↔ ∃ A : Prover, A.advice = advice ∧
      (∀ C, (A.polys C).Bound (V.n - 1) ∧ (A.opening C).natDegree ≤ V.n - 1) ∧
      (28 * V.usable + V.n + 7 * (V.n - 1) + 99) * r ^ 7 <
        {t : Fin 8 → Fr | A.claim V K inst (.ofTuple t) = 0}.ncard := by
  have h8 := eight_le V hV
  constructor
  · intro hs
    obtain ⟨A, hA, -, hAd, hc⟩ := honest_prover hV hKD hp hi ha hs ⟨0, 0, 0, 0, 0⟩
      (by rw [natDegree_zero]; exact Nat.zero_le _)
    refine ⟨A, hA, fun C => ⟨(hAd C).1, (hAd C).2.1⟩, ?_⟩
    have hcount := hit_count (honestExceptions V K inst) V (V.n - 1) (honestExceptions_small V K inst) A
    generalize 28 * V.usable + V.n + 7 * (V.n - 1) + 99 = m at *
    have hsub : {t : Fin 8 → Fr | A.claim V K inst (.ofTuple t) = 0}ᶜ ⊆ {t : Fin 8 → Fr |
        (honestExceptions V K inst).Hit (.ofTuple t) (A.polys (.ofTuple t)) (A.claims (.ofTuple t))
          (A.opening (.ofTuple t))} := by
      intro t ht
      by_contra hhit
      suffices hz : A.claim V K inst (.ofTuple t) = 0 from ht hz
      have hno : ¬ (honestExceptions V K inst).Hit (.ofTuple t) (A.polys (.ofTuple t)) (A.claims (.ofTuple t))
          (A.opening (.ofTuple t)) := hhit
      clear hhit ht
      generalize Challenges.ofTuple t = C at hno ⊢
      unfold Exceptions.Hit at hno
      simp only [not_or] at hno
      obtain ⟨-, hβ, hγ, -, hx, -, -, hmu⟩ := hno
      have hβ : C.beta ∉ zeroBeta V K A.advice C.theta := hβ
      have hγ : C.gamma ∉ zeroGamma V K inst A.advice C.theta C.beta := hγ
      have hx : C.x ∉ (X * (X ^ V.n - 1) : Fr[X]).roots.toFinset := hx
      have hmu : C.mu ∉ allPoints V C.x := hmu
      rw [hA] at hβ hγ
      rw [Multiset.mem_toFinset, mem_roots (X_pow_sub_one_ne V.n (by omega)), IsRoot.def, eval_mul, eval_X, eval_sub,
        eval_pow, eval_X, eval_one] at hx
      rw [mem_allPoints] at hmu
      simp only [not_or] at hmu
      refine hc C ⟨fun h => hx (by rw [h, zero_mul]), fun h => hx (by rw [h, sub_self, mul_zero]), ?_⟩ hβ hγ
      exact hmu
    exact count_compl _ m hr ((Set.ncard_le_ncard hsub (Set.toFinite _)).trans hcount)
  · rintro ⟨A, rfl, hAd, hlt⟩
    by_contra hno
    refine absurd hlt (not_lt.2 ?_)
    refine le_trans (Set.ncard_le_ncard ?_ (Set.toFinite _)) (hit_count (exceptions V K inst (V.n - 1)) V (V.n - 1)
      (exceptions_small V K inst (V.n - 1)) A)
    intro t ht
    by_contra hhit
    exact (exceptions_spec hV (by omega) hKD hi (hAd _).1 hno (hAd _).2 hhit).2 _ ht

/-- The number of rows of the key of the repository meets the condition. -/
theorem C65_deployed : 2 * (28 * deployedKey.usable + deployedKey.n + 7 * (deployedKey.n - 1) + 99) < r := by
  rw [Key.usable, Key.n, show deployedKey.k = 18 from rfl]
  decide +kernel

/-! ### Examples -/

/-- The labels of the small key are not permuted. -/
theorem mulPolys_permutes (s : Fr) : mulPolys.Permutes (mulKey s) := by
  refine ⟨Equiv.refl _, fun c => ?_⟩
  unfold mulPolys
  simp only
  rw [eval_mul, eval_C, eval_X]
  rfl

/-- The hypotheses of C65 are met. -/
example (s : Fr) : (mulKey s).Valid ∧ KeyFor (mulKey s) s mulPolys ∧ mulPolys.Bound ((mulKey s).n - 1) ∧
    mulPolys.Permutes (mulKey s) ∧ ([3] : List Fr).length = (mulKey s).instances ∧ (mulKey s).instances ≤ (mulKey s).n ∧
    2 * (28 * (mulKey s).usable + (mulKey s).n + 7 * ((mulKey s).n - 1) + 99) < r ∧
    Satisfied (mulKey s) mulPolys ![X, X, X ^ 2, 0, 0] [3] ∧
    ∀ i, ((![X, X, X ^ 2, 0, 0] : Fin 5 → Fr[X]) i).natDegree ≤ (mulKey s).n - 1 := by
  have hn : (mulKey s).n = 8 := by rw [Key.n]; rfl
  refine ⟨mulKey_valid s, mulKey_for s, by rw [hn]; exact mulPolys_bound, mulPolys_permutes s, rfl, ?_, ?_, ?_, ?_⟩
  · rw [hn]; change 1 ≤ 8; omega
  · rw [Key.usable, hn]
    decide +kernel
  · rw [mul_satisfied]
    intro i _
    rw [eval_X, eval_pow, eval_X, pow_two]
  · rw [hn]
    intro i
    fin_cases i
    · exact natDegree_X_le.trans (by omega)
    · exact natDegree_X_le.trans (by omega)
    · exact (natDegree_X_pow_le 2).trans (by omega)
    · change (0 : Fr[X]).natDegree ≤ 7
      rw [natDegree_zero]; omega
    · change (0 : Fr[X]).natDegree ≤ 7
      rw [natDegree_zero]; omega

/-- There are good challenges for it. -/
example (s : Fr) : ∃ C : Challenges, C.Good (mulKey s) := by
  have hn : (mulKey s).n = 8 := by rw [Key.n]; rfl
  have h8 : (mulKey s).omega ^ 8 = 1 := hn ▸ (mulKey_valid s).root.pow_eq_one
  have hw : ((mulKey s).omega⁻¹) ^ 8 = 1 := by rw [inv_pow, h8, inv_one]
  have h2 : (2 : Fr) ^ 8 ≠ 1 := by decide +kernel
  have h20 : (2 : Fr) ≠ 0 := by decide +kernel
  have key : ∀ t : Fr, t ^ 8 = 1 → (0 : Fr) ≠ 2 * t := by
    intro t ht h
    have h0 : t = 0 := (mul_eq_zero.1 h.symm).resolve_left h20
    rw [h0] at ht
    exact absurd ht (by decide +kernel)
  refine ⟨⟨0, 0, 0, 0, 2, 0, 0, 0⟩, h20, by rw [hn]; exact h2, h20.symm, key _ h8, key _ hw, key _ ?_⟩
  rw [← pow_mul, mul_comm, pow_mul, hw, one_pow]

end Verif.Props
