import Verif.Model.Halo2Key
import Verif.Lemmas.Halo2Format

/-! The verifying key of the repository is well formed. -/

namespace Verif.Halo2
open Spec.Halo2 WeierstrassCurve.Affine

/-- Curve check on numbers. -/
def onCurveN (x y : ℕ) : Bool := decide (x < q) && decide (y < q) && decide (y * y % q = (x * x * x + 3) % q)

theorem pointOk_of_onCurveN {x y : Word} (h : onCurveN x.toNat y.toNat = true) : PointOk x y := by
  unfold onCurveN at h
  simp only [Bool.and_eq_true, decide_eq_true_eq] at h
  obtain ⟨⟨hx, hy⟩, he⟩ := h
  refine pointOk_curve.2 ⟨hx, hy, ?_⟩
  have := (ZMod.natCast_eq_natCast_iff' _ _ q).2 he
  push_cast at this
  unfold fq
  linear_combination this

theorem vkPoint_spec {i : ℕ} (h : onCurveN (vkNat i) (vkNat (i + 1)) = true) :
    vkPoint i ≠ 0 ∧ Spec.Halo2.pointWords (vkPoint i) = [vkWords.getD i 0, vkWords.getD (i + 1) 0] := by
  obtain ⟨P, hP, he⟩ := pointOk_iff.1 (pointOk_of_onCurveN h)
  have : vkPoint i = P := by
    unfold vkPoint
    rw [decodeG1_eq_some.2 he]
    rfl
  rw [this]
  obtain ⟨h1, h2⟩ := isPoint_iff.1 he
  refine ⟨hP, ?_⟩
  unfold Spec.Halo2.pointWords
  rw [h1, h2]

theorem vk_curve : ∀ i : Fin 32, onCurveN (vkNat (21 + 2 * i)) (vkNat (21 + 2 * i + 1)) = true := by
  decide +kernel

theorem fixed_spec (i : Fin 23) : deployedKey.fixed i ≠ 0 ∧ Spec.Halo2.pointWords (deployedKey.fixed i) =
    [vkWords.getD (21 + 2 * i) 0, vkWords.getD (21 + 2 * i + 1) 0] :=
  vkPoint_spec (vk_curve (Fin.castLE (by decide) i))

theorem perm_spec (i : Fin 9) : deployedKey.perm i ≠ 0 ∧ Spec.Halo2.pointWords (deployedKey.perm i) =
    [vkWords.getD (67 + 2 * i) 0, vkWords.getD (67 + 2 * i + 1) 0] := by
  have h := vk_curve (Fin.natAdd 23 i)
  rw [Fin.val_natAdd, show 21 + 2 * (23 + (i : ℕ)) = 67 + 2 * i by ring] at h
  exact vkPoint_spec h

theorem negSG2_rep : Rep2 negSG2 negSG2N := ⟨_, rfl⟩

theorem ladder_negSG2 : ladder2N negSG2N (msb (r - 1) 253) negSG2N = some (negSG2N.1, neg2N negSG2N.2) := by
  decide +kernel

theorem r_nsmul_negSG2 : r • negSG2 = 0 := by
  have hv : bitsVal (msb (r - 1) 253) 1 = r - 1 := by decide +kernel
  have h := ladder2N_rep negSG2_rep (msb (r - 1) 253) 1 negSG2N _ (by simpa using negSG2_rep) ladder_negSG2
  rw [hv] at h
  obtain ⟨hns, h⟩ := h
  obtain ⟨h', hneg⟩ := shortW_neg_some (onTwistN_spec (P := negSG2N) (by decide +kernel))
  have e : (r - 1) • negSG2 = -negSG2 := by
    rw [h]
    change _ = -(Point.some (c2 negSG2N.1) (c2 negSG2N.2) _)
    rw [hneg]
    simp [c2_neg]
  have : r = (r - 1) + 1 := by decide +kernel
  rw [this, succ_nsmul, e, neg_add_cancel]

theorem word_cast {x : ℕ} {w : Word} (hx : x < q) (h : BitVec.ofNat 256 x = w) :
    wordOf ((x : ℕ) : Fq) = w := by
  rw [wordOf, ZMod.val_natCast, Nat.mod_eq_of_lt hx, h]

theorem g2Words_negSG2 : g2Words negSG2 =
    [vkWords.getD 17 0, vkWords.getD 18 0, vkWords.getD 19 0, vkWords.getD 20 0] := by
  unfold g2Words encodeG2
  rw [show coords negSG2 = (c2 negSG2N.1, c2 negSG2N.2) from rfl]
  have hl : ∀ a b c d a' b' c' d' : Word, a = a' → b = b' → c = c' → d = d' →
      ([a, b, c, d] : List Word) = [a', b', c', d'] := by
    rintro a b c d _ _ _ _ rfl rfl rfl rfl; rfl
  exact hl _ _ _ _ _ _ _ _ (word_cast (x := vkNat 17) (by decide +kernel) (by decide +kernel))
    (word_cast (x := vkNat 18) (by decide +kernel) (by decide +kernel))
    (word_cast (x := vkNat 19) (by decide +kernel) (by decide +kernel))
    (word_cast (x := vkNat 20) (by decide +kernel) (by decide +kernel))

theorem g2Words_g2 : g2Words g2 =
    [vkWords.getD 13 0, vkWords.getD 14 0, vkWords.getD 15 0, vkWords.getD 16 0] := by
  unfold g2Words
  rw [encode_g2]
  decide +kernel

theorem g1_words : Spec.Halo2.pointWords g1 = [vkWords.getD 11 0, vkWords.getD 12 0] := by
  unfold Spec.Halo2.pointWords
  rw [encode_g1]
  decide +kernel

/-! ### The domain -/

theorem wordOf_of_eq {x : Fr} {w : Word} (hw : w.toNat < r) (h : x = ((w.toNat : ℕ) : Fr)) : wordOf x = w := by
  rw [h, wordOf_of_lt_r hw]

theorem powMod_fr {b e c : ℕ} (he : e < 2 ^ 256) (h : powMod b e r % r = c % r) :
    ((b : ℕ) : Fr) ^ e = ((c : ℕ) : Fr) := by
  rw [← powMod_cast b e r he]
  exact (ZMod.natCast_eq_natCast_iff' _ _ r).2 h

theorem omega_root : IsPrimitiveRoot deployedKey.omega deployedKey.n := by
  have h1 : deployedKey.omega ^ 2 ^ 18 = ((1 : ℕ) : Fr) :=
    powMod_fr (by decide +kernel) (by decide +kernel)
  have h2 : deployedKey.omega ^ 2 ^ 17 = ((r - 1 : ℕ) : Fr) :=
    powMod_fr (by decide +kernel) (by decide +kernel)
  have h3 : ¬ deployedKey.omega ^ 2 ^ 17 = 1 := by
    rw [h2]
    intro h
    have := (ZMod.natCast_eq_natCast_iff' (r - 1) 1 r).1 (by rw [h, Nat.cast_one])
    revert this
    decide +kernel
  have : Fact (Nat.Prime 2) := ⟨Nat.prime_two⟩
  have := orderOf_eq_prime_pow (p := 2) (n := 17) h3 (by rw [h1, Nat.cast_one])
  rw [show deployedKey.n = 2 ^ (17 + 1) from rfl, ← this]
  exact IsPrimitiveRoot.orderOf _

theorem omega_inv : deployedKey.omega⁻¹ = ((vkNat 5 : ℕ) : Fr) := by
  refine inv_eq_of_mul_eq_one_right ?_
  change ((vkNat 4 : ℕ) : Fr) * ((vkNat 5 : ℕ) : Fr) = 1
  rw [← Nat.cast_mul, ← Nat.cast_one]
  exact (ZMod.natCast_eq_natCast_iff' _ _ r).2 (by decide +kernel)

theorem omega_inv6 : deployedKey.omega⁻¹ ^ 6 = ((vkNat 6 : ℕ) : Fr) := by
  rw [omega_inv]
  exact powMod_fr (by decide +kernel) (by decide +kernel)

theorem n_inv : ((deployedKey.n : ℕ) : Fr)⁻¹ = ((vkNat 3 : ℕ) : Fr) := by
  refine inv_eq_of_mul_eq_one_right ?_
  rw [← Nat.cast_mul, ← Nat.cast_one]
  exact (ZMod.natCast_eq_natCast_iff' _ _ r).2 (by decide +kernel)

theorem deployed_valid : deployedKey.Valid where
  root := omega_root
  k_ge := by decide
  k_le := by decide
  instances := by decide
  g2 := r_nsmul_g2
  negSG2 := r_nsmul_negSG2

theorem deployed_words : deployedKey.words = vkWords := by
  have hf : (List.finRange 23).flatMap (fun i => Spec.Halo2.pointWords (deployedKey.fixed i)) =
      (List.finRange 23).flatMap fun i => [vkWords.getD (21 + 2 * i) 0, vkWords.getD (21 + 2 * i + 1) 0] :=
    congrArg (List.flatMap · (List.finRange 23)) (funext fun i => (fixed_spec i).2)
  have hp : (List.finRange 9).flatMap (fun i => Spec.Halo2.pointWords (deployedKey.perm i)) =
      (List.finRange 9).flatMap fun i => [vkWords.getD (67 + 2 * i) 0, vkWords.getD (67 + 2 * i + 1) 0] :=
    congrArg (List.flatMap · (List.finRange 9)) (funext fun i => (perm_spec i).2)
  unfold Key.words
  rw [hf, hp, show deployedKey.g1 = g1 from rfl, g1_words, show deployedKey.g2 = g2 from rfl, g2Words_g2,
    show deployedKey.negSG2 = negSG2 from rfl, g2Words_negSG2,
    wordOf_of_eq (w := vkWords.getD 3 0) (by decide +kernel) n_inv,
    wordOf_of_eq (w := vkWords.getD 4 0) (by decide +kernel) (rfl : deployedKey.omega = _),
    wordOf_of_eq (w := vkWords.getD 5 0) (by decide +kernel) omega_inv,
    wordOf_of_eq (w := vkWords.getD 6 0) (by decide +kernel) omega_inv6,
    show deployedKey.digest = vkWords.getD 0 0 from rfl, show deployedKey.instances = 49 from rfl,
    show deployedKey.k = 18 from rfl]
  decide +kernel

end Verif.Halo2
