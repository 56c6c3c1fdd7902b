import Verif.Model.Halo2Combi
import Verif.Lemmas.Halo2Key

/-! The embedded key of the stand-alone verifier is well formed; and the stand-alone verifier computes what
the verifier with a separate key computes for this key. -/

namespace Verif.Halo2.Combi
open Spec.Halo2 WeierstrassCurve.Affine

/-! ### The key -/

theorem keyPoint_spec {i : ℕ} (h : onCurveN (keyNat i) (keyNat (i + 1)) = true) :
    keyPoint i ≠ 0 ∧ Spec.Halo2.pointWords (keyPoint i) = [key.getD i 0, key.getD (i + 1) 0] := by
  obtain ⟨P, hP, he⟩ := pointOk_iff.1 (pointOk_of_onCurveN h)
  have : keyPoint i = P := by
    unfold keyPoint
    rw [decodeG1_eq_some.2 he]
    rfl
  rw [this]
  obtain ⟨h1, h2⟩ := isPoint_iff.1 he
  refine ⟨hP, ?_⟩
  unfold Spec.Halo2.pointWords
  rw [h1, h2]

theorem key_curve : ∀ i : Fin 32, onCurveN (keyNat (21 + 2 * i)) (keyNat (21 + 2 * i + 1)) = true := by
  decide +kernel

theorem fixed_spec (i : Fin 23) : embeddedKey.fixed i ≠ 0 ∧ Spec.Halo2.pointWords (embeddedKey.fixed i) =
    [key.getD (21 + 2 * i) 0, key.getD (21 + 2 * i + 1) 0] :=
  keyPoint_spec (key_curve (Fin.castLE (by decide) i))

theorem perm_spec (i : Fin 9) : embeddedKey.perm i ≠ 0 ∧ Spec.Halo2.pointWords (embeddedKey.perm i) =
    [key.getD (67 + 2 * i) 0, key.getD (67 + 2 * i + 1) 0] := by
  have h := key_curve (Fin.natAdd 23 i)
  rw [Fin.val_natAdd, show 21 + 2 * (23 + (i : ℕ)) = 67 + 2 * i by ring] at h
  exact keyPoint_spec h

theorem negSG2_rep : Rep2 negSG2 negSG2N := ⟨_, rfl⟩

theorem ladder_negSG2 : ladder2N negSG2N (msb (r - 1) 253) negSG2N = some (negSG2N.1, neg2N negSG2N.2) := by
  decide +kernel

theorem r_nsmul_negSG2 : r • negSG2 = 0 := by
  have hv : bitsVal (msb (r - 1) 253) 1 = r - 1 := by decide +kernel
  have h := ladder2N_rep negSG2_rep (msb (r - 1) 253) 1 negSG2N _ (by simpa using negSG2_rep) ladder_negSG2
  rw [hv] at h
  obtain ⟨hns, h⟩ := h
  obtain ⟨h', hneg⟩ := shortW_neg_some (onTwistN_spec (P := negSG2N) (by decide +kernel))
  have e : (r - 1) • negSG2 = -negSG2 := by
    rw [h]
    change _ = -(Point.some (c2 negSG2N.1) (c2 negSG2N.2) _)
    rw [hneg]
    simp [c2_neg]
  have : r = (r - 1) + 1 := by decide +kernel
  rw [this, succ_nsmul, e, neg_add_cancel]

theorem g2Words_negSG2 : g2Words negSG2 =
    [key.getD 17 0, key.getD 18 0, key.getD 19 0, key.getD 20 0] := by
  unfold g2Words encodeG2
  rw [show coords negSG2 = (c2 negSG2N.1, c2 negSG2N.2) from rfl]
  have hl : ∀ a b c d a' b' c' d' : Word, a = a' → b = b' → c = c' → d = d' →
      ([a, b, c, d] : List Word) = [a', b', c', d'] := by
    rintro a b c d _ _ _ _ rfl rfl rfl rfl; rfl
  exact hl _ _ _ _ _ _ _ _ (Halo2.word_cast (x := keyNat 17) (by decide +kernel) (by decide +kernel))
    (Halo2.word_cast (x := keyNat 18) (by decide +kernel) (by decide +kernel))
    (Halo2.word_cast (x := keyNat 19) (by decide +kernel) (by decide +kernel))
    (Halo2.word_cast (x := keyNat 20) (by decide +kernel) (by decide +kernel))

theorem g2Words_g2 : g2Words g2 =
    [key.getD 13 0, key.getD 14 0, key.getD 15 0, key.getD 16 0] := by
  unfold g2Words
  rw [encode_g2]
  decide +kernel

theorem g1_words : Spec.Halo2.pointWords g1 = [key.getD 11 0, key.getD 12 0] := by
  unfold Spec.Halo2.pointWords
  rw [encode_g1]
  decide +kernel

/-! ### The domain -/

theorem omega_root : IsPrimitiveRoot embeddedKey.omega embeddedKey.n := by
  have h1 : embeddedKey.omega ^ 2 ^ 18 = ((1 : ℕ) : Fr) :=
    powMod_fr (by decide +kernel) (by decide +kernel)
  have h2 : embeddedKey.omega ^ 2 ^ 17 = ((r - 1 : ℕ) : Fr) :=
    powMod_fr (by decide +kernel) (by decide +kernel)
  have h3 : ¬ embeddedKey.omega ^ 2 ^ 17 = 1 := by
    rw [h2]
    intro h
    have := (ZMod.natCast_eq_natCast_iff' (r - 1) 1 r).1 (by rw [h, Nat.cast_one])
    revert this
    decide +kernel
  have : Fact (Nat.Prime 2) := ⟨Nat.prime_two⟩
  have := orderOf_eq_prime_pow (p := 2) (n := 17) h3 (by rw [h1, Nat.cast_one])
  rw [show embeddedKey.n = 2 ^ (17 + 1) from rfl, ← this]
  exact IsPrimitiveRoot.orderOf _

theorem omega_inv : embeddedKey.omega⁻¹ = ((keyNat 5 : ℕ) : Fr) := by
  refine inv_eq_of_mul_eq_one_right ?_
  change ((keyNat 4 : ℕ) : Fr) * ((keyNat 5 : ℕ) : Fr) = 1
  rw [← Nat.cast_mul, ← Nat.cast_one]
  exact (ZMod.natCast_eq_natCast_iff' _ _ r).2 (by decide +kernel)

theorem omega_inv6 : embeddedKey.omega⁻¹ ^ 6 = ((keyNat 6 : ℕ) : Fr) := by
  rw [omega_inv]
  exact powMod_fr (by decide +kernel) (by decide +kernel)

theorem n_inv : ((embeddedKey.n : ℕ) : Fr)⁻¹ = ((keyNat 3 : ℕ) : Fr) := by
  refine inv_eq_of_mul_eq_one_right ?_
  rw [← Nat.cast_mul, ← Nat.cast_one]
  exact (ZMod.natCast_eq_natCast_iff' _ _ r).2 (by decide +kernel)

theorem embedded_valid : embeddedKey.Valid where
  root := omega_root
  k_ge := by decide
  k_le := by decide
  instances := by decide
  g2 := r_nsmul_g2
  negSG2 := r_nsmul_negSG2

theorem embedded_words : embeddedKey.words = key := by
  have hf : (List.finRange 23).flatMap (fun i => Spec.Halo2.pointWords (embeddedKey.fixed i)) =
      (List.finRange 23).flatMap fun i => [key.getD (21 + 2 * i) 0, key.getD (21 + 2 * i + 1) 0] :=
    congrArg (List.flatMap · (List.finRange 23)) (funext fun i => (fixed_spec i).2)
  have hp : (List.finRange 9).flatMap (fun i => Spec.Halo2.pointWords (embeddedKey.perm i)) =
      (List.finRange 9).flatMap fun i => [key.getD (67 + 2 * i) 0, key.getD (67 + 2 * i + 1) 0] :=
    congrArg (List.flatMap · (List.finRange 9)) (funext fun i => (perm_spec i).2)
  unfold Key.words
  rw [hf, hp, show embeddedKey.g1 = g1 from rfl, g1_words, show embeddedKey.g2 = g2 from rfl, g2Words_g2,
    show embeddedKey.negSG2 = negSG2 from rfl, g2Words_negSG2,
    Halo2.wordOf_of_eq (w := key.getD 3 0) (by decide +kernel) n_inv,
    Halo2.wordOf_of_eq (w := key.getD 4 0) (by decide +kernel) (rfl : embeddedKey.omega = _),
    Halo2.wordOf_of_eq (w := key.getD 5 0) (by decide +kernel) omega_inv,
    Halo2.wordOf_of_eq (w := key.getD 6 0) (by decide +kernel) omega_inv6,
    show embeddedKey.digest = key.getD 0 0 from rfl, show embeddedKey.instances = 49 from rfl,
    show embeddedKey.k = 18 from rfl]
  decide +kernel

/-! ### The computation -/

/-- Call data without the word for the address of the key. -/
def shift (c : ℕ → Word) : ℕ → Word := fun a => c (a - 0x20)

theorem upFrom_add (a b step n : ℕ) : upFrom (a + b) step n = (upFrom a step n).map (· + b) := by
  unfold upFrom
  rw [List.map_map]
  apply List.map_congr_left
  intro i _
  exact Nat.add_right_comm a b _

theorem readEcPoint_shift (c : ℕ → Word) (s : Rd) (p : ℕ) :
    Halo2.readEcPoint (shift c) s (p + 0x20) = Halo2.readEcPoint c s p := by
  unfold Halo2.readEcPoint shift
  rw [Nat.add_sub_cancel, show p + 0x20 + 0x20 - 0x20 = p + 0x20 from Nat.add_sub_cancel _ _]

theorem readScalar_shift (c : ℕ → Word) (s : Rd) (p : ℕ) :
    Halo2.readScalar (shift c) s (p + 0x20) = Halo2.readScalar c s p := by
  unfold Halo2.readScalar shift
  rw [Nat.add_sub_cancel]

theorem readPoints_shift (c : ℕ → Word) (s : Rd) (p n : ℕ) :
    Halo2.readPoints (shift c) s (p + 0x20) n = Halo2.readPoints c s p n := by
  unfold Halo2.readPoints
  rw [upFrom_add, List.foldl_map]
  simp only [readEcPoint_shift]

theorem readScalars_shift (c : ℕ → Word) (s : Rd) (p n : ℕ) :
    Halo2.readScalars (shift c) s (p + 0x20) n = Halo2.readScalars c s p n := by
  unfold Halo2.readScalars
  rw [upFrom_add, List.foldl_map]
  simp only [readScalar_shift]

theorem prologue_shift (keccak : Keccak) (c : ℕ → Word) :
    prologue keccak c = Halo2.prologue keccak key (shift c) := by
  unfold prologue Halo2.prologue
  simp only [← readScalars_shift c, ← readPoints_shift c, ← readEcPoint_shift c]
  rfl

theorem lagrange_shift (c : ℕ → Word) (s : St) : lagrange c s = Halo2.lagrange (shift c) s := by
  unfold lagrange Halo2.lagrange
  rw [show Halo2.INSTANCE_CPTR = INSTANCE_CPTR + 0x20 from rfl]
  simp only [upFrom_add INSTANCE_CPTR, List.zip_map_right, List.foldl_map]
  rfl

theorem quotientEval_shift (c : ℕ → Word) (m : Mem) :
    quotientEval c m = Halo2.quotientEval (shift c) m := rfl

theorem quotientComm_shift (c : ℕ → Word) (s : St) :
    quotientComm c s = Halo2.quotientComm (shift c) s := by
  unfold quotientComm Halo2.quotientComm
  have h1 : shift c Halo2.LAST_QUOTIENT_X_CPTR = c LAST_QUOTIENT_X_CPTR := rfl
  have h2 : shift c (Halo2.LAST_QUOTIENT_X_CPTR + 0x20) = c (LAST_QUOTIENT_X_CPTR + 0x20) := rfl
  have h3 : ∀ p, shift c (p + 0x20) = c p := fun p => by rw [shift, Nat.add_sub_cancel]
  rw [h1, h2, show downFrom (Halo2.LAST_QUOTIENT_X_CPTR - 0x40) 0x40 4 =
    (downFrom (LAST_QUOTIENT_X_CPTR - 0x40) 0x40 4).map (· + 0x20) from by decide]
  simp only [List.foldl_map, h3]

theorem open8_shift (c : ℕ → Word) (s : St) : open8 c s = Halo2.open8 (shift c) s := rfl

theorem open10_shift (c : ℕ → Word) (s : St) : open10 c s = Halo2.open10 (shift c) s := rfl

theorem open11_shift (c : ℕ → Word) (s : St) : open11 c s = Halo2.open11 (shift c) s := rfl

theorem open12_shift (c : ℕ → Word) (s : St) : open12 c s = Halo2.open12 (shift c) s := rfl

theorem open9_shift (c : ℕ → Word) (s : St) : open9 c s = Halo2.open9 (shift c) s := by
  unfold open9 Halo2.open9
  rw [show downFrom 0x0d44 0x20 9 = (downFrom 0x0d24 0x20 9).map (· + 0x20) from by decide,
    show downFrom 0x0c04 0x20 23 = (downFrom 0x0be4 0x20 23).map (· + 0x20) from by decide]
  simp only [List.foldl_map]
  rfl

theorem comm0_shift (c : ℕ → Word) (s : St) : comm0 c s = Halo2.comm0 (shift c) s := by
  unfold comm0 Halo2.comm0
  simp only [shift, Nat.reduceSub]

theorem comm1_shift (c : ℕ → Word) (nu : Word) (s : St) : comm1 c nu s = Halo2.comm1 (shift c) nu s := by
  unfold comm1 Halo2.comm1
  simp only [shift, Nat.reduceSub]

theorem comm3_shift (c : ℕ → Word) (nu : Word) (s : St) : comm3 c nu s = Halo2.comm3 (shift c) nu s := by
  unfold comm3 Halo2.comm3
  simp only [shift, Nat.reduceSub]

theorem comm4_shift (c : ℕ → Word) (nu : Word) (s : St) : comm4 c nu s = Halo2.comm4 (shift c) nu s := by
  unfold comm4 Halo2.comm4
  simp only [shift, Nat.reduceSub]

theorem comm5_shift (c : ℕ → Word) (s : St) : comm5 c s = Halo2.comm5 (shift c) s := by
  unfold comm5 Halo2.comm5
  simp only [shift, Nat.reduceSub]

theorem comm2_shift (c : ℕ → Word) (nu : Word) (s : St) : comm2 c nu s = Halo2.comm2 (shift c) nu s := by
  unfold comm2 Halo2.comm2
  rw [show downFrom 0x05c4 0x40 5 = (downFrom 0x05a4 0x40 5).map (· + 0x20) from by decide]
  simp only [List.foldl_map, shift, Nat.add_sub_cancel, Nat.reduceSub]

theorem open19_shift (c : ℕ → Word) (s : St) : open19 c s = Halo2.open19 (shift c) s := by
  unfold open19 Halo2.open19
  simp only [comm0_shift, comm1_shift, comm2_shift, comm3_shift, comm4_shift, comm5_shift]
  simp only [shift, Nat.reduceSub]

theorem open0_eq (s : St) : open0 s = Halo2.open0 s := rfl

theorem open1_eq (s : St) : open1 s = Halo2.open1 s := rfl

theorem open2_eq (s : St) : open2 s = Halo2.open2 s := rfl

theorem open3_eq (s : St) : open3 s = Halo2.open3 s := rfl

theorem open4_eq (s : St) : open4 s = Halo2.open4 s := rfl

theorem open5_eq (s : St) : open5 s = Halo2.open5 s := rfl

theorem open6_eq (s : St) : open6 s = Halo2.open6 s := rfl

theorem open7_eq (s : St) : open7 s = Halo2.open7 s := rfl

theorem open13_eq (s : St) : open13 s = Halo2.open13 s := rfl

theorem open14_eq (s : St) : open14 s = Halo2.open14 s := rfl

theorem open15_eq (s : St) : open15 s = Halo2.open15 s := rfl

theorem open16_eq (s : St) : open16 s = Halo2.open16 s := rfl

theorem open17_eq (s : St) : open17 s = Halo2.open17 s := rfl

theorem open18_eq (s : St) : open18 s = Halo2.open18 s := rfl

theorem batchOpen_shift (c : ℕ → Word) (s : St) : batchOpen c s = Halo2.batchOpen (shift c) s := by
  unfold batchOpen Halo2.batchOpen
  simp only [open0_eq, open1_eq, open2_eq, open3_eq, open4_eq, open5_eq, open6_eq, open7_eq, open13_eq,
    open14_eq, open15_eq, open16_eq, open17_eq, open18_eq, open8_shift, open9_shift, open10_shift, open11_shift, open12_shift, open19_shift]

theorem run_shift (E : BnPairing) (keccak : Keccak) (c : ℕ → Word) :
    run E keccak c = Halo2.run E keccak key (shift c) := by
  unfold run Halo2.run
  rw [prologue_shift]
  simp only [lagrange_shift, quotientEval_shift, quotientComm_shift, batchOpen_shift]

/-! ### The first 0x64 bytes of the call data are not read -/

/-- Call data with zeros in the first 0x64 bytes. -/
def mask (c : ℕ → Word) : ℕ → Word := fun a => if a < 0x64 then 0 else c a

theorem mask_ge {c : ℕ → Word} {a : ℕ} (h : 0x64 ≤ a) : mask c a = c a := if_neg (Nat.not_lt.2 h)

theorem readEcPoint_mask (c : ℕ → Word) (s : Rd) {p : ℕ} (h : 0x64 ≤ p) :
    Halo2.readEcPoint (mask c) s p = Halo2.readEcPoint c s p := by
  unfold Halo2.readEcPoint
  rw [mask_ge h, mask_ge (h.trans (Nat.le_add_right _ _))]

theorem readScalar_mask (c : ℕ → Word) (s : Rd) {p : ℕ} (h : 0x64 ≤ p) :
    Halo2.readScalar (mask c) s p = Halo2.readScalar c s p := by
  unfold Halo2.readScalar
  rw [mask_ge h]

theorem foldl_congr_mem {α β : Type*} {f g : β → α → β} (l : List α) (h : ∀ b, ∀ a ∈ l, f b a = g b a) (b : β) :
    l.foldl f b = l.foldl g b := by
  induction l generalizing b with
  | nil => rfl
  | cons a l ih =>
    rw [List.foldl_cons, List.foldl_cons, h b a List.mem_cons_self]
    exact ih (fun b a' ha => h b a' (List.mem_cons_of_mem _ ha)) _

theorem ge_of_mem_upFrom {a step n x : ℕ} (h : x ∈ upFrom a step n) : a ≤ x := by
  obtain ⟨i, _, rfl⟩ := List.mem_map.1 h
  exact Nat.le_add_right _ _

theorem readPoints_mask (c : ℕ → Word) (s : Rd) {p : ℕ} (n : ℕ) (h : 0x64 ≤ p) :
    Halo2.readPoints (mask c) s p n = Halo2.readPoints c s p n :=
  foldl_congr_mem _ (fun s _ ha => readEcPoint_mask c s (h.trans (ge_of_mem_upFrom ha))) _

theorem readScalars_mask (c : ℕ → Word) (s : Rd) {p : ℕ} (n : ℕ) (h : 0x64 ≤ p) :
    Halo2.readScalars (mask c) s p n = Halo2.readScalars c s p n :=
  foldl_congr_mem _ (fun s _ ha => readScalar_mask c s (h.trans (ge_of_mem_upFrom ha))) _

theorem prologue_mask (keccak : Keccak) (vk : List Word) (c : ℕ → Word) :
    Halo2.prologue keccak vk (mask c) = Halo2.prologue keccak vk c := by
  unfold Halo2.prologue
  simp only [readScalars_mask c _ _ (show 0x64 ≤ Halo2.INSTANCE_CPTR by decide),
    readScalars_mask c _ _ (show 0x64 ≤ Halo2.PROOF_CPTR + 0x0740 by decide),
    readPoints_mask c _ _ (show 0x64 ≤ Halo2.PROOF_CPTR by decide),
    readPoints_mask c _ _ (show 0x64 ≤ Halo2.PROOF_CPTR + 0x0140 by decide),
    readPoints_mask c _ _ (show 0x64 ≤ Halo2.PROOF_CPTR + 0x03c0 by decide),
    readPoints_mask c _ _ (show 0x64 ≤ Halo2.PROOF_CPTR + 0x0600 by decide),
    readEcPoint_mask c _ (show 0x64 ≤ Halo2.PROOF_CPTR + 0x1100 by decide),
    readEcPoint_mask c _ (show 0x64 ≤ Halo2.PROOF_CPTR + 0x1140 by decide),
    mask_ge (c := c) (show 0x64 ≤ Halo2.PROOF_LEN_CPTR by decide),
    mask_ge (c := c) (show 0x64 ≤ Halo2.NUM_INSTANCE_CPTR by decide)]

theorem lagrange_mask (c : ℕ → Word) (s : St) : Halo2.lagrange (mask c) s = Halo2.lagrange c s := by
  unfold Halo2.lagrange
  have h : ∀ (m : Mem) (l : List ℕ) (n : ℕ), (l.zip (upFrom Halo2.INSTANCE_CPTR 0x20 n)).foldl
      (fun a p => addr a (mulr (m p.1) (mask c p.2))) 0 =
      (l.zip (upFrom Halo2.INSTANCE_CPTR 0x20 n)).foldl (fun a p => addr a (mulr (m p.1) (c p.2))) 0 := by
    intro m l n
    apply foldl_congr_mem
    rintro a ⟨i, j⟩ hij
    rw [mask_ge (le_trans (by decide) (ge_of_mem_upFrom (List.of_mem_zip hij).2))]
  simp only [h]

theorem quotientEval_mask (c : ℕ → Word) (m : Mem) :
    Halo2.quotientEval (mask c) m = Halo2.quotientEval c m := rfl

theorem quotientComm_mask (c : ℕ → Word) (s : St) :
    Halo2.quotientComm (mask c) s = Halo2.quotientComm c s := by
  unfold Halo2.quotientComm
  have h1 : mask c Halo2.LAST_QUOTIENT_X_CPTR = c Halo2.LAST_QUOTIENT_X_CPTR := rfl
  have h2 : mask c (Halo2.LAST_QUOTIENT_X_CPTR + 0x20) = c (Halo2.LAST_QUOTIENT_X_CPTR + 0x20) := rfl
  have h3 : ∀ p ∈ downFrom (Halo2.LAST_QUOTIENT_X_CPTR - 0x40) 0x40 4, 0x64 ≤ p := by decide
  rw [h1, h2]
  have h4 : ∀ (f : St → St) (s : St), (downFrom (Halo2.LAST_QUOTIENT_X_CPTR - 0x40) 0x40 4).foldl
      (fun s p => (f s).ecAddAcc (mask c p) (mask c (p + 0x20))) s =
      (downFrom (Halo2.LAST_QUOTIENT_X_CPTR - 0x40) 0x40 4).foldl
      (fun s p => (f s).ecAddAcc (c p) (c (p + 0x20))) s := by
    intro f s
    apply foldl_congr_mem
    intro s p hp
    rw [mask_ge (h3 p hp), mask_ge ((h3 p hp).trans (Nat.le_add_right _ _))]
  simp only [h4 (fun s => s.ecMulAcc _)]

theorem open8_mask (c : ℕ → Word) (s : St) : Halo2.open8 (mask c) s = Halo2.open8 c s := rfl

theorem open10_mask (c : ℕ → Word) (s : St) : Halo2.open10 (mask c) s = Halo2.open10 c s := rfl

theorem open11_mask (c : ℕ → Word) (s : St) : Halo2.open11 (mask c) s = Halo2.open11 c s := rfl

theorem open12_mask (c : ℕ → Word) (s : St) : Halo2.open12 (mask c) s = Halo2.open12 c s := rfl

theorem open9_mask (c : ℕ → Word) (s : St) : Halo2.open9 (mask c) s = Halo2.open9 c s := by
  have h : ∀ l : List ℕ, (∀ p ∈ l, 0x64 ≤ p) → ∀ (z k : Word) (a : Word),
      l.foldl (fun a p => addr (mulr a z) (mulr k (mask c p))) a =
      l.foldl (fun a p => addr (mulr a z) (mulr k (c p))) a := by
    intro l hl z k a
    apply foldl_congr_mem
    intro a p hp
    rw [mask_ge (hl p hp)]
  unfold Halo2.open9
  simp only [h (downFrom 0x0d44 0x20 9) (by decide), h (downFrom 0x0c04 0x20 23) (by decide)]
  rfl

theorem comm0_mask (c : ℕ → Word) (s : St) : Halo2.comm0 (mask c) s = Halo2.comm0 c s := by
  unfold Halo2.comm0
  simp only [mask, Nat.reduceLT, if_false]

theorem comm1_mask (c : ℕ → Word) (nu : Word) (s : St) : Halo2.comm1 (mask c) nu s = Halo2.comm1 c nu s := by
  unfold Halo2.comm1
  simp only [mask, Nat.reduceLT, if_false]

theorem comm3_mask (c : ℕ → Word) (nu : Word) (s : St) : Halo2.comm3 (mask c) nu s = Halo2.comm3 c nu s := by
  unfold Halo2.comm3
  simp only [mask, Nat.reduceLT, if_false]

theorem comm4_mask (c : ℕ → Word) (nu : Word) (s : St) : Halo2.comm4 (mask c) nu s = Halo2.comm4 c nu s := by
  unfold Halo2.comm4
  simp only [mask, Nat.reduceLT, if_false]

theorem comm5_mask (c : ℕ → Word) (s : St) : Halo2.comm5 (mask c) s = Halo2.comm5 c s := by
  unfold Halo2.comm5
  simp only [mask, Nat.reduceLT, if_false]

theorem comm2_mask (c : ℕ → Word) (nu : Word) (s : St) : Halo2.comm2 (mask c) nu s = Halo2.comm2 c nu s := by
  have h : ∀ l : List ℕ, (∀ p ∈ l, 0x64 ≤ p) → ∀ s : St,
      l.foldl (fun s p => s.stepTmp (mask c p) (mask c (p + 0x20))) s =
      l.foldl (fun s p => s.stepTmp (c p) (c (p + 0x20))) s := by
    intro l hl s
    apply foldl_congr_mem
    intro a p hp
    rw [mask_ge (hl p hp), mask_ge ((hl p hp).trans (Nat.le_add_right _ _))]
  unfold Halo2.comm2
  simp only [h (downFrom 0x05c4 0x40 5) (by decide)]
  simp only [mask, Nat.reduceLT, if_false]

theorem open19_mask (c : ℕ → Word) (s : St) : Halo2.open19 (mask c) s = Halo2.open19 c s := by
  unfold Halo2.open19
  simp only [comm0_mask, comm1_mask, comm2_mask, comm3_mask, comm4_mask, comm5_mask]
  simp only [mask, Nat.reduceLT, if_false]

theorem batchOpen_mask (c : ℕ → Word) (s : St) : Halo2.batchOpen (mask c) s = Halo2.batchOpen c s := by
  unfold Halo2.batchOpen
  simp only [open8_mask, open9_mask, open10_mask, open11_mask, open12_mask, open19_mask]

theorem run_mask (E : BnPairing) (keccak : Keccak) (vk : List Word) (c : ℕ → Word) :
    Halo2.run E keccak vk (mask c) = Halo2.run E keccak vk c := by
  unfold Halo2.run
  rw [prologue_mask]
  simp only [lagrange_mask, quotientEval_mask, quotientComm_mask, batchOpen_mask]

/-- The stand-alone verifier answers as the other one for its key, at every address. -/
theorem verifyProof_eq (E : BnPairing) (keccak : Keccak) (sel sel' : List Byte) (hs : sel.length = 4)
    (hs' : sel'.length = 4) (addr : Word) (proof : List Byte) (ins : List Word) :
    verifyProof E keccak sel proof ins = Halo2.verifyProof E keccak key sel' addr proof ins := by
  unfold verifyProof Halo2.verifyProof
  split
  · rw [run_shift, ← run_mask, ← run_mask E keccak key (calldataload (Halo2.callData sel' addr proof ins))]
    congr 1
    funext a
    unfold mask
    split
    · rfl
    · rename_i ha
      obtain ⟨k, rfl⟩ : ∃ k, a = 100 + k := ⟨a - 100, by omega⟩
      unfold shift calldataload
      obtain ⟨rest, h1, h2⟩ : ∃ rest, callData sel proof ins = (sel ++ beBytes 32 0x40 ++ beBytes 32 (0x60 +
          (proof ++ List.replicate ((32 - proof.length % 32) % 32) 0).length)) ++ rest ∧
          Halo2.callData sel' addr proof ins = (sel' ++ addr.bytes ++ beBytes 32 0x60 ++ beBytes 32 (0x80 +
          (proof ++ List.replicate ((32 - proof.length % 32) % 32) 0).length)) ++ rest := by
        refine ⟨beBytes 32 proof.length ++ (proof ++ List.replicate ((32 - proof.length % 32) % 32) 0) ++
          beBytes 32 ins.length ++ ins.flatMap Word.bytes, ?_, ?_⟩
        · unfold callData
          simp only [List.append_assoc]
        · unfold Halo2.callData
          simp only [List.append_assoc]
      rw [h1, h2, show 100 + k - 0x20 = 68 + k by omega]
      have e1 : ∀ (p : List Byte), p.length = 68 → (p ++ rest).drop (68 + k) = rest.drop k := by
        intro p hp
        rw [← hp, List.drop_append, List.drop_eq_nil_of_le (by omega), List.nil_append, Nat.add_sub_cancel_left]
      have e2 : ∀ (p : List Byte), p.length = 100 → (p ++ rest).drop (100 + k) = rest.drop k := by
        intro p hp
        rw [← hp, List.drop_append, List.drop_eq_nil_of_le (by omega), List.nil_append, Nat.add_sub_cancel_left]
      rw [e1 _ (by simp only [List.length_append, hs, length_beBytes]), e2 _ (by
        simp only [List.length_append, hs', length_beBytes, Word.bytes])]
  · rfl

end Verif.Halo2.Combi
