import Verif.Lemmas.LayoutFits
import Verif.Lemmas.LimbSize
import Verif.Lemmas.LimbHonest
import Verif.Props.LayoutExact
import Verif.Props.History

/-!
Property C83: there are deployments that meet every requirement of C79, C81 and C82 on the external components.
-/

namespace Verif.Props
open Verif Verif.Spec Verif.Layout Verif.DkgCircuit Polynomial

/-- A root of unity of order `2 ^ 28`. -/
noncomputable def root28 : Fr := ((19103219067921713944291392827692070036145651957329286315305642004821462161904 : ℕ) : Fr)

theorem root28_primitive : IsPrimitiveRoot root28 (2 ^ 28) := by
  have h1 : root28 ^ 2 ^ 28 = ((1 : ℕ) : Fr) := Halo2.powMod_fr (by decide +kernel) (by decide +kernel)
  have h2 : root28 ^ 2 ^ 27 = ((r - 1 : ℕ) : Fr) := Halo2.powMod_fr (by decide +kernel) (by decide +kernel)
  have h3 : ¬ root28 ^ 2 ^ 27 = 1 := by
    rw [h2]
    intro h
    have := (ZMod.natCast_eq_natCast_iff' (r - 1) 1 r).1 (by rw [h, Nat.cast_one])
    revert this
    decide +kernel
  have : Fact (Nat.Prime 2) := ⟨Nat.prime_two⟩
  have := orderOf_eq_prime_pow (p := 2) (n := 27) h3 (by rw [h1, Nat.cast_one])
  rw [show 2 ^ 28 = 2 ^ (27 + 1) from rfl, ← this]
  exact IsPrimitiveRoot.orderOf _

theorem exists_not_mem_fr (s : Finset Fr) (h : s.card < 10000) : ∃ a, a ∉ s := by
  by_contra hc
  push Not at hc
  have e := Fintype.card_le_of_surjective (fun x : s => (x : Fr)) fun a => ⟨⟨a, hc a⟩, rfl⟩
  rw [Fintype.card_coe, ZMod.card] at e
  have h2 : 10000 ≤ r := by decide +kernel
  omega

theorem exists_not_mem_gk (s : Finset Gk) (h : s.card < 10000) : ∃ a, a ∉ s := by
  by_contra hc
  push Not at hc
  have e : Nat.card Gk ≤ Nat.card s := Nat.card_le_card_of_surjective (fun x : s => (x : Gk)) fun a => ⟨⟨a, hc a⟩, rfl⟩
  rw [Nat.card_eq_fintype_card (α := s), Fintype.card_coe, card_Gk] at e
  have h2 : 10000 ≤ q := by decide +kernel
  omega

/-- With the integer chip of `Verif.Lemmas.LimbChip`, the layout can be computed. -/
theorem limb_layout (t n : ℕ) (ht : 0 < t) (hn : 1 ≤ n) (hn6 : n ≤ 6) :
    ∃ S, layout limbChip ⟨t, n⟩ (5 • g1) FixedPoint.aux2 = some (S, 7 * n + 14) := by
  obtain ⟨b, hb, h⟩ := C80_most_secrets limbChip (fun _ _ => False) (fun inp inst => ⟨_, limbChip_complete _⟩) false t n ht hn (5 • g1)
    FixedPoint.aux2 (FixedPoint.tableFitsN_spec addOrderOf_g1 (by decide +kernel)) FixedPoint.r_nsmul_aux2 FixedPoint.aux2_tableFits
    (List.replicate n gk) List.length_replicate (fun pk hpk => by rw [List.eq_of_mem_replicate hpk]; exact gk_ne_zero) (fun _ => 1) one_ne_zero
  obtain ⟨a, ha⟩ := exists_not_mem_fr b (by omega)
  obtain ⟨mp, ins, -, -, bad, hbad, h⟩ := h a ha
  obtain ⟨A, hA⟩ := exists_not_mem_gk bad (by omega)
  obtain ⟨inp, S, T, -, -, hL, -⟩ := h A hA (fun _ => 0)
  refine ⟨S, ?_⟩
  rw [hL, C78_public_inputs _ t n _ _ S _ hL]

/-- That layout fits into `2 ^ 28` rows. -/
theorem limb_fits {t n : ℕ} (ht : t ≤ n) (hn6 : n ≤ 6) {S : Shape} {N : ℕ}
    (hL : layout limbChip ⟨t, n⟩ (5 • g1) FixedPoint.aux2 = some (S, N)) :
    S.Fits (2 ^ 28 - 6) (fun k => k * 5200000) crow0 [(0, 0)] := by
  obtain ⟨o, ho, he⟩ := Option.map_eq_some_iff.1 hL
  have e : o.shape = S := congrArg Prod.fst he
  have hm : (n - 1) * (1 + (t - 1)) ≤ 5 * 6 := Nat.mul_le_mul (by omega) (by omega)
  have h := regs_synthesize (B := 5200000) (K := 50) (P := 56) limbChip_small ⟨t, n⟩ (5 • g1) FixedPoint.aux2 (by dsimp only; omega)
    (by norm_num) (by dsimp only; omega) (by norm_num) (by norm_num) (by norm_num) (by norm_num)
  obtain ⟨h1, h2, -⟩ := h _ o ho (by dsimp only; omega)
  dsimp only at h2
  rw [← e]
  exact h1.fits (by omega) (by norm_num) (by norm_num) (by norm_num)

/-- C83. For up to six members and every threshold, there is an integer chip that meets the requirements of C78 and C80
with which the circuit has a layout, and for every secret of the setup a verifying key that belongs to this layout and to
nothing more. -/
theorem C83_deployment_exists (t n : ℕ) (ht : 0 < t) (htn : t ≤ n) (hn6 : n ≤ 6) :
    ∃ (J : IntegerImpl) (S : Shape) (start : ℕ → ℕ) (K : Halo2.KeyPolys),
      (∀ T, ∃ good val, J.Correct T good val) ∧ (∀ X, ∃ Is, J.Complete X Is) ∧
      layout J ⟨t, n⟩ (5 • g1) FixedPoint.aux2 = some (S, 7 * n + 14) ∧
      ∀ s : Fr, ∃ V : Halo2.Key, V.Valid ∧ V.n = 2 ^ 28 ∧ V.instances = 7 * n + 14 ∧ Halo2.KeyFor V s K ∧ K.Bound (V.n - 1) ∧
        K.Permutes V ∧ RealizesExactly V K S start := by
  obtain ⟨S, hL⟩ := limb_layout t n ht (by omega) hn6
  obtain ⟨K, hK, h⟩ := C82_keys_exist 28 (7 * n + 14) (by norm_num) (le_refl _) (by omega) root28 root28_primitive S _ _ _ (limb_fits htn hn6 hL)
  refine ⟨limbChip, S, fun k => k * 5200000, K, fun T => ⟨_, _, limbChip_correct T⟩, fun X => ⟨_, limbChip_complete X⟩, hL, fun s => ?_⟩
  obtain ⟨V, e1, -, e3, hV, hF, hP, hR, -⟩ := h s
  have hn : V.n = 2 ^ 28 := by rw [Halo2.Key.n, e1]
  exact ⟨V, hV, hn, e3, hF, by rw [hn]; exact hK, hP, hR⟩

/-- C83. So there are deployments of the contracts with the verifier contract in which, after every history whose successful
submissions come from provers that know polynomials, hit no exception and know no nonzero polynomial vanishing at the
secret of the setup, the keys of a finished setup are the sums of dealings to the registered keys. -/
theorem C83_contract_keys (E : BnPairing) (s : Fr) (t n : ℕ) (ht : 0 < t) (htn : t ≤ n) (hn6 : n ≤ 6) :
    ∃ (V : Halo2.Key) (K : Halo2.KeyPolys) (B : List Fr → Halo2.Exceptions), V.Valid ∧ Halo2.KeyFor V s K ∧
      V.instances = 7 * n + 14 ∧ (∀ inst, (B inst).Small V (V.n - 1)) ∧
      ∀ (env : Env) (sel : List Byte) (addr : Word), env.E = E → sel.length = 4 →
        env.verifyProof = Verif.Halo2.verifyProof E env.keccak V.words sel addr →
        (∀ st, Zkdvrf.GuardedHistory env (Halo2.Clean env.keccak V s K (V.n - 1) B) st → st.threshold = t → st.memberCount = n →
          st.contractPhase = .Ready → KeysFrom t n st.pkList st.ppList st.vkList st.gpkVal) ∧
        ∀ st, ZkdvrfPre.GuardedHistory env (Halo2.Clean env.keccak V s K (V.n - 1) B) st → st.threshold = t → st.memberCount = n →
          st.contractPhase = .Ready → KeysFrom t n st.pkList st.ppList st.vkList st.gpkVal := by
  obtain ⟨J, S, start, K, hJ, -, hL, h⟩ := C83_deployment_exists t n ht htn hn6
  obtain ⟨V, hV, hn, hi, hF, hB, -, hR⟩ := h s
  obtain ⟨B, h1, h2⟩ := C81_contract_keys E V hV s K hF (V.n - 1) (by omega) hB (by rw [hn, hi]; omega) J t n ht _ _ S (by rw [hL, hi]) start
    hR.toRealizes (fun _ _ => hJ _)
  exact ⟨V, K, B, hV, hF, hi, h1, h2⟩

/-- All hypotheses of `C79_contract_submission`, `C81_contract_keys` and `C82_honest_submission` about the key, the chip and
the layout hold together, for five members and the threshold three. -/
example (s : Fr) : ∃ (V : Halo2.Key) (K : Halo2.KeyPolys) (J : IntegerImpl) (S : Shape) (start : ℕ → ℕ), V.Valid ∧ Halo2.KeyFor V s K ∧
    K.Bound (V.n - 1) ∧ K.Permutes V ∧ V.instances ≤ V.n ∧ layout J ⟨3, 5⟩ (5 • g1) FixedPoint.aux2 = some (S, V.instances) ∧
    RealizesExactly V K S start ∧ (∀ advice inst, ∃ good val, J.Correct (tableOf V K start advice inst) good val) ∧
    ∀ inp inst, ∃ Is, J.Complete ⟨inp, inst, keyRange V K⟩ Is := by
  obtain ⟨J, S, start, K, hJ, hJ', hL, h⟩ := C83_deployment_exists 3 5 (by norm_num) (by norm_num) (by norm_num)
  obtain ⟨V, hV, hn, hi, hF, hB, hP, hR⟩ := h s
  exact ⟨V, K, J, S, start, hV, hF, hB, hP, by rw [hn, hi]; norm_num, by rw [hL, hi], hR, fun _ _ => hJ _, fun _ _ => hJ' _⟩

end Verif.Props
