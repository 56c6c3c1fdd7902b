import Verif.Model.DkgCircuit
import Verif.Spec.Dealing
import Verif.Lemmas.FixedPointTable
import Verif.Lemmas.Poseidon
import Verif.Lemmas.Instance

namespace Verif.DkgCircuit
open Verif Spec FixedPoint GrumpkinChip

/-! ### Shares -/

theorem hornerChain_iff (x : Fr) (cs : List Fr) : ∀ s s',
    hornerChain x cs s s' ↔ s' = cs.foldl (fun a c => a * x + c) s := by
  induction cs with
  | nil => intro s s'; rfl
  | cons c cs ih =>
    intro s s'
    simp only [hornerChain, mulAdd_iff, exists_eq_left, ih, List.foldl_cons]

theorem addChain_iff (cs : List Fr) : ∀ s s', addChain cs s s' ↔ s' = s + cs.sum := by
  induction cs with
  | nil => intro s s'; simp [addChain]
  | cons c cs ih =>
    intro s s'
    simp only [addChain, add_gate_iff, exists_eq_left, ih, List.sum_cons, add_assoc]

theorem foldl_reverse_horner (x : Fr) (cs : List Fr) (s : Fr) :
    cs.reverse.foldl (fun a c => a * x + c) s = poly (cs ++ [s]) x := by
  induction cs with
  | nil => simp [poly_cons, poly_nil]
  | cons c cs ih =>
    rw [List.reverse_cons, List.foldl_append, ih, List.cons_append, poly_cons]
    simp only [List.foldl_cons, List.foldl_nil]
    ring

theorem sharesRegion_iff {cfg : DkgConfig} {coeffs shares : List Fr}
    (hl : coeffs.length = cfg.threshold) (ht : 0 < cfg.threshold) :
    sharesRegion cfg coeffs shares ↔ shares = poly coeffs 1 ::
      (List.range' 2 (cfg.numberOfMembers - 1)).map (fun i : ℕ => poly coeffs (i : Fr)) := by
  unfold sharesRegion
  obtain ⟨a, cs, rfl⟩ : ∃ a cs, coeffs = a :: cs := by
    cases coeffs with
    | nil => simp at hl; omega
    | cons a cs => exact ⟨a, cs, rfl⟩
  have h0 : a + (((a :: cs).drop 1).take (cfg.threshold - 1)).sum = poly (a :: cs) 1 := by
    rw [poly_one, List.drop_one, List.tail_cons, List.take_of_length_le (by simp at hl; omega),
      List.sum_cons]
  have hsplit : (a :: cs).take (cfg.threshold - 1) ++ [(a :: cs).getD (cfg.threshold - 1) 0] =
      a :: cs := by
    obtain ⟨m, hm⟩ : ∃ m, cfg.threshold = m + 1 := ⟨cfg.threshold - 1, by omega⟩
    rw [hm, Nat.add_sub_cancel, getD_lt _ _ (by omega), List.take_append_getElem]
    exact List.take_of_length_le (by omega)
  have hf : ∀ l rest, List.Forall₂ (fun (i : ℕ) s => ∃ x, MainGate.assignConstant (i : Fr) x ∧
      hornerChain x ((a :: cs).take (cfg.threshold - 1)).reverse
        ((a :: cs).getD (cfg.threshold - 1) 0) s) l rest ↔
      rest = l.map (fun i : ℕ => poly (a :: cs) (i : Fr)) := by
    intro l
    induction l with
    | nil => intro rest; simp
    | cons i l ih =>
      intro rest
      rw [List.forall₂_cons_left_iff]
      simp only [ih]
      simp only [assignConstant_gate_iff, exists_eq_left, hornerChain_iff, foldl_reverse_horner,
        hsplit, List.map_cons]
      constructor
      · rintro ⟨_, _, rfl, rfl, rfl⟩; rfl
      · rintro rfl; exact ⟨_, _, rfl, rfl, rfl⟩
  simp only [addChain_iff, hf, List.getD_cons_zero, h0]
  constructor
  · rintro ⟨_, _, rfl, rfl, rfl⟩; rfl
  · rintro rfl; exact ⟨_, _, rfl, rfl, rfl⟩

theorem shares_take (coeffs : List Fr) (n : ℕ) :
    (poly coeffs 1 :: (List.range' 2 (n - 1)).map (fun i : ℕ => poly coeffs (i : Fr))).take n =
      (List.range' 1 n).map (fun i : ℕ => poly coeffs (i : Fr)) := by
  cases n with
  | zero => rfl
  | succ n =>
    rw [List.take_of_length_le (by simp), List.range'_succ]
    simp

theorem shares_getD (coeffs : List Fr) {n i : ℕ} (h : i < n) :
    (poly coeffs 1 :: (List.range' 2 (n - 1)).map (fun i : ℕ => poly coeffs (i : Fr))).getD i 0 =
      poly coeffs ((i + 1 : ℕ) : Fr) := by
  rw [getD_lt _ _ (by simp; omega)]
  cases i with
  | zero => simp
  | succ i =>
    simp only [List.getElem_cons_succ, List.getElem_map, List.getElem_range', one_mul]
    congr 2
    ring_nf

/-! ### Exposed coordinates -/

theorem wrapCells_iff (base l0 l1 l2 l3 : Fr) (cells : List Fr) :
    wrapCells base [l0, l1, l2, l3] cells ↔ cells = [l1 * base + l0, l3 * base + l2] := by
  unfold wrapCells
  have : List.range (numberOfLimbs / wrapLen) = [0, 1] := rfl
  rw [this]
  simp only [List.forall₂_cons_left_iff, List.forall₂_nil_left_iff, hornerChain_iff]
  constructor
  · rintro ⟨_, _, h1, ⟨_, _, h2, rfl, rfl⟩, rfl⟩
    rw [h1, h2]; rfl
  · rintro rfl
    exact ⟨_, _, rfl, ⟨_, _, rfl, rfl, rfl⟩, rfl⟩

theorem limbs_of (V : ℕ) :
    V % 2 ^ 68 + 2 ^ 68 * (V / 2 ^ 68 % 2 ^ 68) + 2 ^ 136 * (V / 2 ^ 136 % 2 ^ 68) +
      2 ^ 204 * (V / 2 ^ 204) = V := by
  have e1 : V / 2 ^ 136 = V / 2 ^ 68 / 2 ^ 68 := by rw [Nat.div_div_eq_div_mul, ← pow_add]
  have e2 : V / 2 ^ 204 = V / 2 ^ 68 / 2 ^ 68 / 2 ^ 68 := by
    rw [Nat.div_div_eq_div_mul, Nat.div_div_eq_div_mul, ← pow_add, ← pow_add]
  rw [e1, e2]
  have p2 : (2 : ℕ) ^ 136 = 2 ^ 68 * 2 ^ 68 := by rw [← pow_add]
  have p3 : (2 : ℕ) ^ 204 = 2 ^ 68 * 2 ^ 68 * 2 ^ 68 := by rw [← pow_add, ← pow_add]
  rw [p2, p3]
  generalize (2 : ℕ) ^ 68 = B
  have h1 := Nat.mod_add_div V B
  have h2 := Nat.mod_add_div (V / B) B
  have h3 := Nat.mod_add_div (V / B / B) B
  calc _ = V % B + B * (V / B % B + B * (V / B / B % B + B * (V / B / B / B))) := by ring
    _ = V := by rw [h3, h2, h1]

theorem pow_lt_r {k : ℕ} (h : k ≤ 136) : 2 ^ k < r :=
  lt_of_le_of_lt (Nat.pow_le_pow_right (by norm_num) h) pow136_lt_r

theorem val_cast {m : ℕ} (h : m < r) : ((m : ℕ) : Fr).val = m := by
  rw [ZMod.val_natCast, Nat.mod_eq_of_lt h]

theorem cast_val (x : Fr) : ((x.val : ℕ) : Fr) = x := ZMod.natCast_zmod_val x

theorem normalize_wrap_iff (x : Fq) (cells : List Fr) :
    (∃ l, normalize x l ∧ wrapCells ((2 ^ bitLenLimb : ℕ) : Fr) l cells) ↔ CoordCells x cells := by
  constructor
  · rintro ⟨_, ⟨l0, l1, l2, l3, rfl, h0, h1, h2, h3, hx⟩, hw⟩
    rw [wrapCells_iff] at hw
    subst hw
    refine ⟨_, ?_, hx.symm, ?_⟩
    · have p : (2 : ℕ) ^ 254 = 2 ^ 204 * 2 ^ 50 := by rw [← pow_add]
      have p2 : (2 : ℕ) ^ 136 = 2 ^ 68 * 2 ^ 68 := by rw [← pow_add]
      have p3 : (2 : ℕ) ^ 204 = 2 ^ 136 * 2 ^ 68 := by rw [← pow_add]
      rw [p]
      have a1 : l0.val + 2 ^ 68 * l1.val < 2 ^ 136 := by
        rw [p2]; nlinarith
      have a2 : l0.val + 2 ^ 68 * l1.val + 2 ^ 136 * l2.val < 2 ^ 204 := by
        rw [p3]; nlinarith
      nlinarith
    · have a1 : l0.val + 2 ^ 68 * l1.val < 2 ^ 136 := by
        have p2 : (2 : ℕ) ^ 136 = 2 ^ 68 * 2 ^ 68 := by rw [← pow_add]
        rw [p2]; nlinarith
      have e : l0.val + 2 ^ 68 * l1.val + 2 ^ 136 * l2.val + 2 ^ 204 * l3.val =
          (l0.val + 2 ^ 68 * l1.val) + 2 ^ 136 * (l2.val + 2 ^ 68 * l3.val) := by
        have p3 : (2 : ℕ) ^ 204 = 2 ^ 136 * 2 ^ 68 := by rw [← pow_add]
        rw [p3]; ring
      rw [e, Nat.add_mul_mod_self_left, Nat.mod_eq_of_lt a1, Nat.add_mul_div_left _ _ (by positivity),
        Nat.div_eq_of_lt a1, Nat.zero_add]
      simp only [Nat.cast_add, Nat.cast_mul, cast_val, bitLenLimb]
      rw [mul_comm l1, mul_comm l3, add_comm (_ * l1), add_comm (_ * l3)]
  · rintro ⟨V, hV, hx, rfl⟩
    have b0 : V % 2 ^ 68 < 2 ^ 68 := Nat.mod_lt _ (by positivity)
    have b1 : V / 2 ^ 68 % 2 ^ 68 < 2 ^ 68 := Nat.mod_lt _ (by positivity)
    have b2 : V / 2 ^ 136 % 2 ^ 68 < 2 ^ 68 := Nat.mod_lt _ (by positivity)
    have b3 : V / 2 ^ 204 < 2 ^ 50 := by
      apply Nat.div_lt_of_lt_mul
      rw [← pow_add]; exact hV
    have hB := pow_lt_r (k := 68) (by norm_num)
    have hB' := pow_lt_r (k := 50) (by norm_num)
    refine ⟨_, ⟨((V % 2 ^ 68 : ℕ) : Fr), ((V / 2 ^ 68 % 2 ^ 68 : ℕ) : Fr),
      ((V / 2 ^ 136 % 2 ^ 68 : ℕ) : Fr), ((V / 2 ^ 204 : ℕ) : Fr), rfl, ?_, ?_, ?_, ?_, ?_⟩, ?_⟩
    · rw [val_cast (b0.trans hB)]; exact b0
    · rw [val_cast (b1.trans hB)]; exact b1
    · rw [val_cast (b2.trans hB)]; exact b2
    · rw [val_cast (b3.trans hB')]; exact b3
    · rw [val_cast (b0.trans hB), val_cast (b1.trans hB), val_cast (b2.trans hB),
        val_cast (b3.trans hB'), limbs_of V, hx]
    · rw [wrapCells_iff]
      simp only [bitLenLimb]
      rw [← Nat.cast_mul, ← Nat.cast_add, limb_pair, ← Nat.cast_mul, ← Nat.cast_add]
      congr 3
      have e1 : V / 2 ^ 204 = V / 2 ^ 136 / 2 ^ 68 := by rw [Nat.div_div_eq_div_mul, ← pow_add]
      have := Nat.mod_add_div (V / 2 ^ 136) (2 ^ 68)
      rw [e1, mul_comm, add_comm, this]

theorem exposeG1_iff {tab : List (List Pt1)} {auxG1 : G1}
    (ht : assignTable ops1 windowSize g1 auxG1 tab) (s : Fr) (cells : List Fr) :
    exposeG1 tab ((2 ^ bitLenLimb : ℕ) : Fr) s cells ↔
      Usable g1 auxG1 s ∧ PointCells (s • g1) cells := by
  unfold exposeG1
  simp only [mul_exact ops1_spec ht addOrderOf_g1, exposeOptimal]
  constructor
  · rintro ⟨p, lx, ly, ⟨K, hK, rfl, hf, hc⟩, hx, hy, c, cs, hw, ⟨c', _, hw', rfl, rfl⟩, rfl⟩
    rw [← Nat.cast_smul_eq_nsmul Fr] at hc
    refine ⟨⟨K, hK, rfl, hf⟩, hc.1, c, c', ?_, ?_, by simp⟩
    · rw [hc.2]; exact (normalize_wrap_iff _ _).1 ⟨_, hx, hw⟩
    · rw [hc.2]; exact (normalize_wrap_iff _ _).1 ⟨_, hy, hw'⟩
  · rintro ⟨⟨K, hK, rfl, hf⟩, h0, dx, dy, h1, h2, rfl⟩
    obtain ⟨lx, hx, hw⟩ := (normalize_wrap_iff _ _).2 h1
    obtain ⟨ly, hy, hw'⟩ := (normalize_wrap_iff _ _).2 h2
    refine ⟨_, lx, ly, ⟨K, hK, rfl, hf, ?_⟩, hx, hy, dx, dy, hw, ⟨dy, [], hw', rfl, by simp⟩, rfl⟩
    rw [← Nat.cast_smul_eq_nsmul Fr]
    exact ⟨h0, rfl⟩

theorem exposeG2_iff {tab : List (List Pt2)} {auxG2 : G2}
    (ht : assignTable ops2 windowSize g2 auxG2 tab) (s : Fr) (cells : List Fr) :
    exposeG2 tab ((2 ^ bitLenLimb : ℕ) : Fr) s cells ↔
      Usable g2 auxG2 s ∧ Point2Cells (smul2 s g2) cells := by
  unfold exposeG2
  simp only [mul_exact ops2_spec ht addOrderOf_g2, exposeOptimal]
  constructor
  · rintro ⟨p, l0, l1, l2, l3, ⟨K, hK, rfl, hf, hc⟩, h0, h1, h2, h3, c0, _, w0, ⟨c1, _, w1, ⟨c2', _, w2,
      ⟨c3, _, w3, rfl, rfl⟩, rfl⟩, rfl⟩, rfl⟩
    rw [← smul2_cast r_nsmul_g2] at hc
    have hp : coords (smul2 ((K : ℕ) : Fr) g2) = (⟨p.1.1, p.1.2⟩, ⟨p.2.1, p.2.2⟩) := hc.2
    refine ⟨⟨K, hK, rfl, hf⟩, hc.1, c0, c1, c2', c3, ?_, ?_, ?_, ?_, by simp⟩ <;> rw [hp]
    · exact (normalize_wrap_iff _ _).1 ⟨_, h0, w0⟩
    · exact (normalize_wrap_iff _ _).1 ⟨_, h1, w1⟩
    · exact (normalize_wrap_iff _ _).1 ⟨_, h2, w2⟩
    · exact (normalize_wrap_iff _ _).1 ⟨_, h3, w3⟩
  · rintro ⟨⟨K, hK, rfl, hf⟩, hz, d0, d1, d2, d3, h0, h1, h2, h3, rfl⟩
    obtain ⟨l0, x0, w0⟩ := (normalize_wrap_iff _ _).2 h0
    obtain ⟨l1, x1, w1⟩ := (normalize_wrap_iff _ _).2 h1
    obtain ⟨l2, x2, w2⟩ := (normalize_wrap_iff _ _).2 h2
    obtain ⟨l3, x3, w3⟩ := (normalize_wrap_iff _ _).2 h3
    refine ⟨(splitBase (coords (smul2 ((K : ℕ) : Fr) g2)).1, splitBase (coords (smul2 ((K : ℕ) : Fr) g2)).2),
      l0, l1, l2, l3, ⟨K, hK, rfl, hf, ?_⟩, x0, x1, x2, x3, d0, _, w0, ⟨d1, _, w1, ⟨d2, _, w2,
      ⟨d3, _, w3, rfl, rfl⟩, rfl⟩, rfl⟩, by simp⟩
    rw [← smul2_cast r_nsmul_g2]
    exact ⟨hz, (fe2_split _).symm⟩

theorem poseidonHash_iff (x y key : Fr) : poseidonHash x y key ↔ key = Poseidon.hash2 x y := by
  unfold poseidonHash Poseidon.hash2
  generalize (![x, y, ((2 * 2 ^ 64 : ℕ) : Fr)] : Poseidon.St) = i
  constructor
  · rintro ⟨f, h, rfl⟩; rw [(Poseidon.permuteRows_iff i f).1 h]
  · intro h; exact ⟨_, (Poseidon.permuteRows_iff i _).2 rfl, h⟩

theorem memberRegion_iff {aux auxNeg pk : GrumpkinChip.Pt} {A : Gk} {bs : List Bool} {share cipher : Fr}
    (hA : Holds aux A) (hN : Holds auxNeg (-A)) :
    memberRegion aux auxNeg (bs.map bitCell) share pk cipher ↔
      ∃ P : Gk, Holds pk P ∧ (good bs A P ∧ A + binary bs • P ≠ 0 ∧ A + binary bs • P ≠ -A) ∧
        binary bs • P ≠ 0 ∧
        cipher = share + Poseidon.hash2 (coords (binary bs • P)).1 (coords (binary bs • P)).2 := by
  have hp : ∀ x y key, poseidonHash x y key ↔ key = Poseidon.hash2 x y := poseidonHash_iff
  unfold memberRegion
  rw [assignPoint_iff]
  simp only [hp, add_gate_iff]
  clear hp
  generalize Poseidon.hash2 = H
  constructor
  · rintro ⟨⟨P, hP⟩, pkr, key, hm, hk, hc⟩
    obtain ⟨h1, h2, h3, h4⟩ := (mulBits_iff hA hN hP bs).1 hm
    exact ⟨P, hP, ⟨h1, h2, h3⟩, h4.1, by rw [h4.2, hc, hk]⟩
  · rintro ⟨P, hP, ⟨h1, h2, h3⟩, h4, hc⟩
    exact ⟨⟨P, hP⟩, _, _, (mulBits_iff hA hN hP bs).2 ⟨h1, h2, h3, holds_coords h4⟩, rfl, hc⟩

end Verif.DkgCircuit
