import Verif.Lemmas.Lib
import Verif.Model.Client

/-! Helper lemmas about the public instance encoding. -/

namespace Verif
open WeierstrassCurve.Affine

theorem q_lt_272 : q < 2 ^ 136 * 2 ^ 136 := by decide +kernel
theorem pow136_lt_r : 2 ^ 136 < r := by decide +kernel

/-- The two scalar-field elements of a coordinate. -/
def encCoord (x : Fq) : List Fr :=
  [((x.val % 2 ^ 136 : ℕ) : Fr), ((x.val / 2 ^ 136 : ℕ) : Fr)]

@[simp] theorem length_encCoord (x : Fq) : (encCoord x).length = 2 := rfl

theorem limb_pair (m : ℕ) : m / 2 ^ 68 % 2 ^ 68 * 2 ^ 68 + m % 2 ^ 68 = m % 2 ^ 136 := by
  have h : (2 : ℕ) ^ 136 = 2 ^ 68 * 2 ^ 68 := by norm_num
  rw [h, Nat.mod_mul]
  ring

theorem wrap_limbs (x : Fq) : wrapLimbs (limbsOf x) = encCoord x := by
  have hx : x.val < 2 ^ 136 * 2 ^ 136 := lt_trans (ZMod.val_lt x) q_lt_272
  have e1 := limb_pair x.val
  have e2 := limb_pair (x.val / 2 ^ 136)
  rw [Nat.div_div_eq_div_mul] at e2
  have e3 : x.val / 2 ^ 136 % 2 ^ 136 = x.val / 2 ^ 136 := by
    apply Nat.mod_eq_of_lt
    exact Nat.div_lt_of_lt_mul hx
  rw [e3, ← pow_add] at e2
  have hl : limbsOf x = [((x.val % 2 ^ 68 : ℕ) : Fr), ((x.val / 2 ^ 68 % 2 ^ 68 : ℕ) : Fr),
      ((x.val / 2 ^ 136 % 2 ^ 68 : ℕ) : Fr), ((x.val / 2 ^ (136 + 68) % 2 ^ 68 : ℕ) : Fr)] := by
    unfold limbsOf
    rw [show List.range numberOfLimbs = [0, 1, 2, 3] from rfl]
    simp only [List.map_cons, List.map_nil, bitLenLimb]
    norm_num
  rw [hl]
  simp only [wrapLimbs, encCoord, bitLenLimb]
  rw [← Nat.cast_mul, ← Nat.cast_add, e1, ← Nat.cast_mul, ← Nat.cast_add, e2]

theorem wrap_limbs2 (x y : Fq) : wrapLimbs (limbsOf x ++ limbsOf y) = encCoord x ++ encCoord y := by
  rw [← wrap_limbs x, ← wrap_limbs y]
  have hl : ∀ x : Fq, ∃ a b c d, limbsOf x = [a, b, c, d] := fun x => ⟨_, _, _, _, rfl⟩
  obtain ⟨a, b, c, d, h1⟩ := hl x
  obtain ⟨a', b', c', d', h2⟩ := hl y
  rw [h1, h2]
  rfl

theorem val_lo (x : Fq) : ((x.val % 2 ^ 136 : ℕ) : Fr).val = x.val % 2 ^ 136 := by
  rw [ZMod.val_natCast, Nat.mod_eq_of_lt (lt_trans (Nat.mod_lt _ (by positivity)) pow136_lt_r)]

theorem val_hi (x : Fq) : ((x.val / 2 ^ 136 : ℕ) : Fr).val = x.val / 2 ^ 136 := by
  rw [ZMod.val_natCast, Nat.mod_eq_of_lt]
  refine lt_trans ?_ pow136_lt_r
  exact Nat.div_lt_of_lt_mul (lt_trans (ZMod.val_lt x) q_lt_272)

theorem join_encCoord (x : Fq) : joinCoord (encCoord x) = x := by
  unfold joinCoord encCoord
  simp only [List.foldr_cons, List.foldr_nil, val_lo, val_hi, zero_mul, zero_add, bitLenLimb,
    wrapLen]
  have h : ((x.val / 2 ^ 136 * 2 ^ 136 + x.val % 2 ^ 136 : ℕ) : Fq) = x := by
    rw [mul_comm, Nat.div_add_mod, ZMod.natCast_zmod_val]
  rw [Nat.cast_add, Nat.cast_mul, Nat.cast_pow, Nat.cast_ofNat] at h
  exact h

/-- Public data of a G1 point. -/
def enc1 (P : G1) : List Fr := encCoord (coords P).1 ++ encCoord (coords P).2

/-- Public data of a twist point. -/
def enc2 (Q : G2) : List Fr :=
  encCoord (coords Q).1.re ++ encCoord (coords Q).1.im ++ encCoord (coords Q).2.re ++
    encCoord (coords Q).2.im

@[simp] theorem length_enc1 (P : G1) : (enc1 P).length = 4 := rfl
@[simp] theorem length_enc2 (Q : G2) : (enc2 Q).length = 8 := rfl

theorem pointToPublic_eq (ip : Bool) (P : G1) :
    pointToPublic ip P = if ip = true ∧ P = 0 then .error .panic else .ok (enc1 P) := by
  cases P with
  | zero => cases ip <;> simp [pointToPublic, enc1, coords, wrap_limbs, Point.zero_def]
  | some x y h =>
    rw [if_neg (fun h' => Point.some_ne_zero _ h'.2)]
    simp [pointToPublic, enc1, coords, wrap_limbs]

theorem point2ToPublic_eq (ip : Bool) (Q : G2) :
    point2ToPublic ip Q = if ip = true ∧ Q = 0 then .error .panic else .ok (enc2 Q) := by
  cases Q with
  | zero => cases ip <;> simp [point2ToPublic, enc2, coords, wrap_limbs2, Point.zero_def]
  | some x y h =>
    rw [if_neg (fun h' => Point.some_ne_zero _ h'.2)]
    simp [point2ToPublic, enc2, coords, wrap_limbs2]

section
variable {F : Type*} [Field F] [DecidableEq F] {b : F}
  (hns : ∀ x y : F, y ^ 2 = x ^ 3 + b → (shortW b).Nonsingular x y)

theorem fromXY_some {x y : F} (h : y ^ 2 = x ^ 3 + b) :
    fromXY hns x y = some (.some x y (hns x y h)) := dif_pos h

theorem fromXY_zero (hb : b ≠ 0) : fromXY hns 0 0 = some .zero := by
  have h : ¬ ((0 : F) ^ 2 = 0 ^ 3 + b) := by
    intro h
    exact hb (by linear_combination -h)
  unfold fromXY
  rw [dif_neg h, if_pos ⟨rfl, rfl⟩]

theorem fromXY_coords (hb : b ≠ 0)
    (hiff : ∀ x y : F, (shortW b).Nonsingular x y → y ^ 2 = x ^ 3 + b) (P : (shortW b).Point) :
    fromXY hns (coords P).1 (coords P).2 = some P := by
  cases P with
  | zero => exact fromXY_zero hns hb
  | some x y h => exact fromXY_some hns (hiff x y h)
end

theorem bnFromXY_coords (P : G1) : bnFromXY (coords P).1 (coords P).2 = some P :=
  fromXY_coords _ three_ne_zero_q (fun x y h => (bn_nonsingular_iff x y).1 h) P

theorem gkFromXY_coords (P : Gk) : gkFromXY (coords P).1 (coords P).2 = some P :=
  fromXY_coords _ neg_seventeen_ne_zero_r (fun x y h => (gk_nonsingular_iff x y).1 h) P

theorem g2FromXY_coords (P : G2) : g2FromXY (coords P).1 (coords P).2 = some P :=
  fromXY_coords _ twistB_ne_zero (fun x y h => (twist_nonsingular_iff x y).1 h) P

theorem publicToPoint_enc1 (P : G1) : publicToPoint (enc1 P) = .ok P := by
  have hl : ¬ (enc1 P).length ≠ pointLen := by simp [pointLen, coordLen, numberOfLimbs, wrapLen]
  unfold publicToPoint
  rw [if_neg hl]
  have h1 : (enc1 P).take coordLen = encCoord (coords P).1 := rfl
  have h2 : (enc1 P).drop coordLen = encCoord (coords P).2 := rfl
  rw [h1, h2, join_encCoord, join_encCoord, bnFromXY_coords]

theorem publicToPoint2_enc2 (Q : G2) : publicToPoint2 (enc2 Q) = .ok Q := by
  have hl : ¬ (enc2 Q).length ≠ pointLen * 2 := by simp [pointLen, coordLen, numberOfLimbs, wrapLen]
  unfold publicToPoint2
  rw [if_neg hl]
  have h0 : ((enc2 Q).drop (0 * coordLen)).take coordLen = encCoord (coords Q).1.re := rfl
  have h1 : ((enc2 Q).drop (1 * coordLen)).take coordLen = encCoord (coords Q).1.im := rfl
  have h2 : ((enc2 Q).drop (2 * coordLen)).take coordLen = encCoord (coords Q).2.re := rfl
  have h3 : ((enc2 Q).drop (3 * coordLen)).take coordLen = encCoord (coords Q).2.im := rfl
  simp only [h0, h1, h2, h3, join_encCoord]
  have := g2FromXY_coords Q
  rw [this]

/-! ### Slicing -/

theorem slice_flatMap {α β : Type} (f : α → List β) (k : ℕ) (hf : ∀ a, (f a).length = k) :
    ∀ (l : List α) (i : ℕ) (a : α) (tail : List β), l[i]? = some a →
      ((l.flatMap f ++ tail).drop (i * k)).take k = f a
  | [], i, a, tail, h => by simp at h
  | b :: l, 0, a, tail, h => by
      simp only [List.getElem?_cons_zero, Option.some.injEq] at h
      subst h
      simp [List.flatMap_cons, hf]
  | b :: l, i + 1, a, tail, h => by
      have ih := slice_flatMap f k hf l i a tail (by simpa using h)
      rw [List.flatMap_cons, List.append_assoc, Nat.add_mul, one_mul, Nat.add_comm,
        ← List.drop_drop, List.drop_left' (hf b)]
      exact ih

theorem mapM_panic {α β : Type} (f : α → Res β) (g : α → β) :
    ∀ (l : List α), (∀ a ∈ l, f a = .ok (g a) ∨ f a = .error .panic) →
      (∃ a ∈ l, f a = .error .panic) → l.mapM f = .error .panic
  | [], _, h => by simp at h
  | a :: l, h1, h2 => by
      rw [List.mapM_cons]
      rcases h1 a (by simp) with ha | ha
      · have h3 : ∃ b ∈ l, f b = .error .panic := by
          obtain ⟨b, hb, hb'⟩ := h2
          rcases List.mem_cons.1 hb with rfl | hb
          · rw [ha] at hb'; cases hb'
          · exact ⟨b, hb, hb'⟩
        rw [ha, mapM_panic f g l (fun b hb => h1 b (by simp [hb])) h3]
        rfl
      · rw [ha]; rfl

/-- Coordinates of Grumpkin points as they appear in the instance. -/
def encGk (P : Gk) : List Fr := [(coords P).1, (coords P).2]

/-- The public data of parameters. -/
def encParams (pp : DkgMemberPublicParams) (pks : List Gk) : List Fr :=
  enc1 pp.ga ++ (pp.publicShares.flatMap enc1 ++ (enc2 pp.g2a ++ (encGk pp.gr ++
    (pp.ciphers ++ pks.flatMap encGk))))

theorem map_getD_range {α : Type} (l : List α) (d : α) {n : ℕ} (h : l.length = n) :
    (List.range n).map (fun i => l.getD i d) = l := by
  apply List.ext_getElem
  · simp [h]
  · intro i h1 h2
    simp [h2]

theorem toInstance_eq (ip : Bool) (pp : DkgMemberPublicParams) (pks : List Gk)
    (hs : pp.publicShares.length = pks.length) :
    pp.toInstance ip pks =
      if ip = true ∧ (pp.ga = 0 ∨ (0 : G1) ∈ pp.publicShares ∨ pp.g2a = 0) then .error .panic
      else .ok (encParams pp pks) := by
  have hget : ∀ i ∈ List.range pks.length, getOrPanic pp.publicShares i =
      .ok (pp.publicShares.getD i 0) := by
    intro i hi
    have hi' : i < pks.length := List.mem_range.1 hi
    apply getOrPanic_eq
    simp [List.getElem?_eq_getElem (show i < pp.publicShares.length by omega)]
  have hstep : ∀ i ∈ List.range pks.length,
      (do let P ← getOrPanic pp.publicShares i; pointToPublic ip P : Res (List Fr)) =
        if ip = true ∧ pp.publicShares.getD i 0 = 0 then .error .panic
        else .ok (enc1 (pp.publicShares.getD i 0)) := by
    intro i hi
    rw [hget i hi]
    exact pointToPublic_eq ip _
  unfold DkgMemberPublicParams.toInstance
  rw [pointToPublic_eq]
  by_cases h1 : ip = true ∧ pp.ga = 0
  · rw [if_pos h1, if_pos ⟨h1.1, Or.inl h1.2⟩]; rfl
  rw [if_neg h1]
  by_cases h2 : ip = true ∧ (0 : G1) ∈ pp.publicShares
  · rw [if_pos ⟨h2.1, Or.inr (Or.inl h2.2)⟩]
    rw [mapM_panic _ (fun i => enc1 (pp.publicShares.getD i 0))]
    · rfl
    · intro i hi
      rw [hstep i hi]
      split
      · exact Or.inr rfl
      · exact Or.inl rfl
    · obtain ⟨i, hi, hi0⟩ := List.mem_iff_getElem.1 h2.2
      have hm : i ∈ List.range pks.length := List.mem_range.2 (by omega)
      refine ⟨i, hm, ?_⟩
      rw [hstep i hm, if_pos ⟨h2.1, by simp [hi, hi0]⟩]
  have hm : (List.range pks.length).mapM (fun i =>
      (do let P ← getOrPanic pp.publicShares i; pointToPublic ip P : Res (List Fr))) =
      .ok (pp.publicShares.map enc1) := by
    rw [mapM_ok _ (fun i => enc1 (pp.publicShares.getD i 0))]
    · congr 1
      conv_rhs => rw [← map_getD_range pp.publicShares 0 hs]
      rw [List.map_map]
      rfl
    · intro i hi
      rw [hstep i hi, if_neg]
      rintro ⟨h3, h4⟩
      apply h2
      refine ⟨h3, ?_⟩
      have hi' : i < pp.publicShares.length := by have := List.mem_range.1 hi; omega
      rw [← h4]
      simp [hi']
  rw [hm, point2ToPublic_eq]
  by_cases h3 : ip = true ∧ pp.g2a = 0
  · rw [if_pos h3, if_pos ⟨h3.1, Or.inr (Or.inr h3.2)⟩]; rfl
  rw [if_neg h3, if_neg (by tauto)]
  simp only [bind, Except.bind, pure, Except.pure, encParams, encGk, List.flatMap_def]
  simp [List.append_assoc]
  rfl

theorem getElem?_flatMap_encGk (l : List Gk) (i : ℕ) (P : Gk) (h : l[i]? = some P) :
    (l.flatMap encGk)[2 * i]? = some (coords P).1 ∧
      (l.flatMap encGk)[2 * i + 1]? = some (coords P).2 := by
  have hs := slice_flatMap encGk 2 (fun _ => rfl) l i P [] h
  rw [List.append_nil] at hs
  have h0 := congrArg (fun l => l[0]?) hs
  have h1 := congrArg (fun l => l[1]?) hs
  simp only [List.getElem?_take, List.getElem?_drop, encGk] at h0 h1
  norm_num at h0 h1
  rw [mul_comm i 2] at h0 h1
  exact ⟨h0, h1⟩

theorem length_flatMap_const {α β : Type} (f : α → List β) (k : ℕ) (hf : ∀ a, (f a).length = k)
    (l : List α) : (l.flatMap f).length = l.length * k := by
  induction l with
  | nil => simp
  | cons a l ih => simp only [List.flatMap_cons, List.length_append, hf, ih, List.length_cons]; ring

theorem readGk_pks (pre : List Fr) (pks : List Gk) (i : ℕ) (P : Gk) (h : pks[i]? = some P) :
    readGk (pre ++ pks.flatMap encGk) (pre.length + 2 * i) = .ok P := by
  obtain ⟨h0, h1⟩ := getElem?_flatMap_encGk pks i P h
  unfold readGk
  rw [getOrPanic_eq (a := (coords P).1), getOrPanic_eq (a := (coords P).2)]
  · have := gkFromXY_coords P
    simp only [bind, Except.bind]
    rw [this]
  · rw [Nat.add_assoc, List.getElem?_append_right (by omega), Nat.add_sub_cancel_left, h1]
  · rw [List.getElem?_append_right (by omega), Nat.add_sub_cancel_left, h0]

theorem fromInstance_encParams (t n : ℕ) (pp : DkgMemberPublicParams) (pks : List Gk)
    (hs : pp.publicShares.length = n) (hc : pp.ciphers.length = n) (hp : pks.length = n) :
    fromInstance ⟨t, n⟩ (encParams pp pks) = .ok (pp, pks) := by
  have hl1 : (pp.publicShares.flatMap enc1).length = 4 * n := by
    rw [length_flatMap_const enc1 4 (fun _ => rfl), hs, mul_comm]
  have hl2 : (pks.flatMap encGk).length = 2 * n := by
    rw [length_flatMap_const encGk 2 (fun _ => rfl), hp, mul_comm]
  have hlen : (encParams pp pks).length = 7 * n + 14 := by
    simp only [encParams, List.length_append, length_enc1, length_enc2, hl1, hl2, hc, encGk,
      List.length_cons, List.length_nil]
    omega
  have hpl : pointLen = 4 := rfl
  have hp2 : point2Len = 8 := rfl
  unfold fromInstance
  simp only [DkgConfig.instanceSize, hpl, hp2]
  rw [if_neg (by rw [hlen]; omega)]
  -- ga
  have e1 : (encParams pp pks).take 4 = enc1 pp.ga := by
    rw [encParams, List.take_left' (length_enc1 _)]
  -- shares
  have e2 : (List.range n).mapM (fun i => publicToPoint (((encParams pp pks).drop (4 + i * 4)).take 4))
      = .ok pp.publicShares := by
    rw [mapM_ok _ (fun i => pp.publicShares.getD i 0), map_getD_range _ _ hs]
    intro i hi
    have hi' : i < pp.publicShares.length := by have := List.mem_range.1 hi; omega
    have hg : pp.publicShares[i]? = some (pp.publicShares.getD i 0) := by simp [hi']
    rw [encParams, ← List.drop_drop, List.drop_left' (length_enc1 _),
      slice_flatMap enc1 4 (fun _ => rfl) _ i _ _ hg, publicToPoint_enc1]
  -- g2a
  have e3 : ((encParams pp pks).drop (4 + n * 4)).take 8 = enc2 pp.g2a := by
    rw [encParams, ← List.drop_drop, List.drop_left' (length_enc1 _),
      List.drop_left' (by rw [hl1, mul_comm]), List.take_left' (length_enc2 _)]
  -- gr
  have e4 : readGk (encParams pp pks) (4 + n * 4 + 8) = .ok pp.gr := by
    have h := readGk_pks (enc1 pp.ga ++ (pp.publicShares.flatMap enc1 ++ enc2 pp.g2a))
      [pp.gr] 0 pp.gr rfl
    have hx : (enc1 pp.ga ++ (pp.publicShares.flatMap enc1 ++ enc2 pp.g2a)).length = 4 + n * 4 + 8 := by
      simp only [List.length_append, length_enc1, length_enc2, hl1]; ring
    rw [hx] at h
    unfold readGk at h ⊢
    have hmono : ∀ b, b < 4 + n * 4 + 8 + 2 → (encParams pp pks)[b]? =
        (enc1 pp.ga ++ (pp.publicShares.flatMap enc1 ++ enc2 pp.g2a) ++ [pp.gr].flatMap encGk)[b]? := by
      intro b hb
      have hsplit : encParams pp pks = (enc1 pp.ga ++ (pp.publicShares.flatMap enc1 ++ enc2 pp.g2a) ++
          [pp.gr].flatMap encGk) ++ (pp.ciphers ++ pks.flatMap encGk) := by
        simp [encParams, List.append_assoc]
      rw [hsplit, List.getElem?_append_left]
      rw [List.length_append, hx]
      simp [encGk]
      omega
    unfold getOrPanic at h ⊢
    rw [hmono _ (by omega), hmono _ (by omega)]
    exact h
  -- ciphers
  have e5 : (List.range n).mapM (fun i => getOrPanic (encParams pp pks) (4 + n * 4 + 8 + 2 + i)) =
      .ok pp.ciphers := by
    rw [mapM_ok _ (fun i => pp.ciphers.getD i 0), map_getD_range _ _ hc]
    intro i hi
    have hi' : i < pp.ciphers.length := by have := List.mem_range.1 hi; omega
    apply getOrPanic_eq
    have hsplit : encParams pp pks = (enc1 pp.ga ++ (pp.publicShares.flatMap enc1 ++ (enc2 pp.g2a ++
        encGk pp.gr))) ++ (pp.ciphers ++ pks.flatMap encGk) := by
      simp [encParams, List.append_assoc]
    have hx : (enc1 pp.ga ++ (pp.publicShares.flatMap enc1 ++ (enc2 pp.g2a ++ encGk pp.gr))).length =
        4 + n * 4 + 8 + 2 := by
      simp only [List.length_append, length_enc1, length_enc2, hl1, encGk, List.length_cons,
        List.length_nil]; ring
    rw [hsplit, List.getElem?_append_right (by omega), hx, Nat.add_sub_cancel_left,
      List.getElem?_append_left hi']
    simp [hi']
  -- keys
  have e6 : (List.range n).mapM (fun i => readGk (encParams pp pks) (4 + n * 4 + 8 + 2 + n + 2 * i)) =
      .ok pks := by
    rw [mapM_ok _ (fun i => pks.getD i 0), map_getD_range _ _ hp]
    intro i hi
    have hi' : i < pks.length := by have := List.mem_range.1 hi; omega
    have h := readGk_pks (enc1 pp.ga ++ (pp.publicShares.flatMap enc1 ++ (enc2 pp.g2a ++
        (encGk pp.gr ++ pp.ciphers)))) pks i (pks.getD i 0) (by simp [hi'])
    have hx : (enc1 pp.ga ++ (pp.publicShares.flatMap enc1 ++ (enc2 pp.g2a ++
        (encGk pp.gr ++ pp.ciphers)))).length = 4 + n * 4 + 8 + 2 + n := by
      simp only [List.length_append, length_enc1, length_enc2, hl1, hc, encGk, List.length_cons,
        List.length_nil]; ring
    rw [hx] at h
    have hsplit : encParams pp pks = (enc1 pp.ga ++ (pp.publicShares.flatMap enc1 ++ (enc2 pp.g2a ++
        (encGk pp.gr ++ pp.ciphers)))) ++ pks.flatMap encGk := by
      simp [encParams, List.append_assoc]
    rw [hsplit]
    exact h
  rw [e1, publicToPoint_enc1]
  simp only [bind, Except.bind, pure, Except.pure]
  rw [e2]
  simp only
  rw [e3, publicToPoint2_enc2]
  simp only
  rw [e4]
  simp only
  rw [e5]
  simp only
  rw [e6]

theorem clientPublicKeys_encParams (t n : ℕ) (pp : DkgMemberPublicParams) (pks : List Gk)
    (hs : pp.publicShares.length = n) (hc : pp.ciphers.length = n) (hp : pks.length = n) :
    clientPublicKeys ⟨t, n⟩ (encParams pp pks) = .ok pks := by
  have hl1 : (pp.publicShares.flatMap enc1).length = 4 * n := by
    rw [length_flatMap_const enc1 4 (fun _ => rfl), hs, mul_comm]
  unfold clientPublicKeys
  simp only
  rw [mapM_ok _ (fun i => pks.getD i 0), map_getD_range _ _ hp]
  intro i hi
  have hi' : i < pks.length := by have := List.mem_range.1 hi; omega
  have h := readGk_pks (enc1 pp.ga ++ (pp.publicShares.flatMap enc1 ++ (enc2 pp.g2a ++
      (encGk pp.gr ++ pp.ciphers)))) pks i (pks.getD i 0) (by simp [hi'])
  have hx : (enc1 pp.ga ++ (pp.publicShares.flatMap enc1 ++ (enc2 pp.g2a ++
      (encGk pp.gr ++ pp.ciphers)))).length = 5 * n + 14 := by
    simp only [List.length_append, length_enc1, length_enc2, hl1, hc, encGk, List.length_cons,
      List.length_nil]; ring
  rw [hx] at h
  have hsplit : encParams pp pks = (enc1 pp.ga ++ (pp.publicShares.flatMap enc1 ++ (enc2 pp.g2a ++
      (encGk pp.gr ++ pp.ciphers)))) ++ pks.flatMap encGk := by
    simp [encParams, List.append_assoc]
  rw [hsplit]
  exact h

end Verif
