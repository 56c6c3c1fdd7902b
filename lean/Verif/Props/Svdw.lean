import Verif.Lemmas.Svdw

/-! Property C48: hash-to-curve for Grumpkin. -/

namespace Verif.Props
open Verif Verif.Svdw WeierstrassCurve.Affine

/-- The image of a field element is unique: the parity condition leaves one ordinate. -/
theorem C48_image_unique {u x y x' y' : Fr} (h : Spec.Svdw.Image u x y)
    (h' : Spec.Svdw.Image u x' y') : x = x' ∧ y = y' := by
  obtain ⟨c, hc, hce, hs, hy, hp⟩ := h
  obtain ⟨c', hc', hce', hs', hy', hp'⟩ := h'
  have key : ∀ {a b : Fr}, a ^ 2 = b ^ 2 → a ≠ 0 → a.val % 2 = b.val % 2 → a = b := by
    intro a b h0 h1 h2
    rcases sq_eq_sq_iff_eq_or_eq_neg.1 h0 with h | h
    · exact h
    · have h3 := isOdd_eq.2 h2
      have hb : b ≠ 0 := by rintro rfl; exact h1 (by rw [h, neg_zero])
      rw [h, isOdd_neg hb] at h3
      revert h3
      cases isOdd b <;> simp
  have hcc : c = c' := by
    apply key (hc.trans hc'.symm) _ (hce.trans hce'.symm)
    rintro rfl
    have : (48 : Fr) ≠ 0 := by decide +kernel
    exact this (by rw [← hc]; ring)
  subst hcc
  have hx : x = x' := by
    rcases hs with ⟨a, b⟩ | ⟨a, a2, b⟩ | ⟨a, a2, b⟩ <;>
      rcases hs' with ⟨a', b'⟩ | ⟨a', a2', b'⟩ | ⟨a', a2', b'⟩ <;>
      first
        | exact b.trans b'.symm
        | exact absurd a a'
        | exact absurd a' a
        | exact absurd a2 a2'
        | exact absurd a2' a2
  subst hx
  refine ⟨rfl, key (hy.trans hy'.symm) ?_ (hp.trans hp'.symm)⟩
  exact gk_y_ne_zero (x := x) (by rw [hy]; unfold Spec.Svdw.g; ring)

/-- C48. With the constants of `hash_to_curve_grumpkin` (which are computed without a panic) the map
sends every field element to a point of the curve, namely to its image under the
Shallue-van de Woestijne map; in particular no `unwrap` fails, whatever square root the field
library returns. -/
theorem C48_map_total_on_curve (sqrt : Fr → Option Fr) (h : IsSqrt sqrt) :
    ∃ c1 c2 c3 c4, constants sqrt 1 = .ok (c1, c2, c3, c4) ∧
      ∀ u : Fr, ∃ x y hn, Svdw.map sqrt u c1 c2 c3 c4 1 = .ok (Point.some x y hn) ∧
        Spec.Svdw.Image u x y := by
  obtain ⟨c, hc, hce, hk⟩ := constants_eq h
  refine ⟨_, _, _, _, hk, fun u => ?_⟩
  rw [map_eq]
  obtain ⟨x, y, hn, he, hs, hy, ho⟩ := finish_eq h u (Spec.Svdw.x1 c u) (Spec.Svdw.x2 c u)
    (Spec.Svdw.x3 u) (one_of_three c u hc)
  exact ⟨x, y, hn, he, c, hc, hce, hs, hy, isOdd_eq.1 ho⟩

/-- The field library's square root exists: the hypothesis of the theorems of this file is met. -/
theorem C48_sqrt_exists : ∃ sqrt : Fr → Option Fr, IsSqrt sqrt := by
  classical
  refine ⟨fun x => if h : ∃ y, y ^ 2 = x then some h.choose else none, ?_, ?_⟩
  · intro x y h
    by_cases hx : ∃ y, y ^ 2 = x
    · rw [dif_pos hx, Option.some_inj] at h
      rw [← h]; exact hx.choose_spec
    · rw [dif_neg hx] at h; cases h
  · rintro x ⟨y, hy⟩
    rw [dif_pos ⟨y, by rw [hy]; ring⟩]; rfl

/-- The image of 0 under the specification: a concrete point of the curve. -/
example : ∃ x y : Fr, Spec.Svdw.Image 0 x y ∧ y ^ 2 = x ^ 3 - 17 := by
  obtain ⟨sqrt, h⟩ := C48_sqrt_exists
  obtain ⟨_, _, _, _, _, hm⟩ := C48_map_total_on_curve sqrt h
  obtain ⟨x, y, _, _, hI⟩ := hm 0
  obtain ⟨_, _, _, _, hy, _⟩ := id hI
  exact ⟨x, y, hI, hy⟩

private theorem len_svdw : (ascii "SVDW").length = 4 := by decide
private theorem len_id : (ascii "grumpkin_g1").length = 11 := by decide

/-- C48. `hash_to_curve_grumpkin` returns, for every message and every domain prefix shorter than 223
bytes, the sum of the images of the two field elements read from the second and third hash; for a
longer domain prefix it panics. -/
theorem C48_hash_total (sqrt : Fr → Option Fr) (h : IsSqrt sqrt) (blake : List Byte → List Byte)
    (domain message : List Byte) :
    (domain.length < 223 → ∃ b0 b1 b2, ∃ P Q : Gk,
      b0 = blake (List.replicate 128 0 ++ message ++ [0, 128, 0] ++ domain ++
        ascii "-grumpkin_g1_XMD:BLAKE2b_SVDW_RO_" ++ [Fin.ofNat 256 (domain.length + 33)]) ∧
      b1 = blake (b0 ++ [1] ++ domain ++ ascii "-grumpkin_g1_XMD:BLAKE2b_SVDW_RO_" ++
        [Fin.ofNat 256 (domain.length + 33)]) ∧
      b2 = blake (List.zipWith (fun a b => a ^^^ b) b0 b1 ++ [2] ++ domain ++
        ascii "-grumpkin_g1_XMD:BLAKE2b_SVDW_RO_" ++ [Fin.ofNat 256 (domain.length + 33)]) ∧
      (∃ x y hn, P = .some x y hn ∧ Spec.Svdw.Image (ofBE b1 : ℕ) x y) ∧
      (∃ x y hn, Q = .some x y hn ∧ Spec.Svdw.Image (ofBE b2 : ℕ) x y) ∧
      hashToCurveGrumpkin sqrt blake domain message = .ok (P + Q)) ∧
    (223 ≤ domain.length → hashToCurveGrumpkin sqrt blake domain message = .error .panic) := by
  obtain ⟨c1, c2, c3, c4, hk, hm⟩ := C48_map_total_on_curve sqrt h
  have ht : tail (ascii "SVDW") (ascii "grumpkin_g1") domain =
      domain ++ ascii "-grumpkin_g1_XMD:BLAKE2b_SVDW_RO_" ++ [Fin.ofNat 256 (domain.length + 33)] := by
    unfold tail
    rw [len_svdw, len_id, show ascii "-grumpkin_g1_XMD:BLAKE2b_SVDW_RO_" = ascii "-" ++
      ascii "grumpkin_g1" ++ ascii "_XMD:BLAKE2b_" ++ ascii "SVDW" ++ ascii "_RO_" from by decide,
      show 18 + 4 + 11 + domain.length = domain.length + 33 by omega]
    simp only [List.append_assoc]
  constructor
  · intro hd
    obtain ⟨b0, hb0⟩ : ∃ b, b = blake (input0 (ascii "SVDW") (ascii "grumpkin_g1") domain message) :=
      ⟨_, rfl⟩
    obtain ⟨b1, hb1⟩ : ∃ b, b = blake (input1 (ascii "SVDW") (ascii "grumpkin_g1") domain b0) :=
      ⟨_, rfl⟩
    obtain ⟨b2, hb2⟩ : ∃ b, b = blake (input2 (ascii "SVDW") (ascii "grumpkin_g1") domain b0 b1) :=
      ⟨_, rfl⟩
    obtain ⟨x, y, hn, he, hI⟩ := hm (ofBE b1 : ℕ)
    obtain ⟨x', y', hn', he', hI'⟩ := hm (ofBE b2 : ℕ)
    have hf : hashToField blake (ascii "SVDW") (ascii "grumpkin_g1") domain message =
        .ok ((ofBE b1 : ℕ), (ofBE b2 : ℕ)) := by
      unfold hashToField
      rw [len_svdw, len_id, if_neg (not_not.2 (by omega)), if_neg (not_not.2 (by omega))]
      simp only
      rw [← hb0, ← hb1, ← hb2]
      rfl
    refine ⟨b0, b1, b2, .some x y hn, .some x' y' hn', ?_, ?_, ?_, ⟨x, y, hn, rfl, hI⟩,
      ⟨x', y', hn', rfl, hI'⟩, ?_⟩
    · rw [hb0]; unfold input0; rw [ht]; simp only [List.append_assoc]
    · rw [hb1]; unfold input1; rw [ht]; simp only [List.append_assoc]
    · rw [hb2]; unfold input2; rw [ht]; simp only [List.append_assoc]
    · unfold hashToCurveGrumpkin hashToCurve
      rw [hk, hf]
      show (Svdw.map sqrt _ c1 c2 c3 c4 1 >>= fun q0 => Svdw.map sqrt _ c1 c2 c3 c4 1 >>= fun q1 =>
        Except.ok (q0 + q1)) = _
      rw [he, he']
      rfl
  · intro hd
    have hf : hashToField blake (ascii "SVDW") (ascii "grumpkin_g1") domain message =
        .error .panic := by
      unfold hashToField
      rw [len_svdw, len_id]
      by_cases h1 : domain.length < 256
      · rw [if_neg (not_not.2 h1), if_pos (by omega)]
      · rw [if_pos h1]
    unfold hashToCurveGrumpkin hashToCurve
    rw [hk, hf]
    rfl

/-- C48. The result does not depend on which of the two square roots the field library returns. -/
theorem C48_hash_deterministic (sqrt sqrt' : Fr → Option Fr) (h : IsSqrt sqrt) (h' : IsSqrt sqrt')
    (blake : List Byte → List Byte) (domain message : List Byte) :
    hashToCurveGrumpkin sqrt blake domain message =
      hashToCurveGrumpkin sqrt' blake domain message := by
  have a := C48_hash_total sqrt h blake domain message
  have b := C48_hash_total sqrt' h' blake domain message
  by_cases hd : domain.length < 223
  · obtain ⟨b0, b1, b2, P, Q, e0, e1, e2, ⟨x, y, hn, hP, hI⟩, ⟨z, w, hm, hQ, hJ⟩, hr⟩ := a.1 hd
    obtain ⟨b0', b1', b2', P', Q', e0', e1', e2', ⟨x', y', hn', hP', hI'⟩, ⟨z', w', hm', hQ', hJ'⟩, hr'⟩ :=
      b.1 hd
    rw [← e0] at e0'
    subst e0'
    rw [← e1] at e1'
    subst e1'
    rw [← e2] at e2'
    subst e2'
    obtain ⟨rfl, rfl⟩ := C48_image_unique hI hI'
    obtain ⟨rfl, rfl⟩ := C48_image_unique hJ hJ'
    rw [hr, hr', hP, hP', hQ, hQ']
  · rw [a.2 (by omega), b.2 (by omega)]

/-- C48. Domain separation: for accepted domain prefixes the input of the first hash determines the
domain prefix and the message, and the three hash inputs of one evaluation are different. -/
theorem C48_inputs_separated (domain domain' message message' b0 b1 : List Byte)
    (hd : domain.length < 223) (hd' : domain'.length < 223) (hb0 : b0.length = 64)
    (hb1 : b1.length = 64) :
    let i0 := input0 (ascii "SVDW") (ascii "grumpkin_g1")
    let i1 := input1 (ascii "SVDW") (ascii "grumpkin_g1")
    let i2 := input2 (ascii "SVDW") (ascii "grumpkin_g1")
    (i0 domain message = i0 domain' message' → domain = domain' ∧ message = message') ∧
    i0 domain message ≠ i1 domain b0 ∧ i0 domain message ≠ i2 domain b0 b1 ∧
    i1 domain b0 ≠ i2 domain b0 b1 := by
  have hz : (List.zipWith (fun a b => a ^^^ b) b0 b1).length = 64 := by simp [hb0, hb1]
  refine ⟨?_, ?_, ?_, ?_⟩
  · intro h
    unfold input0 tail at h
    simp only [← List.append_assoc] at h
    obtain ⟨h, hl⟩ := List.append_inj' h rfl
    rw [len_svdw, len_id] at hl
    have hlen : domain.length = domain'.length := by
      have := congrArg Fin.val (List.cons.inj hl).1
      simp only [Fin.ofNat] at this
      omega
    obtain ⟨h, -⟩ := List.append_inj' h rfl
    obtain ⟨h, -⟩ := List.append_inj' h rfl
    obtain ⟨h, -⟩ := List.append_inj' h rfl
    obtain ⟨h, -⟩ := List.append_inj' h rfl
    obtain ⟨h, -⟩ := List.append_inj' h rfl
    obtain ⟨h, h1⟩ := List.append_inj' h hlen
    obtain ⟨h, -⟩ := List.append_inj' h rfl
    exact ⟨h1, List.append_cancel_left h⟩
  · intro h
    have := congrArg List.length h
    simp only [input0, input1, List.length_append, hb0, List.length_cons, List.length_nil,
      List.length_replicate] at this
    omega
  · intro h
    have := congrArg List.length h
    simp only [input0, input2, List.length_append, hz, List.length_cons, List.length_nil,
      List.length_replicate] at this
    omega
  · intro h
    unfold input1 input2 at h
    obtain ⟨h, -⟩ := List.append_inj' h rfl
    obtain ⟨-, h⟩ := List.append_inj' h rfl
    exact absurd h (by decide)

example : input0 (ascii "SVDW") (ascii "grumpkin_g1") [97] [98, 99] ≠
    input0 (ascii "SVDW") (ascii "grumpkin_g1") [99, 97] [98] := by
  intro h
  have := (C48_inputs_separated [97] [99, 97] [98, 99] [98] (List.replicate 64 0) (List.replicate 64 0)
    (by decide) (by decide) (by simp) (by simp)).1 h
  exact absurd this.1 (by decide)

end Verif.Props
