import Verif.Lemmas.SolHash
import Verif.Spec.SwMap
import Verif.Model.PseudoRand

/-! Properties C18, C19, C20 and C23 (message framing). -/

namespace Verif.Props
open Verif WeierstrassCurve.Affine

/-! ### C20 -/

/-- C20. The two addition chains compute the claimed powers of any 256-bit word, reduced. -/
theorem C20_chains_compute_powers (x : Word) :
    (ModExp.inverse x).toNat = x.toNat ^ (q - 2) % q ∧
    (ModExp.sqrt x).toNat = x.toNat ^ ((q + 1) / 4) % q :=
  ⟨ModExp.inverse_eq x, ModExp.sqrt_eq x⟩

/-- C20. `ModexpInverse.run` inverts every word not divisible by `q` and maps multiples of `q` to
zero; `ModexpSqrt.run` squares back to the argument (modulo `q`) exactly when the argument is a
square modulo `q`. -/
theorem C20_inverse_and_root (x : Word) :
    (x.toNat % q ≠ 0 → (ModExp.inverse x).toNat * x.toNat % q = 1) ∧
    (x.toNat % q = 0 → ModExp.inverse x = 0) ∧
    ((ModExp.sqrt x).toNat ^ 2 % q = x.toNat % q ↔ ∃ y : ℕ, y ^ 2 % q = x.toNat % q) := by
  have hcast : ∀ a b : ℕ, a % q = b % q ↔ (a : Fq) = (b : Fq) := fun a b =>
    (ZMod.natCast_eq_natCast_iff' a b q).symm
  have h0 : ((x.toNat : ℕ) : Fq) = 0 ↔ x.toNat % q = 0 := by
    rw [ZMod.natCast_eq_zero_iff]; exact Nat.dvd_iff_mod_eq_zero
  have hinv := SolHash.inverse_eq x
  have hsq := SolHash.modsqrt_eq x
  refine ⟨?_, ?_, ?_⟩
  · intro h
    have h1 : (1 : ℕ) = 1 % q := by decide +kernel
    have : (ModExp.inverse x).toNat * x.toNat % q = 1 % q := by
      rw [hcast, Nat.cast_mul, hinv, cast_wordOf_q, Nat.cast_one]
      exact inv_mul_cancel₀ (fun hz => h (h0.1 hz))
    rw [this]; exact h1.symm
  · intro h
    rw [hinv, h0.2 h, inv_zero]
    exact wordOf_eq_zero.2 rfl
  · rw [hcast, Nat.cast_pow, hsq, cast_wordOf_q]
    constructor
    · intro h
      refine ⟨(((x.toNat : ℕ) : Fq) ^ RustHash.sqrtExp).val, ?_⟩
      rw [hcast, Nat.cast_pow, ZMod.natCast_zmod_val, h]
    · rintro ⟨y, hy⟩
      rw [hcast, Nat.cast_pow] at hy
      exact RustHash.pow_sqrtExp ⟨(y : Fq), by rw [← hy, sq]⟩

/-- Both cases of `C20_inverse_and_root` occur: 4 is a square, and -1 is not. -/
example : (∃ y : ℕ, y ^ 2 % q = (4 : Word).toNat % q) ∧
    ¬ (∃ y : ℕ, y ^ 2 % q = (BitVec.ofNat 256 (q - 1) : Word).toNat % q) := by
  constructor
  · exact ⟨2, by decide +kernel⟩
  · rintro ⟨y, hy⟩
    apply neg_one_not_square (y : Fq)
    have h := (ZMod.natCast_eq_natCast_iff' _ _ q).2 hy
    rw [Nat.cast_pow] at h
    rw [h]
    decide +kernel

/-! ### C18 -/

/-- The square root of `-3` fixed by the code is one, and the code's candidates are the textbook
ones. -/
private theorem candidates (t : Fq) : RustHash.x1 t = Spec.swX1 RustHash.C2 t ∧
    RustHash.x2 t = Spec.swX2 RustHash.C2 t ∧ (t ≠ 0 → RustHash.x3 t = Spec.swX3 t) := by
  have hr := RustHash.t_sq_add_four_ne t
  have h2 : (2 : Fq) ≠ 0 := two_ne_zero_q
  have h3 : (3 : Fq) ≠ 0 := three_ne_zero_q
  have hC1 : RustHash.C1 = (-1 + RustHash.C2) / 2 := by
    rw [RustHash.C2_eq]; field_simp; ring
  have hC3 : RustHash.C3 = 1 / 3 := by
    rw [eq_div_iff h3, mul_comm]; exact RustHash.C3_eq
  have e1 : RustHash.x1 t = Spec.swX1 RustHash.C2 t := by
    rw [RustHash.x1, Spec.swX1, hC1, RustHash.inv0_eq]
    by_cases ht : t = 0
    · subst ht; simp
    · congr 1
      field_simp
  refine ⟨e1, ?_, ?_⟩
  · rw [RustHash.x2, Spec.swX2, e1]; ring
  · intro ht
    rw [RustHash.x3, Spec.swX3, hC3, RustHash.inv0_eq]
    field_simp

/-- C18. For every field element `t` the map succeeds; the abscissa of the result is the first of
the three Shallue-van de Woestijne candidates at which `x³ + 3` is a square, the ordinate is the
root `(x³+3)^((q+1)/4)` for `t ≤ (q-1)/2` and its negative otherwise, and the point satisfies the
curve equation. -/
theorem C18_map_total :
    ∃ s : Fq, s ^ 2 = -3 ∧ ∀ t : Fq, ∃ (x y : Fq) (h : bnCurve.Nonsingular x y),
      RustHash.mapToCurve t = .ok (.some x y h) ∧ y ^ 2 = x ^ 3 + 3 ∧ Spec.FirstSquare s t x ∧
      y = (if t.val ≤ (q - 1) / 2 then 1 else -1) * (x ^ 3 + 3) ^ RustHash.sqrtExp := by
  refine ⟨RustHash.C2, by rw [sq]; exact RustHash.C2_sq, ?_⟩
  intro t
  obtain ⟨x, y, h, hm, hc⟩ := RustHash.mapToCurve_eq t
  refine ⟨x, y * RustHash.sign t, h, hm, (bn_nonsingular_iff _ _).1 h, ?_, ?_⟩
  · obtain ⟨e1, e2, e3⟩ := candidates t
    have hsome : ∀ u y : Fq, RustHash.sqrt u = some y → IsSquare u := fun u y h =>
      (RustHash.sqrt_some_iff u).1 (by rw [h]; rfl)
    have hnone : ∀ u : Fq, RustHash.sqrt u = none → ¬ IsSquare u := fun u h hs => by
      have := (RustHash.sqrt_some_iff u).2 hs
      rw [h] at this; cases this
    unfold Spec.FirstSquare
    rw [← e1, ← e2]
    rcases hc with ⟨h1, rfl⟩ | ⟨h1, h2, rfl⟩ | ⟨h1, h2, h3, rfl⟩
    · exact Or.inl ⟨hsome _ _ h1, rfl⟩
    · exact Or.inr (Or.inl ⟨hnone _ h1, hsome _ _ h2, rfl⟩)
    · have ht : t ≠ 0 := by
        rintro rfl
        apply hnone _ h1
        rw [RustHash.x1_zero, RustHash.C1_cube]
        exact ⟨2, by norm_num⟩
      rw [← e3 ht]
      exact Or.inr (Or.inr ⟨hnone _ h1, hnone _ h2, hsome _ _ h3, rfl⟩)
  · have hy : y = (x ^ 3 + 3) ^ RustHash.sqrtExp := by
      rcases hc with ⟨h1, rfl⟩ | ⟨h1, h2, rfl⟩ | ⟨h1, h2, h3, rfl⟩
      · exact RustHash.sqrt_eq_pow h1
      · exact RustHash.sqrt_eq_pow h2
      · exact RustHash.sqrt_eq_pow h3
    rw [← hy, RustHash.sign, RustHash.Q2_val, RustHash.MINUS_ONE_eq, mul_comm]

private theorem first_unique {A B C : Prop} {α : Type} {a b c x x' : α}
    (h : (A ∧ x = a) ∨ (¬ A ∧ B ∧ x = b) ∨ (¬ A ∧ ¬ B ∧ C ∧ x = c))
    (h' : (A ∧ x' = a) ∨ (¬ A ∧ B ∧ x' = b) ∨ (¬ A ∧ ¬ B ∧ C ∧ x' = c)) : x' = x := by
  rcases h with ⟨a1, e⟩ | ⟨a1, a2, e⟩ | ⟨a1, a2, a3, e⟩ <;>
    rcases h' with ⟨b1, e'⟩ | ⟨b1, b2, e'⟩ | ⟨b1, b2, b3, e'⟩ <;>
    first | exact e'.trans e.symm | contradiction

/-- C18. The map is odd: negating a nonzero field element negates the point. -/
theorem C18_map_odd (t : Fq) (ht : t ≠ 0) :
    ∃ P : G1, RustHash.mapToCurve t = .ok P ∧ RustHash.mapToCurve (-t) = .ok (-P) := by
  obtain ⟨s, _, hs⟩ := C18_map_total
  obtain ⟨x, y, h, hm, hon, hf, hy⟩ := hs t
  obtain ⟨x', y', h', hm', hon', hf', hy'⟩ := hs (-t)
  have hx : x' = x := by
    have e1 : Spec.swX1 s (-t) = Spec.swX1 s t := by simp [Spec.swX1]
    have e2 : Spec.swX2 s (-t) = Spec.swX2 s t := by simp [Spec.swX2, e1]
    have e3 : Spec.swX3 (-t) = Spec.swX3 t := by simp [Spec.swX3]
    unfold Spec.FirstSquare at hf hf'
    rw [e1, e2, e3] at hf'
    exact first_unique hf hf'
  subst hx
  have hv : (-t).val = q - t.val := by rw [ZMod.neg_val, if_neg ht]
  have hlt : t.val < q := ZMod.val_lt t
  have hodd : q % 2 = 1 := by decide +kernel
  have hpos : 0 < t.val := Nat.pos_of_ne_zero (fun h => ht ((ZMod.val_eq_zero t).1 h))
  have hyy : y' = -y := by
    rw [hy, hy', hv]
    by_cases hle : t.val ≤ (q - 1) / 2
    · rw [if_pos hle, if_neg (by omega)]; ring
    · rw [if_neg hle, if_pos (by omega)]; ring
  subst hyy
  refine ⟨_, hm, ?_⟩
  obtain ⟨h2, hn⟩ := shortW_neg_some (b := (3 : Fq)) h
  have hn' : -(Point.some x' y h : G1) = Point.some x' (-y) h2 := hn
  rw [hm', hn']

/-- C18. Hashing any message under any domain succeeds and gives a point of the curve group. -/
theorem C18_hash_total (keccak : Keccak) (domain message : List Byte) :
    ∃ P : G1, RustHash.hashToCurve keccak domain message = .ok P :=
  RustHash.hashToCurve_ok keccak domain message

/-- The exceptional element `0` maps to the finite point with abscissa `(-1 + √-3)/2`. -/
example : ∃ y h, RustHash.mapToCurve 0 = .ok (.some RustHash.C1 y h) := by
  obtain ⟨x, y, h, hm, hc⟩ := RustHash.mapToCurve_eq 0
  have hs : IsSquare (RustHash.x1 0 ^ 3 + 3) := by
    rw [RustHash.x1_zero, RustHash.C1_cube]; exact ⟨2, by norm_num⟩
  have hx : x = RustHash.C1 := by
    have := (RustHash.sqrt_some_iff _).2 hs
    rw [Option.isSome_iff_exists] at this
    obtain ⟨v, hv⟩ := this
    rcases hc with ⟨_, rfl⟩ | ⟨h1, _⟩ | ⟨h1, _⟩
    · exact RustHash.x1_zero
    · rw [hv] at h1; cases h1
    · rw [hv] at h1; cases h1
  subst hx
  exact ⟨_, _, hm⟩

/-! ### C19 -/

/-- C19. For every domain and message (of lengths representable in a machine word) the contract
does not revert and returns the coordinates of the point the Rust function returns. -/
theorem C19_hash_agrees (keccak : Keccak) (domain message : List Byte)
    (hd : domain.length < 2 ^ 64) (hm : message.length < 2 ^ 64) :
    ∃ P : G1, RustHash.hashToCurve keccak domain message = .ok P ∧
      SolHash.hashToG1 keccak domain message =
        some ⟨BitVec.ofNat 256 (coords P).1.val, BitVec.ofNat 256 (coords P).2.val⟩ := by
  obtain ⟨P, hP⟩ := RustHash.hashToCurve_ok keccak domain message
  exact ⟨P, hP, SolHash.hashToG1_eq keccak domain message hd hm hP⟩

/-- C19. The maps to the curve agree on every canonical field element, and the contract's map
rejects every other word. -/
theorem C19_map_agrees (w : Word) :
    (w.toNat < q → ∃ P : G1, RustHash.mapToCurve (w.toNat : Fq) = .ok P ∧
      SolHash.mapToG1 w = some (encodeG1 P)) ∧
    (q ≤ w.toNat → SolHash.mapToG1 w = none) := by
  constructor
  · intro h
    obtain ⟨x, y, h', hm, _⟩ := RustHash.mapToCurve_eq (w.toNat : Fq)
    refine ⟨_, hm, ?_⟩
    have := SolHash.mapToG1_eq _ hm
    rwa [wordOf_of_lt_q h] at this
  · intro h
    unfold SolHash.mapToG1
    have : require (decide (w.toNat < SolHash.Q.toNat)) = none := by
      rw [SolHash.toNat_Q]; simp [require, h]
    rw [this]
    rfl

/-! ### C23, message framing -/

/-- The bytes given to the first Keccak call. -/
private theorem frame_inj {d d' m m' : List Byte} (hd : d.length < 2 ^ 64) (hd' : d'.length < 2 ^ 64)
    (h : RustHash.lenBytes d.length ++ (d ++ (RustHash.lenBytes m.length ++ m)) =
      RustHash.lenBytes d'.length ++ (d' ++ (RustHash.lenBytes m'.length ++ m'))) :
    d = d' ∧ m = m' := by
  have hl : ∀ n, (RustHash.lenBytes n).length = 32 := fun n => by simp [RustHash.lenBytes]
  have h1 := List.append_inj h (by rw [hl, hl])
  have hlen : d.length = d'.length := by
    have := h1.1
    unfold RustHash.lenBytes at this
    have h2 := List.append_cancel_left this
    exact beBytes_inj (by norm_num; omega) (by norm_num; omega) h2
  have h2 := List.append_inj h1.2 hlen
  have h3 := List.append_inj h2.2 (by rw [hl, hl])
  exact ⟨h2.1, h3.2⟩

/-- C23. The byte string the first Keccak call receives is the same in the library and in the
contract, and it determines both domain and message: no two (domain, message) pairs collide before
hashing. -/
theorem C23_message_framing (domain domain' message message' : List Byte)
    (hd : domain.length < 2 ^ 64) (hd' : domain'.length < 2 ^ 64) (hm : message.length < 2 ^ 64) :
    SolHash.frame domain message = RustHash.frame domain message ∧
    (RustHash.frame domain message = RustHash.frame domain' message' →
      domain = domain' ∧ message = message') := by
  refine ⟨SolHash.frame_eq domain message hd hm, ?_⟩
  intro h
  unfold RustHash.frame at h
  simp only [List.append_assoc] at h
  exact frame_inj hd hd' (List.append_cancel_left h)

/-- Moving a byte from the domain to the message changes the string although the concatenation is
the same. -/
example : RustHash.frame [7, 8] [9] ≠ RustHash.frame [7] [8, 9] := fun h =>
  absurd ((C23_message_framing [7, 8] [7] [9] [8, 9] (by decide) (by decide) (by decide)).2 h).1
    (by decide)

end Verif.Props
