import Verif.Model.Serialise
import Verif.Spec.Hex
import Verif.Lemmas.Bytes
import Verif.Lemmas.Evm

/-! Helper lemmas about bin/serialise.rs. -/

namespace Verif
open WeierstrassCurve.Affine

theorem isDigit_iff (c : Char) (d : ℕ) : Spec.IsDigit c d ↔ hexVal c = some d := by
  have h0 : '0'.toNat = 48 := rfl
  have ha : 'a'.toNat = 97 := rfl
  have hA : 'A'.toNat = 65 := rfl
  have hc : ∀ a b : Char, a ≤ b ↔ a.toNat ≤ b.toNat := fun a b => Iff.rfl
  have h9 : '9'.toNat = 57 := rfl
  have hf : 'f'.toNat = 102 := rfl
  have hF : 'F'.toNat = 70 := rfl
  unfold Spec.IsDigit hexVal
  simp only [hc, h0, ha, hA, h9, hf, hF]
  split_ifs <;> simp only [Option.some.injEq, iff_false] <;> omega

theorem hexVal_lt {c : Char} {d : ℕ} (h : hexVal c = some d) : d < 16 := by
  unfold hexVal at h
  split_ifs at h <;> simp only [Option.some.injEq] at h <;> omega

/-- Left-to-right reading of digits. -/
def hexStep (acc : ℕ) (c : Char) : Option ℕ := (hexVal c).map (fun d => 16 * acc + d)

theorem hex_iff (s : List Char) : ∀ n, Spec.Hex s n ↔ s.foldlM hexStep 0 = some n := by
  induction s using List.reverseRecOn with
  | nil =>
    intro n
    constructor
    · intro h
      generalize hs : ([] : List Char) = s at h
      cases h with
      | nil => rfl
      | snoc _ _ => simp at hs
    · intro h
      simp at h
      subst h
      exact .nil
  | append_singleton l c ih =>
    intro n
    rw [List.foldlM_append]
    constructor
    · intro h
      generalize hs : l ++ [c] = s at h
      cases h with
      | nil => simp at hs
      | snoc h1 h2 =>
        rename_i s' n' c' d'
        obtain ⟨rfl, h3⟩ := List.append_inj' hs rfl
        simp at h3
        subst h3
        rw [(ih _).1 h1]
        simp [hexStep, (isDigit_iff _ _).1 h2]
    · intro h
      cases hl : l.foldlM hexStep 0 with
      | none => rw [hl] at h; simp at h
      | some m =>
        rw [hl] at h
        simp only [List.foldlM_cons, List.foldlM_nil, hexStep] at h
        cases hv : hexVal c with
        | none => rw [hv] at h; simp at h
        | some d =>
          rw [hv] at h
          simp at h
          rw [← h]
          exact .snoc ((ih m).2 hl) ((isDigit_iff _ _).2 hv)

theorem ofBE_cons (b : Byte) (bs : List Byte) :
    ofBE (b :: bs) = ofBE bs + 256 ^ bs.length * b.val := by
  have := ofBE_append [b] bs
  rw [List.singleton_append] at this
  rw [this]
  simp [ofBE, ofLE]

theorem hexDecode_fold : ∀ (s : List Char) (bs : List Byte), hexDecode s = some bs →
    s.length = 2 * bs.length ∧
      ∀ acc, s.foldlM hexStep acc = some (acc * 256 ^ bs.length + ofBE bs)
  | [], bs, h => by
    simp [hexDecode] at h
    subst h
    simp [ofBE, ofLE]
  | [_], bs, h => by simp [hexDecode] at h
  | a :: b :: rest, bs, h => by
    unfold hexDecode at h
    cases hx : hexVal a with
    | none => rw [hx] at h; cases h
    | some x =>
      cases hy : hexVal b with
      | none => rw [hx, hy] at h; cases h
      | some y =>
        cases hr : hexDecode rest with
        | none => rw [hx, hy, hr] at h; cases h
        | some cs =>
          rw [hx, hy, hr] at h
          have h := Option.some.inj h
          subst h
          obtain ⟨h1, h2⟩ := hexDecode_fold rest cs hr
          refine ⟨by simp [h1]; omega, ?_⟩
          intro acc
          simp only [List.foldlM_cons, hexStep, hx, hy, Option.map_some, Option.bind_eq_bind,
            Option.bind_some]
          rw [h2, ofBE_cons]
          have := hexVal_lt hx
          have := hexVal_lt hy
          have hv : (Fin.ofNat 256 (16 * x + y)).val = 16 * x + y := by
            simp [Fin.ofNat]; omega
          rw [hv, List.length_cons, pow_succ]
          congr 1
          ring

theorem hexDecode_some : ∀ (s : List Char) (acc n : ℕ), 2 ∣ s.length →
    s.foldlM hexStep acc = some n → ∃ bs, hexDecode s = some bs
  | [], _, _, _, _ => ⟨[], rfl⟩
  | [_], _, _, h, _ => by simp at h
  | a :: b :: rest, acc, n, h, hf => by
    simp only [List.foldlM_cons, hexStep] at hf
    cases hx : hexVal a with
    | none => rw [hx] at hf; simp at hf
    | some x =>
      cases hy : hexVal b with
      | none => rw [hx, hy] at hf; simp at hf
      | some y =>
        rw [hx, hy] at hf
        simp only [Option.map_some, Option.bind_eq_bind, Option.bind_some] at hf
        obtain ⟨bs, hb⟩ := hexDecode_some rest _ n (by simp at h; omega) hf
        exact ⟨_, by unfold hexDecode; rw [hx, hy, hb]; rfl⟩

theorem hexDecode_iff (s : List Char) (n : ℕ) :
    (Spec.Hex s n ∧ 2 ∣ s.length) ↔
      ∃ bs, hexDecode s = some bs ∧ ofBE bs = n := by
  constructor
  · rintro ⟨h, h2⟩
    have hf := (hex_iff s n).1 h
    obtain ⟨bs, hb⟩ := hexDecode_some s 0 n h2 hf
    have := (hexDecode_fold s bs hb).2 0
    rw [hf] at this
    simp at this
    exact ⟨bs, hb, this.symm⟩
  · rintro ⟨bs, hb, hn⟩
    obtain ⟨h1, h2⟩ := hexDecode_fold s bs hb
    refine ⟨(hex_iff s n).2 ?_, by omega⟩
    rw [h2 0, zero_mul, zero_add, hn]

theorem ofLE_pad (bs : List Byte) (k : ℕ) :
    ofLE ((List.replicate k 0 ++ bs).reverse) = ofBE bs := by
  change ofBE _ = _
  rw [ofBE_append]
  have : ∀ k, ofLE (List.replicate k (0 : Byte)) = 0 := by
    intro k
    induction k with
    | zero => rfl
    | succ k ih => rw [List.replicate_succ, ofLE, ih]; rfl
  rw [ofBE, ofBE, List.reverse_replicate, this, mul_zero, add_zero]

theorem readField_trim (p : ℕ) (s : List Char) (x : ZMod p) :
    readField p s = .ok x ↔ ∃ bs, hexDecode (trim0x s) = some bs ∧ bs.length ≤ 32 ∧
      ofBE bs < p ∧ x = ((ofBE bs : ℕ) : ZMod p) := by
  unfold readField hexToLeBytes
  cases hd : hexDecode (trim0x s) with
  | none =>
    simp only [reduceCtorEq, false_and, exists_false, iff_false]
    intro h; cases h
  | some bs =>
    dsimp only
    by_cases hl : bs.length ≤ 32
    · rw [if_pos hl]
      simp only [Option.some.injEq, exists_eq_left', hl, true_and]
      change (match fieldFromBytes p ((List.replicate (32 - bs.length) 0 ++ bs).reverse) with
        | none => (throw Fail.panic : Res (ZMod p))
        | some x => return x) = _ ↔ _
      unfold fieldFromBytes
      rw [ofLE_pad]
      by_cases hp : ofBE bs < p
      · rw [if_pos hp]
        simp only [hp, true_and]
        constructor
        · intro h; cases h; rfl
        · rintro rfl; rfl
      · rw [if_neg hp]
        simp only [hp, false_and, iff_false]
        intro h; cases h
    · rw [if_neg hl]
      simp only [Option.some.injEq, exists_eq_left', hl, false_and, iff_false]
      intro h; cases h

theorem not_hex_x : hexVal 'x' = none := by decide

theorem hexDecode_0x (s : List Char) : hexDecode ('0' :: 'x' :: s) = none := by
  unfold hexDecode
  rw [not_hex_x]
  cases hexVal '0' <;> rfl

theorem trim0x_eq (s : List Char) : (∃ t, s = '0' :: 'x' :: t ∧ trim0x s = t) ∨
    ((∀ t, s ≠ '0' :: 'x' :: t) ∧ trim0x s = s) := by
  by_cases h : ∃ t, s = '0' :: 'x' :: t
  · obtain ⟨t, rfl⟩ := h
    exact Or.inl ⟨t, rfl, rfl⟩
  · refine Or.inr ⟨fun t ht => h ⟨t, ht⟩, ?_⟩
    unfold trim0x
    split
    · rename_i t; exact absurd ⟨t, rfl⟩ h
    · rfl

theorem readField_iff (p : ℕ) (s : List Char) (x : ZMod p) :
    readField p s = .ok x ↔ ∃ n, Spec.Literal s n ∧ n < p ∧ x = (n : ZMod p) := by
  rw [readField_trim]
  constructor
  · rintro ⟨bs, hb, hl, hp, hx⟩
    have h := (hexDecode_iff _ _).2 ⟨bs, hb, rfl⟩
    have hlen := (hexDecode_fold _ _ hb).1
    refine ⟨ofBE bs, ⟨trim0x s, ?_, h.1, h.2, by omega⟩, hp, hx⟩
    rcases trim0x_eq s with ⟨t, e1, e2⟩ | ⟨_, e2⟩
    · left; rw [e2]; exact e1
    · right; exact e2.symm
  · rintro ⟨n, ⟨ds, hs, hh, h2, hl⟩, hp, hx⟩
    obtain ⟨bs, hb, hn⟩ := (hexDecode_iff _ _).1 ⟨hh, h2⟩
    have hlen := (hexDecode_fold _ _ hb).1
    have ht : trim0x s = ds := by
      rcases hs with rfl | rfl
      · rfl
      · rcases trim0x_eq s with ⟨t, e1, e2⟩ | ⟨_, e2⟩
        · rw [e1, hexDecode_0x] at hb; cases hb
        · exact e2
    exact ⟨bs, by rw [ht]; exact hb, by omega, by rw [hn]; exact hp, by rw [hn]; exact hx⟩

/-! ### Writing -/

theorem hexDigit_val : ∀ n < 16, hexVal ((hexDigit n).toLower) = some n := by decide

theorem hexDecode_encode : ∀ bs : List Byte,
    hexDecode ((hexEncode bs).map Char.toLower) = some bs
  | [] => rfl
  | b :: bs => by
    have hb := b.isLt
    have h1 := hexDigit_val (b.val / 16) (by omega)
    have h2 := hexDigit_val (b.val % 16) (by omega)
    simp only [hexEncode, List.map_cons, hexDecode, h1, h2, hexDecode_encode bs]
    have : Fin.ofNat 256 (16 * (b.val / 16) + b.val % 16) = b := by
      apply Fin.ext
      simp [Fin.ofNat]
      omega
    exact congrArg (fun b => some (b :: bs)) this

theorem read_write_Fq (x : Fq) : readField q (writeField x) = .ok x := by
  rw [readField_trim]
  refine ⟨(feBytes x).reverse, ?_, ?_, ?_, ?_⟩
  · unfold writeField leBytesToHex
    exact hexDecode_encode _
  · simp
  · change ofBE (beBytes 32 x.val) < q
    rw [ofBE_beBytes, Nat.mod_eq_of_lt (Fq_val_lt x)]
    exact ZMod.val_lt x
  · change x = ((ofBE (beBytes 32 x.val) : ℕ) : Fq)
    rw [ofBE_beBytes, Nat.mod_eq_of_lt (Fq_val_lt x), ZMod.natCast_zmod_val]

theorem read_write_Fr (x : Fr) : readField r (writeField x) = .ok x := by
  rw [readField_trim]
  refine ⟨(feBytes x).reverse, ?_, ?_, ?_, ?_⟩
  · unfold writeField leBytesToHex
    exact hexDecode_encode _
  · simp
  · change ofBE (beBytes 32 x.val) < r
    rw [ofBE_beBytes, Nat.mod_eq_of_lt (Fr_val_lt x)]
    exact ZMod.val_lt x
  · change x = ((ofBE (beBytes 32 x.val) : ℕ) : Fr)
    rw [ofBE_beBytes, Nat.mod_eq_of_lt (Fr_val_lt x), ZMod.natCast_zmod_val]

theorem hexEncode_lower (bs : List Byte) : ∀ c ∈ (hexEncode bs).map Char.toLower,
    c ∈ "0123456789abcdef".toList := by
  have h : ∀ n < 16, (hexDigit n).toLower ∈ "0123456789abcdef".toList := by decide
  induction bs with
  | nil => intro c hc; cases hc
  | cons b bs ih =>
    have hb := b.isLt
    intro c hc
    simp only [hexEncode, List.map_cons, List.mem_cons] at hc
    rcases hc with rfl | rfl | hc
    · exact h _ (by omega)
    · exact h _ (by omega)
    · exact ih c hc

theorem length_hexEncode (bs : List Byte) : (hexEncode bs).length = 2 * bs.length := by
  induction bs with
  | nil => rfl
  | cons b bs ih => simp only [hexEncode, List.length_cons, ih]; omega

end Verif
