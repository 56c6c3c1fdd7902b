import Verif.Lemmas.Serialise

/-! Property C17: the hexadecimal key and parameter files. -/

namespace Verif.Props
open Verif WeierstrassCurve.Affine

/-- C17. Reading a string as a field element (either field) succeeds with `x` exactly when the
string is a hexadecimal literal of a number below the modulus and `x` is that number; every other
string panics. -/
theorem C17_read_iff (s : List Char) :
    (∀ x : Fr, readField r s = .ok x ↔ ∃ n, Spec.Literal s n ∧ n < r ∧ x.val = n) ∧
    (∀ x : Fq, readField q s = .ok x ↔ ∃ n, Spec.Literal s n ∧ n < q ∧ x.val = n) ∧
    ((¬ ∃ n, Spec.Literal s n ∧ n < r) → readField r s = .error .panic) ∧
    ((¬ ∃ n, Spec.Literal s n ∧ n < q) → readField q s = .error .panic) := by
  have hr : ∀ (x : Fr) (n : ℕ), n < r → (x = (n : Fr) ↔ x.val = n) := by
    intro x n hn
    constructor
    · rintro rfl; exact ZMod.val_natCast_of_lt hn
    · rintro rfl; rw [ZMod.natCast_zmod_val]
  have hq : ∀ (x : Fq) (n : ℕ), n < q → (x = (n : Fq) ↔ x.val = n) := by
    intro x n hn
    constructor
    · rintro rfl; exact ZMod.val_natCast_of_lt hn
    · rintro rfl; rw [ZMod.natCast_zmod_val]
  have herr : ∀ (p : ℕ), (¬ ∃ n, Spec.Literal s n ∧ n < p) → readField p s = .error .panic := by
    intro p hn
    cases h : readField p s with
    | ok x =>
      obtain ⟨n, h1, h2, _⟩ := (readField_iff p s x).1 h
      exact absurd ⟨n, h1, h2⟩ hn
    | error e =>
      unfold readField hexToLeBytes at h
      cases hd : hexDecode (trim0x s) with
      | none => rw [hd] at h; cases h; rfl
      | some bs =>
        rw [hd] at h
        dsimp only at h
        by_cases hl : bs.length ≤ 32
        · rw [if_pos hl] at h
          change (match fieldFromBytes p ((List.replicate (32 - bs.length) 0 ++ bs).reverse) with
            | none => (throw Fail.panic : Res (ZMod p))
            | some x => return x) = _ at h
          cases hf : fieldFromBytes p ((List.replicate (32 - bs.length) 0 ++ bs).reverse) with
          | none => rw [hf] at h; cases h; rfl
          | some y => rw [hf] at h; cases h
        · rw [if_neg hl] at h; cases h; rfl
  refine ⟨fun x => ?_, fun x => ?_, herr r, herr q⟩
  · rw [readField_iff]
    exact exists_congr fun n => and_congr_right fun _ => and_congr_right fun h => hr x n h
  · rw [readField_iff]
    exact exists_congr fun n => and_congr_right fun _ => and_congr_right fun h => hq x n h

/-- C17. What is written for a field element is `0x` followed by 64 lower-case digits denoting it,
and reading it back returns it. -/
theorem C17_write_read :
    (∀ x : Fr, (∃ ds, writeField x = '0' :: 'x' :: ds ∧ ds.length = 64 ∧
        (∀ c ∈ ds, c ∈ "0123456789abcdef".toList) ∧ Spec.Hex ds x.val) ∧
      readField r (writeField x) = .ok x) ∧
    (∀ x : Fq, (∃ ds, writeField x = '0' :: 'x' :: ds ∧ ds.length = 64 ∧
        (∀ c ∈ ds, c ∈ "0123456789abcdef".toList) ∧ Spec.Hex ds x.val) ∧
      readField q (writeField x) = .ok x) := by
  have h : ∀ v : ℕ, v < 256 ^ 32 → ∃ ds, leBytesToHex (leBytes 32 v) = '0' :: 'x' :: ds ∧
      ds.length = 64 ∧ (∀ c ∈ ds, c ∈ "0123456789abcdef".toList) ∧ Spec.Hex ds v := by
    intro v hv
    refine ⟨(hexEncode (leBytes 32 v).reverse).map Char.toLower, rfl, ?_, hexEncode_lower _, ?_⟩
    · rw [List.length_map, length_hexEncode]; simp
    · apply ((hexDecode_iff _ _).2 ⟨_, hexDecode_encode _, ?_⟩).1
      change ofBE (beBytes 32 v) = v
      rw [ofBE_beBytes, Nat.mod_eq_of_lt hv]
  exact ⟨fun x => ⟨h _ (Fr_val_lt x), read_write_Fr x⟩, fun x => ⟨h _ (Fq_val_lt x), read_write_Fq x⟩⟩

private theorem toG1_iff (s : PointSerde) (P : G1) : s.toG1 = .ok P ↔
    readField q s.x = .ok (coords P).1 ∧ readField q s.y = .ok (coords P).2 := by
  unfold PointSerde.toG1
  constructor
  · intro h
    cases hx : readField q s.x with
    | error e => rw [hx] at h; cases h
    | ok x =>
      cases hy : readField q s.y with
      | error e => rw [hx, hy] at h; cases h
      | ok y =>
        rw [hx, hy] at h
        change (match bnFromXY x y with | none => throw Fail.panic | some P => return P) = _ at h
        cases hb : bnFromXY x y with
        | none => rw [hb] at h; cases h
        | some Q =>
          rw [hb] at h
          cases h
          rw [fromXY_eq_some _ hb]
          exact ⟨rfl, rfl⟩
  · rintro ⟨hx, hy⟩
    rw [hx, hy]
    change (match bnFromXY (coords P).1 (coords P).2 with
      | none => throw Fail.panic | some P => return P) = _
    rw [bnFromXY_coords]
    rfl

private theorem toGk_iff (s : PointSerde) (P : Gk) : s.toGk = .ok P ↔
    readField r s.x = .ok (coords P).1 ∧ readField r s.y = .ok (coords P).2 := by
  unfold PointSerde.toGk
  constructor
  · intro h
    cases hx : readField r s.x with
    | error e => rw [hx] at h; cases h
    | ok x =>
      cases hy : readField r s.y with
      | error e => rw [hx, hy] at h; cases h
      | ok y =>
        rw [hx, hy] at h
        change (match gkFromXY x y with | none => throw Fail.panic | some P => return P) = _ at h
        cases hb : gkFromXY x y with
        | none => rw [hb] at h; cases h
        | some Q =>
          rw [hb] at h
          cases h
          rw [fromXY_eq_some _ hb]
          exact ⟨rfl, rfl⟩
  · rintro ⟨hx, hy⟩
    rw [hx, hy]
    change (match gkFromXY (coords P).1 (coords P).2 with
      | none => throw Fail.panic | some P => return P) = _
    rw [gkFromXY_coords]
    rfl

private theorem toG2_iff (s : Point2Serde) (P : G2) : s.toG2 = .ok P ↔
    (readField q s.x0 = .ok (coords P).1.re ∧ readField q s.x1 = .ok (coords P).1.im) ∧
    readField q s.y0 = .ok (coords P).2.re ∧ readField q s.y1 = .ok (coords P).2.im := by
  unfold Point2Serde.toG2
  constructor
  · intro h
    cases ha : readField q s.x0 with
    | error e => rw [ha] at h; cases h
    | ok a =>
      cases hb : readField q s.x1 with
      | error e => rw [ha, hb] at h; cases h
      | ok b =>
        cases hc : readField q s.y0 with
        | error e => rw [ha, hb, hc] at h; cases h
        | ok c =>
          cases hd : readField q s.y1 with
          | error e => rw [ha, hb, hc, hd] at h; cases h
          | ok d =>
            rw [ha, hb, hc, hd] at h
            change (match g2FromXY ⟨a, b⟩ ⟨c, d⟩ with
              | none => throw Fail.panic | some P => return P) = _ at h
            cases hg : g2FromXY ⟨a, b⟩ ⟨c, d⟩ with
            | none => rw [hg] at h; cases h
            | some Q =>
              rw [hg] at h
              cases h
              rw [fromXY_eq_some _ hg]
              exact ⟨⟨rfl, rfl⟩, rfl, rfl⟩
  · rintro ⟨⟨ha, hb⟩, hc, hd⟩
    rw [ha, hb, hc, hd]
    change (match g2FromXY (coords P).1 (coords P).2 with
      | none => throw Fail.panic | some P => return P) = _
    rw [g2FromXY_coords]
    rfl

/-- C17. Points of the three groups: reading returns `P` exactly when each coordinate string is a
canonical literal of the corresponding coordinate of `P`, and writing then reading returns the
point.  (Points of the twist are not checked to lie in the subgroup.) -/
theorem C17_points :
    (∀ (s : PointSerde) (P : G1), s.toG1 = .ok P ↔
      readField q s.x = .ok (coords P).1 ∧ readField q s.y = .ok (coords P).2) ∧
    (∀ (s : PointSerde) (P : Gk), s.toGk = .ok P ↔
      readField r s.x = .ok (coords P).1 ∧ readField r s.y = .ok (coords P).2) ∧
    (∀ (s : Point2Serde) (P : G2), s.toG2 = .ok P ↔
      (readField q s.x0 = .ok (coords P).1.re ∧ readField q s.x1 = .ok (coords P).1.im) ∧
      readField q s.y0 = .ok (coords P).2.re ∧ readField q s.y1 = .ok (coords P).2.im) ∧
    (∀ P : G1, (PointSerde.ofG1 P).toG1 = .ok P) ∧
    (∀ P : Gk, (PointSerde.ofGk P).toGk = .ok P) ∧
    (∀ P : G2, (Point2Serde.ofG2 P).toG2 = .ok P) :=
  ⟨toG1_iff, toGk_iff, toG2_iff,
    fun P => (toG1_iff _ P).2 ⟨read_write_Fq _, read_write_Fq _⟩,
    fun P => (toGk_iff _ P).2 ⟨read_write_Fr _, read_write_Fr _⟩,
    fun P => (toG2_iff _ P).2
      ⟨⟨read_write_Fq _, read_write_Fq _⟩, read_write_Fq _, read_write_Fq _⟩⟩

/-- C17. A member key file is accepted exactly when the secret and the public key are readable and
the public key is the generator times the secret; the key returned holds the values read. The same
for share key files. -/
theorem C17_key_files :
    (∀ (s : MemberKeySerde) (k : MemberKey), s.read = .ok k ↔
      readField q s.sk = .ok k.sk ∧ s.pk.toGk = .ok k.pk ∧ k.pk = k.sk • gk) ∧
    (∀ (s : ShareKeySerde) (k : DkgShareKey), s.read = .ok k ↔
      k.index = s.index ∧ readField r s.sk = .ok k.sk ∧ s.vk.toG1 = .ok k.vk ∧
        k.vk = k.sk • g1) := by
  constructor
  · rintro s ⟨sk, pk⟩
    unfold MemberKeySerde.read
    cases hs : readField q s.sk with
    | error e => constructor
                 · intro h; cases h
                 · rintro ⟨h, _⟩; cases h
    | ok a =>
      cases hp : s.pk.toGk with
      | error e => constructor
                   · intro h; cases h
                   · rintro ⟨_, h, _⟩; cases h
      | ok P =>
        by_cases h : P = a • gk
        · simp only [bind, Except.bind, h, ne_eq, not_true_eq_false, if_false, pure, Except.pure,
            Except.ok.injEq, MemberKey.mk.injEq]
          constructor
          · rintro ⟨rfl, rfl⟩; exact ⟨rfl, rfl, rfl⟩
          · rintro ⟨rfl, rfl, _⟩; exact ⟨rfl, rfl⟩
        · simp only [bind, Except.bind, h, ne_eq, not_false_eq_true, if_true, throw, throwThe,
            MonadExceptOf.throw, Except.ok.injEq, reduceCtorEq, false_iff]
          rintro ⟨rfl, rfl, h'⟩
          exact h h'
  · rintro s ⟨i, sk, vk⟩
    unfold ShareKeySerde.read
    cases hs : readField r s.sk with
    | error e => constructor
                 · intro h; cases h
                 · rintro ⟨_, h, _⟩; cases h
    | ok a =>
      cases hp : s.vk.toG1 with
      | error e => constructor
                   · intro h; cases h
                   · rintro ⟨_, _, h, _⟩; cases h
      | ok P =>
        by_cases h : P = a • g1
        · simp only [bind, Except.bind, h, ne_eq, not_true_eq_false, if_false, pure, Except.pure,
            Except.ok.injEq, DkgShareKey.mk.injEq]
          constructor
          · rintro ⟨rfl, rfl, rfl⟩; exact ⟨rfl, rfl, rfl, rfl⟩
          · rintro ⟨rfl, rfl, rfl, _⟩; exact ⟨rfl, rfl, rfl⟩
        · simp only [bind, Except.bind, h, ne_eq, not_false_eq_true, if_true, throw, throwThe,
            MonadExceptOf.throw, Except.ok.injEq, reduceCtorEq, false_iff]
          rintro ⟨rfl, rfl, rfl, h'⟩
          exact h h'

private theorem mapM_id {α β : Type} (w : α → β) (rd : β → Res α) (h : ∀ a, rd (w a) = .ok a) :
    ∀ l : List α, (l.map w).mapM rd = .ok l
  | [] => rfl
  | a :: l => by
    rw [List.map_cons, List.mapM_cons, h, mapM_id w rd h l]
    rfl

private theorem pp_roundtrip (pp : DkgMemberPublicParams) : (PublicParamsSerde.of pp).read = .ok pp := by
  unfold PublicParamsSerde.read PublicParamsSerde.of
  dsimp only
  rw [mapM_id _ _ C17_points.2.2.2.1, mapM_id _ _ read_write_Fr, C17_points.2.2.2.2.1,
    C17_points.2.2.2.1, C17_points.2.2.2.2.2]
  rfl

/-- C17. Every structure written to a file is read back unchanged: keys whose public part matches
the secret, public parameters, member parameters, global parameters, partial evaluations and
pseudorandoms. -/
theorem C17_roundtrip :
    (∀ k : MemberKey, k.pk = k.sk • gk → (MemberKeySerde.of k).read = .ok k) ∧
    (∀ k : DkgShareKey, k.vk = k.sk • g1 → (ShareKeySerde.of k).read = .ok k) ∧
    (∀ pp : DkgMemberPublicParams, (PublicParamsSerde.of pp).read = .ok pp) ∧
    (∀ mp : DkgMemberParams, (MemberParamsSerde.of mp).read = .ok mp) ∧
    (∀ gp : DkgGlobalPubParams, (GlobalParamsSerde.of gp).read = .ok gp) ∧
    (∀ p : PartialEval, (PartialEvalSerde.of p).read = .ok p) ∧
    (∀ p : PseudoRandom, (PseudoRandomSerde.of p).read = .ok p) := by
  refine ⟨fun k h => ?_, fun k h => ?_, pp_roundtrip, fun mp => ?_, fun gp => ?_, fun p => ?_,
    fun p => ?_⟩
  · exact (C17_key_files.1 _ _).2 ⟨read_write_Fq _, C17_points.2.2.2.2.1 _, h⟩
  · exact (C17_key_files.2 _ _).2 ⟨rfl, read_write_Fr _, C17_points.2.2.2.1 _, h⟩
  · unfold MemberParamsSerde.read MemberParamsSerde.of
    dsimp only
    rw [mapM_id _ _ read_write_Fr, mapM_id _ _ read_write_Fr, read_write_Fr,
      mapM_id _ _ C17_points.2.2.2.2.1, pp_roundtrip]
    rfl
  · unfold GlobalParamsSerde.read GlobalParamsSerde.of
    dsimp only
    rw [mapM_id _ _ C17_points.2.2.2.1, C17_points.2.2.2.1, C17_points.2.2.2.2.2]
    rfl
  · unfold PartialEvalSerde.read PartialEvalSerde.of
    dsimp only
    rw [C17_points.2.2.2.1, read_write_Fr, read_write_Fr]
    rfl
  · unfold PseudoRandomSerde.read PseudoRandomSerde.of
    dsimp only
    rw [C17_points.2.2.2.1]
    rfl

/-- Literals with and without prefix, in either case, are read; an odd number of digits, a stray
character and a non-canonical value are refused. -/
example : readField r "0x0A".toList = .ok 10 ∧ readField r "0a".toList = .ok 10 ∧
    readField r "a".toList = .error .panic ∧ readField r "0X0a".toList = .error .panic ∧
    readField r ("0x" ++ String.ofList (List.replicate 64 'f')).toList = .error .panic := by
  refine ⟨?_, ?_, ?_, ?_, ?_⟩ <;> rfl

/-- A key file with the public key of another secret is refused. -/
example : (MemberKeySerde.of ⟨2, (1 : Fq) • gk⟩).read ≠ .ok ⟨2, (1 : Fq) • gk⟩ := by
  intro h
  have h' := ((C17_key_files.1 _ _).1 h).2.2
  have h2 : ((2 : Fq) - 1) • gk = 0 := by rw [sub_smul, ← h', sub_self]
  rw [show (2 : Fq) - 1 = 1 by norm_num, one_smul] at h2
  cases h2

end Verif.Props
