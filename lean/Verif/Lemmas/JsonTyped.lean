import Verif.Lemmas.JsonValue
import Verif.Lemmas.ZkdvrfMono

/-! The typed values written to files are read back. -/

namespace Verif

theorem decimalText_step {n : ℕ} (h : ¬ n < 10) :
    decimalText n = decimalText (n / 10) ++ [Char.ofNat (48 + n % 10)] := by
  have hd := Nat.mod_lt n (show 10 > 0 by norm_num)
  unfold decimalText
  rw [decimal.eq_def n, if_neg h, List.map_append, List.map_singleton, ofNat_val (by omega)]

theorem decimalText_small {n : ℕ} (h : n < 10) : decimalText n = [Char.ofNat (48 + n)] := by
  unfold decimalText
  rw [decimal.eq_def n, if_pos h, List.map_singleton, ofNat_val (by omega)]

theorem decimalText_ne_nil (n : ℕ) : decimalText n ≠ [] := by
  unfold decimalText
  rw [Ne, List.map_eq_nil_iff]
  exact Zkdvrf.decimal_ne_nil n

theorem isDigit_ofNat {a : ℕ} (h : a < 10) : Json.isDigit (Char.ofNat (48 + a)) = true := by
  simp only [Json.isDigit, decide_eq_true_eq]
  rw [toNat_ofNat_small (by omega)]
  omega

theorem decimalText_digits (n : ℕ) : ∀ c ∈ decimalText n, Json.isDigit c = true := by
  induction n using Nat.strong_induction_on with
  | _ n ih =>
    by_cases h : n < 10
    · rw [decimalText_small h]
      intro c hc
      rw [List.mem_singleton] at hc
      rw [hc]
      exact isDigit_ofNat h
    · rw [decimalText_step h]
      intro c hc
      rcases List.mem_append.1 hc with hc | hc
      · exact ih _ (by omega) c hc
      · rw [List.mem_singleton] at hc
        rw [hc]
        exact isDigit_ofNat (Nat.mod_lt _ (by norm_num))

theorem ofDigits_decimalText (n : ℕ) : ofDigits (decimalText n) = n := by
  induction n using Nat.strong_induction_on with
  | _ n ih =>
    by_cases h : n < 10
    · rw [decimalText_small h]
      unfold ofDigits
      rw [List.foldl_cons, List.foldl_nil, toNat_ofNat_small (by omega)]
      omega
    · have hm := Nat.mod_lt n (show 10 > 0 by norm_num)
      have := ih (n / 10) (by omega)
      unfold ofDigits at this
      rw [decimalText_step h]
      unfold ofDigits
      rw [List.foldl_append, this, List.foldl_cons, List.foldl_nil, toNat_ofNat_small (by omega)]
      omega

theorem decimalText_inj {n k : ℕ} (h : decimalText n = decimalText k) : n = k := by
  rw [← ofDigits_decimalText n, h, ofDigits_decimalText]

theorem decimalText_zero {n : ℕ} (h : (decimalText n).head? = some '0') : n = 0 := by
  induction n using Nat.strong_induction_on with
  | _ n ih =>
    by_cases hn : n < 10
    · rw [decimalText_small hn] at h
      have h1 := congrArg Char.toNat (Option.some.inj (show some (Char.ofNat (48 + n)) = some '0' from h))
      rw [toNat_ofNat_small (by omega)] at h1
      have h2 : ('0' : Char).toNat = 48 := rfl
      omega
    · rw [decimalText_step hn, List.head?_append_of_ne_nil _ (decimalText_ne_nil _)] at h
      have := ih (n / 10) (by omega) h
      omega

theorem numText_decimal (n : ℕ) : Json.NumText (decimalText n) := by
  refine ⟨decimalText_ne_nil n, decimalText_digits n, fun h => ?_⟩
  rw [decimalText_zero h]
  exact decimalText_small (by norm_num)

namespace Serde
open Json

/-- The value is read back from its JSON, which nests less than `k` deep. -/
def Good {α : Type} [Serde α] (k : ℕ) (a : α) : Prop := dec (enc a) = some a ∧ Fits k (enc a)

theorem decNat_decimal {b n : ℕ} (h : n < b) : decNat b (num (decimalText n)) = some n := by
  unfold decNat
  dsimp only
  rw [ofDigits_decimalText, if_pos]
  exact ⟨decimalText_ne_nil n, List.all_eq_true.2 (decimalText_digits n), h⟩

theorem good_nat {n : ℕ} (h : n < 2 ^ 64) (k : ℕ) : Good k n :=
  ⟨decNat_decimal h, by
    show Fits k (num (decimalText n))
    rw [Fits]
    exact numText_decimal n⟩

theorem good_byte (b : Byte) (k : ℕ) : Good k b := by
  refine ⟨?_, ?_⟩
  · show (decNat 256 (num (decimalText b.val))).map (Fin.ofNat 256) = some b
    rw [decNat_decimal b.isLt]
    show some (Fin.ofNat 256 b.val) = some b
    congr 1
    exact Fin.ext (Nat.mod_eq_of_lt b.isLt)
  · show Fits k (num (decimalText b.val))
    rw [Fits]
    exact numText_decimal _

theorem good_str (s : List Char) (k : ℕ) : Good k s := ⟨rfl, by
  show Fits k (Json.str s)
  rw [Fits]; trivial⟩

theorem good_list {α : Type} [Serde α] {k : ℕ} (hk : 1 ≤ k) {l : List α} (h : ∀ a ∈ l, Good k a) :
    Good (k + 1) l := by
  have hf : FitsElems k (l.map enc) ∧ (l.map (enc : α → Json)).mapM (dec : Json → Option α) = some l := by
    induction l with
    | nil => exact ⟨by rw [List.map_nil, FitsElems]; trivial, rfl⟩
    | cons a l ih =>
      obtain ⟨h1, h2⟩ := ih (fun b hb => h b (List.mem_cons_of_mem _ hb))
      have ha := h a (by simp)
      refine ⟨by rw [List.map_cons, FitsElems]; exact ⟨ha.2, h1⟩, ?_⟩
      rw [List.map_cons, List.mapM_cons, ha.1, h2]
      rfl
  refine ⟨hf.2, ?_⟩
  show Fits (k + 1) (arr (l.map enc))
  rw [Fits]
  exact ⟨by omega, hf.1⟩

theorem good_strs (l : List (List Char)) {k : ℕ} (hk : 1 ≤ k) : Good (k + 1) l :=
  good_list hk (fun s _ => good_str s k)

theorem fits_struct {k : ℕ} (hk : 1 ≤ k) {l : List (String × Json)} (h : ∀ f ∈ l, Fits k f.2) :
    Fits (k + 1) (encStruct l) := by
  unfold encStruct
  rw [Fits]
  refine ⟨by omega, ?_⟩
  induction l with
  | nil => rw [List.map_nil, FitsFields]; trivial
  | cons a l ih =>
    rw [List.map_cons, FitsFields]
    exact ⟨h a (by simp), ih (fun f hf => h f (List.mem_cons_of_mem _ hf))⟩

theorem point_dec (a b : Json) : decStruct ["x", "y"] (encStruct [("x", a), ("y", b)]) = some [a, b] := by
  simp [decStruct, encStruct, List.find?, List.filter]

theorem good_point (p : PointSerde) (k : ℕ) : Good (k + 2) p := by
  refine ⟨?_, fits_struct (by omega) ?_⟩
  · show (do
      match ← decStruct ["x", "y"] (encStruct [("x", enc p.x), ("y", enc p.y)]) with
      | [x, y] => return (⟨← dec x, ← dec y⟩ : PointSerde)
      | _ => none) = some p
    rw [point_dec]
    rfl
  · intro f hf
    simp only [List.mem_cons, List.not_mem_nil, or_false] at hf
    rcases hf with rfl | rfl <;> exact (good_str _ _).2

theorem good_point2 (p : Point2Serde) (k : ℕ) : Good (k + 3) p := by
  refine ⟨?_, fits_struct (by omega) ?_⟩
  · show (do
      match ← decStruct ["x", "y"] (encStruct [("x", arr [enc p.x0, enc p.x1]), ("y", arr [enc p.y0, enc p.y1])]) with
      | [x, y] => do
        let a ← decPair x
        let b ← decPair y
        return (⟨a.1, a.2, b.1, b.2⟩ : Point2Serde)
      | _ => none) = some p
    rw [point_dec]
    rfl
  · intro f hf
    simp only [List.mem_cons, List.not_mem_nil, or_false] at hf
    rcases hf with rfl | rfl <;>
    · rw [Fits, FitsElems, FitsElems, FitsElems]
      exact ⟨by omega, (good_str _ _).2, (good_str _ _).2, trivial⟩

theorem good_member (p : MemberKeySerde) (k : ℕ) : Good (k + 3) p := by
  refine ⟨?_, fits_struct (by omega) ?_⟩
  · have h : decStruct ["sk", "pk"] (encStruct [("sk", enc p.sk), ("pk", enc p.pk)]) = some [enc p.sk, enc p.pk] := by
      simp [decStruct, encStruct, List.find?, List.filter]
    show (do
      match ← decStruct ["sk", "pk"] (encStruct [("sk", enc p.sk), ("pk", enc p.pk)]) with
      | [sk, pk] => return (⟨← dec sk, ← dec pk⟩ : MemberKeySerde)
      | _ => none) = some p
    rw [h]
    simp only [Option.bind_eq_bind, Option.bind_some]
    rw [(good_str p.sk 0).1, (good_point p.pk 0).1]
    rfl
  · intro f hf
    simp only [List.mem_cons, List.not_mem_nil, or_false] at hf
    rcases hf with rfl | rfl
    · exact (good_str _ _).2
    · exact (good_point _ k).2

theorem good_points (l : List PointSerde) (k : ℕ) : Good (k + 3) l :=
  good_list (by omega) (fun p _ => good_point p k)

theorem good_pp (p : PublicParamsSerde) (k : ℕ) : Good (k + 4) p := by
  refine ⟨?_, fits_struct (by omega) ?_⟩
  · have h : ∀ a b c d e : Json, decStruct ["public_shares", "ciphers", "gr", "ga", "g2a"]
        (encStruct [("public_shares", a), ("ciphers", b), ("gr", c), ("ga", d), ("g2a", e)]) =
          some [a, b, c, d, e] := by
      intro a b c d e
      simp [decStruct, encStruct, List.find?, List.filter]
    show (do
      match ← decStruct ["public_shares", "ciphers", "gr", "ga", "g2a"]
        (encStruct [("public_shares", enc p.publicShares), ("ciphers", enc p.ciphers), ("gr", enc p.gr),
          ("ga", enc p.ga), ("g2a", enc p.g2a)]) with
      | [a, b, c, d, e] => return (⟨← dec a, ← dec b, ← dec c, ← dec d, ← dec e⟩ : PublicParamsSerde)
      | _ => none) = some p
    rw [h]
    simp only [Option.bind_eq_bind, Option.bind_some]
    rw [(good_points p.publicShares 0).1, (good_strs p.ciphers (k := 1) (by omega)).1,
      (good_point p.gr 0).1, (good_point p.ga 0).1, (good_point2 p.g2a 0).1]
    rfl
  · intro f hf
    simp only [List.mem_cons, List.not_mem_nil, or_false] at hf
    rcases hf with rfl | rfl | rfl | rfl | rfl
    · exact (good_points _ k).2
    · exact (good_strs _ (k := k + 2) (by omega)).2
    · exact (good_point _ (k + 1)).2
    · exact (good_point _ (k + 1)).2
    · exact (good_point2 _ k).2

theorem good_config {p : DkgConfig} (h1 : p.threshold < 2 ^ 64) (h2 : p.numberOfMembers < 2 ^ 64) (k : ℕ) :
    Good (k + 2) p := by
  refine ⟨?_, fits_struct (by omega) ?_⟩
  · have h : ∀ a b : Json, decStruct ["threshold", "number_of_members"]
        (encStruct [("threshold", a), ("number_of_members", b)]) = some [a, b] := by
      intro a b
      simp [decStruct, encStruct, List.find?, List.filter]
    show (do
      match ← decStruct ["threshold", "number_of_members"]
        (encStruct [("threshold", enc p.threshold), ("number_of_members", enc p.numberOfMembers)]) with
      | [a, b] => return (⟨← dec a, ← dec b⟩ : DkgConfig)
      | _ => none) = some p
    rw [h]
    simp only [Option.bind_eq_bind, Option.bind_some]
    rw [(good_nat h1 0).1, (good_nat h2 0).1]
    rfl
  · intro f hf
    simp only [List.mem_cons, List.not_mem_nil, or_false] at hf
    rcases hf with rfl | rfl
    · exact (good_nat h1 _).2
    · exact (good_nat h2 _).2

theorem good_params {p : MemberParamsSerde} (h1 : p.cfg.threshold < 2 ^ 64)
    (h2 : p.cfg.numberOfMembers < 2 ^ 64) (k : ℕ) : Good (k + 5) p := by
  refine ⟨?_, fits_struct (by omega) ?_⟩
  · have h : ∀ a b c d e f : Json, decStruct ["dkg_config", "coeffs", "shares", "r", "public_keys", "public_params"]
        (encStruct [("dkg_config", a), ("coeffs", b), ("shares", c), ("r", d), ("public_keys", e),
          ("public_params", f)]) = some [a, b, c, d, e, f] := by
      intro a b c d e f
      simp [decStruct, encStruct, List.find?, List.filter]
    show (do
      match ← decStruct ["dkg_config", "coeffs", "shares", "r", "public_keys", "public_params"]
        (encStruct [("dkg_config", enc p.cfg), ("coeffs", enc p.coeffs), ("shares", enc p.shares),
    ("r", enc p.rnd), ("public_keys", enc p.publicKeys), ("public_params", enc p.publicParams)]) with
      | [a, b, c, d, e, f] =>
        return (⟨← dec a, ← dec b, ← dec c, ← dec d, ← dec e, ← dec f⟩ : MemberParamsSerde)
      | _ => none) = some p
    rw [h]
    simp only [Option.bind_eq_bind, Option.bind_some]
    rw [(good_config h1 h2 0).1, (good_strs p.coeffs (k := 1) (by omega)).1,
      (good_strs p.shares (k := 1) (by omega)).1, (good_str p.rnd 0).1,
      (good_points p.publicKeys 0).1, (good_pp p.publicParams 0).1]
    rfl
  · intro f hf
    simp only [List.mem_cons, List.not_mem_nil, or_false] at hf
    rcases hf with rfl | rfl | rfl | rfl | rfl | rfl
    · exact (good_config h1 h2 (k + 2)).2
    · exact (good_strs _ (k := k + 3) (by omega)).2
    · exact (good_strs _ (k := k + 3) (by omega)).2
    · exact (good_str _ _).2
    · exact (good_points _ (k + 1)).2
    · exact (good_pp _ k).2

theorem good_gpp (p : GlobalParamsSerde) (k : ℕ) : Good (k + 4) p := by
  refine ⟨?_, fits_struct (by omega) ?_⟩
  · have h : ∀ a b c : Json, decStruct ["ga", "g2a", "verify_keys"]
        (encStruct [("ga", a), ("g2a", b), ("verify_keys", c)]) = some [a, b, c] := by
      intro a b c
      simp [decStruct, encStruct, List.find?, List.filter]
    show (do
      match ← decStruct ["ga", "g2a", "verify_keys"]
        (encStruct [("ga", enc p.ga), ("g2a", enc p.g2a), ("verify_keys", enc p.verifyKeys)]) with
      | [a, b, c] => return (⟨← dec a, ← dec b, ← dec c⟩ : GlobalParamsSerde)
      | _ => none) = some p
    rw [h]
    simp only [Option.bind_eq_bind, Option.bind_some]
    rw [(good_point p.ga 0).1, (good_point2 p.g2a 0).1, (good_points p.verifyKeys 0).1]
    rfl
  · intro f hf
    simp only [List.mem_cons, List.not_mem_nil, or_false] at hf
    rcases hf with rfl | rfl | rfl
    · exact (good_point _ (k + 1)).2
    · exact (good_point2 _ k).2
    · exact (good_points _ k).2

theorem good_share {p : ShareKeySerde} (hi : p.index < 2 ^ 64) (k : ℕ) : Good (k + 3) p := by
  refine ⟨?_, fits_struct (by omega) ?_⟩
  · have h : ∀ a b c : Json, decStruct ["index", "sk", "vk"]
        (encStruct [("index", a), ("sk", b), ("vk", c)]) = some [a, b, c] := by
      intro a b c
      simp [decStruct, encStruct, List.find?, List.filter]
    show (do
      match ← decStruct ["index", "sk", "vk"]
        (encStruct [("index", enc p.index), ("sk", enc p.sk), ("vk", enc p.vk)]) with
      | [a, b, c] => return (⟨← dec a, ← dec b, ← dec c⟩ : ShareKeySerde)
      | _ => none) = some p
    rw [h]
    simp only [Option.bind_eq_bind, Option.bind_some]
    rw [(good_nat hi 0).1, (good_str p.sk 0).1, (good_point p.vk 0).1]
    rfl
  · intro f hf
    simp only [List.mem_cons, List.not_mem_nil, or_false] at hf
    rcases hf with rfl | rfl | rfl
    · exact (good_nat hi _).2
    · exact (good_str _ _).2
    · exact (good_point _ k).2

theorem good_eval {p : PartialEvalSerde} (hi : p.index < 2 ^ 64) (k : ℕ) : Good (k + 3) p := by
  refine ⟨?_, fits_struct (by omega) ?_⟩
  · have h : ∀ a b c : Json, decStruct ["index", "value", "proof"]
        (encStruct [("index", a), ("value", b), ("proof", c)]) = some [a, b, c] := by
      intro a b c
      simp [decStruct, encStruct, List.find?, List.filter]
    have h2 : ∀ a b : Json, decStruct ["z", "c"] (encStruct [("z", a), ("c", b)]) = some [a, b] := by
      intro a b
      simp [decStruct, encStruct, List.find?, List.filter]
    show (do
      match ← decStruct ["index", "value", "proof"]
        (encStruct [("index", enc p.index), ("value", enc p.value),
          ("proof", encStruct [("z", enc p.z), ("c", enc p.c)])]) with
      | [a, b, q] => do
        match ← decStruct ["z", "c"] q with
        | [z, c] => return (⟨← dec a, ← dec b, ← dec z, ← dec c⟩ : PartialEvalSerde)
        | _ => none
      | _ => none) = some p
    rw [h]
    simp only [Option.bind_eq_bind, Option.bind_some]
    rw [h2]
    simp only [Option.bind_some]
    rw [(good_nat hi 0).1, (good_point p.value 0).1, (good_str p.z 0).1, (good_str p.c 0).1]
    rfl
  · intro f hf
    simp only [List.mem_cons, List.not_mem_nil, or_false] at hf
    rcases hf with rfl | rfl | rfl
    · exact (good_nat hi _).2
    · exact (good_point _ k).2
    · refine fits_struct (by omega) ?_
      intro f hf
      simp only [List.mem_cons, List.not_mem_nil, or_false] at hf
      rcases hf with rfl | rfl <;> exact (good_str _ _).2

theorem good_pseudo (p : PseudoRandomSerde) (k : ℕ) : Good (k + 3) p := by
  refine ⟨?_, fits_struct (by omega) ?_⟩
  · have h : ∀ a b : Json, decStruct ["proof", "value"] (encStruct [("proof", a), ("value", b)]) = some [a, b] := by
      intro a b
      simp [decStruct, encStruct, List.find?, List.filter]
    show (do
      match ← decStruct ["proof", "value"] (encStruct [("proof", enc p.proof), ("value", enc p.value)]) with
      | [a, b] => return (⟨← dec a, ← dec b⟩ : PseudoRandomSerde)
      | _ => none) = some p
    rw [h]
    simp only [Option.bind_eq_bind, Option.bind_some]
    rw [(good_point p.proof 0).1, (good_list (k := 1) le_rfl (fun b _ => good_byte b 1)).1]
    rfl
  · intro f hf
    simp only [List.mem_cons, List.not_mem_nil, or_false] at hf
    rcases hf with rfl | rfl
    · exact (good_point _ k).2
    · exact (good_list (k := k + 1) (by omega) (fun b _ => good_byte b _)).2

/-- A good value is read back from its file. -/
theorem ofFile_toFile {α : Type} [Serde α] {a : α} (h : Good 128 a) : ofFile (toFile a) = some a := by
  unfold ofFile toFile
  rw [utf8Decode_utf8]
  simp only [Option.bind_eq_bind, Option.bind_some]
  rw [parse_print h.2]
  exact h.1

/-- A file that ends too early is refused, whatever type is expected. -/
theorem ofFile_torn {α β : Type} [Serde α] [Serde β] {a : α} (h : Good 128 a) (hb : Bracketed (enc a))
    {p t : List Byte} (hp : toFile a = p ++ t) (ht : t ≠ []) : (ofFile p : Option β) = none := by
  unfold ofFile
  cases hd : utf8Decode p with
  | none => rfl
  | some s =>
    simp only [Option.bind_eq_bind, Option.bind_some]
    have h1 := utf8Decode_append p t hd
    rw [← hp] at h1
    unfold toFile at h1
    rw [utf8Decode_utf8] at h1
    obtain ⟨s', hs', he⟩ := Option.map_eq_some_iff.1 h1.symm
    have hne : s' ≠ [] := by
      rintro rfl
      have : t = [] := by
        match t, hs' with
        | [], _ => rfl
        | b :: t, hs' =>
          exfalso
          rw [utf8Decode.eq_def] at hs'
          dsimp only at hs'
          split at hs'
          · simp only [Option.bind_eq_bind, Option.bind_eq_some_iff] at hs'
            obtain ⟨_, _, h⟩ := hs'
            cases h
          · split at hs'
            · split at hs'
              · simp only [Option.bind_eq_bind, Option.bind_eq_some_iff] at hs'
                obtain ⟨_, _, _, _, _, _, h⟩ := hs'
                cases h
              · cases hs'
            · split at hs'
              · split at hs'
                · simp only [Option.bind_eq_bind, Option.bind_eq_some_iff] at hs'
                  obtain ⟨_, _, _, _, _, _, _, _, h⟩ := hs'
                  cases h
                · cases hs'
              · split at hs'
                · split at hs'
                  · simp only [Option.bind_eq_bind, Option.bind_eq_some_iff] at hs'
                    obtain ⟨_, _, _, _, _, _, _, _, _, _, h⟩ := hs'
                    cases h
                  · cases hs'
                · cases hs'
      exact ht this
    rw [parse_torn h.2 hb he.symm hne]
    rfl

end Serde

end Verif
