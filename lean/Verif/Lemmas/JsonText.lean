import Verif.Model.Json
import Mathlib.Tactic.IntervalCases

/-! Lemmas on the text of files: UTF-8, JSON strings and numbers. -/

namespace Verif

theorem toNat_ofNat_small {n : ℕ} (h : n < 0xD800) : (Char.ofNat n).toNat = n := by
  have hv : n.isValidChar := Or.inl h
  simp only [Char.ofNat, hv, dif_pos, Char.toNat, Char.ofNatAux]
  rfl

theorem char_valid (c : Char) : c.toNat < 0xD800 ∨ (0xDFFF < c.toNat ∧ c.toNat < 0x110000) := c.valid

theorem contByte_ofNat {x : ℕ} (h : x < 64) : contByte (Fin.ofNat 256 (0x80 + x)) = some x := by
  have : (Fin.ofNat 256 (0x80 + x) : Byte).val = 0x80 + x := by
    rw [Fin.val_ofNat]; exact Nat.mod_eq_of_lt (by omega)
  unfold contByte
  rw [this, if_pos (by omega), Nat.add_sub_cancel_left]

theorem codePoint_char (c : Char) {least : ℕ} (h : least ≤ c.toNat) : codePoint least c.toNat = some c := by
  have := char_valid c
  unfold codePoint
  rw [if_pos (by omega), Char.ofNat_toNat]

theorem ofNat_val {n : ℕ} (h : n < 256) : (Fin.ofNat 256 n : Byte).val = n := by
  simp [Fin.ofNat, Nat.mod_eq_of_lt h]

theorem utf8Decode_char (c : Char) (rest : List Byte) :
    utf8Decode (utf8Char c ++ rest) = (utf8Decode rest).map (c :: ·) := by
  have hc := char_valid c
  unfold utf8Char
  dsimp only
  split
  · rename_i h
    rw [List.singleton_append, utf8Decode.eq_def]
    dsimp only
    rw [if_pos (by rw [ofNat_val (by omega)]; exact h), ofNat_val (by omega), Char.ofNat_toNat]
    cases utf8Decode rest <;> rfl
  · split
    · rename_i h1 h2
      simp only [List.cons_append, List.nil_append]
      rw [utf8Decode.eq_def]
      dsimp only
      rw [ofNat_val (by omega), if_neg (by omega), if_pos (by omega)]
      rw [contByte_ofNat (by omega)]
      have : (0xC0 + c.toNat / 64 - 0xC0) * 64 + c.toNat % 64 = c.toNat := by omega
      simp only [Option.bind_eq_bind, Option.bind_some, this, codePoint_char c (show 0x80 ≤ c.toNat by omega)]
      cases utf8Decode rest <;> rfl
    · split
      · rename_i h1 h2 h3
        simp only [List.cons_append, List.nil_append]
        rw [utf8Decode.eq_def]
        dsimp only
        rw [ofNat_val (by omega), if_neg (by omega), if_neg (by omega), if_pos (by omega)]
        rw [contByte_ofNat (by omega), contByte_ofNat (by omega)]
        have : (0xE0 + c.toNat / 4096 - 0xE0) * 4096 + c.toNat / 64 % 64 * 64 + c.toNat % 64 = c.toNat := by
          omega
        simp only [Option.bind_eq_bind, Option.bind_some, this,
          codePoint_char c (show 0x800 ≤ c.toNat by omega)]
        cases utf8Decode rest <;> rfl
      · rename_i h1 h2 h3
        simp only [List.cons_append, List.nil_append]
        rw [utf8Decode.eq_def]
        dsimp only
        rw [ofNat_val (by omega), if_neg (by omega), if_neg (by omega), if_neg (by omega),
          if_pos (by omega)]
        rw [contByte_ofNat (by omega), contByte_ofNat (by omega), contByte_ofNat (by omega)]
        have : (0xF0 + c.toNat / 262144 - 0xF0) * 262144 + c.toNat / 4096 % 64 * 4096 +
            c.toNat / 64 % 64 * 64 + c.toNat % 64 = c.toNat := by omega
        simp only [Option.bind_eq_bind, Option.bind_some, this,
          codePoint_char c (show 0x10000 ≤ c.toNat by omega)]
        cases utf8Decode rest <;> rfl

/-- What is written is read back. -/
theorem utf8Decode_utf8 (s : List Char) : utf8Decode (utf8 s) = some s := by
  induction s with
  | nil => rfl
  | cons c s ih =>
    have : utf8 (c :: s) = utf8Char c ++ utf8 s := rfl
    rw [this, utf8Decode_char, ih]
    rfl

/-- Decoding goes from left to right. -/
theorem utf8Decode_append : ∀ (p : List Byte) {s : List Char} (t : List Byte), utf8Decode p = some s →
    utf8Decode (p ++ t) = (utf8Decode t).map (s ++ ·)
  | [], s, t, h => by
    rw [utf8Decode.eq_def] at h
    cases h
    simp
  | a :: rest, s, t, h => by
    rw [List.cons_append, utf8Decode.eq_def]
    rw [utf8Decode.eq_def] at h
    dsimp only at h ⊢
    split at h
    · rename_i ha
      rw [if_pos ha]
      simp only [Option.bind_eq_bind, Option.bind_eq_some_iff] at h ⊢
      obtain ⟨s', hs, hh⟩ := h
      cases hh
      rw [utf8Decode_append rest t hs]
      cases utf8Decode t <;> rfl
    · rename_i ha
      rw [if_neg ha]
      split at h
      · rename_i hb
        rw [if_pos hb]
        match rest, h with
        | [], h => cases h
        | b :: rest, h =>
          dsimp only [List.cons_append] at h ⊢
          simp only [Option.bind_eq_bind, Option.bind_eq_some_iff] at h ⊢
          obtain ⟨x, hx, c, hc, s', hs, hh⟩ := h
          cases hh
          rw [hx, Option.bind_some, hc, Option.bind_some, utf8Decode_append rest t hs]
          cases utf8Decode t <;> rfl
      · rename_i hb
        rw [if_neg hb]
        split at h
        · rename_i hb
          rw [if_pos hb]
          match rest, h with
          | [], h => cases h
          | [_], h => cases h
          | b :: b' :: rest, h =>
            dsimp only [List.cons_append] at h ⊢
            simp only [Option.bind_eq_bind, Option.bind_eq_some_iff] at h ⊢
            obtain ⟨x, hx, y, hy, c, hc, s', hs, hh⟩ := h
            cases hh
            rw [hx, Option.bind_some, hy, Option.bind_some, hc, Option.bind_some, utf8Decode_append rest t hs]
            cases utf8Decode t <;> rfl
        · rename_i hb
          rw [if_neg hb]
          split at h
          · rename_i hb
            rw [if_pos hb]
            match rest, h with
            | [], h => cases h
            | [_], h => cases h
            | [_, _], h => cases h
            | b :: b' :: b'' :: rest, h =>
              dsimp only [List.cons_append] at h ⊢
              simp only [Option.bind_eq_bind, Option.bind_eq_some_iff] at h ⊢
              obtain ⟨x, hx, y, hy, z, hz, c, hc, s', hs, hh⟩ := h
              cases hh
              rw [hx, Option.bind_some, hy, Option.bind_some, hz, Option.bind_some, hc, Option.bind_some,
                utf8Decode_append rest t hs]
              cases utf8Decode t <;> rfl
          · cases h

namespace Json

theorem hexVal_hexDigit {n : ℕ} (h : n < 16) : hexVal (hexDigit n) = some n := by
  interval_cases n <;> rfl

theorem hexVal_zero : hexVal '0' = some 0 := rfl

/-- One character of a string is read back. -/
theorem parseStr_escape (c : Char) (rest : List Char) :
    parseStr (escape c ++ rest) = (parseStr rest).map (fun p => (c :: p.1, p.2)) := by
  have key : ∀ (e : Char), e ≠ 'u' → unescape e = some c →
      parseStr ('\\' :: e :: rest) = (parseStr rest).map (fun p => (c :: p.1, p.2)) := by
    intro e he hu
    rw [parseStr.eq_def]
    dsimp only
    rw [if_neg (by decide), if_pos rfl]
    rw [if_neg he, hu]
    cases parseStr rest <;> rfl
  have hof : ∀ {n : ℕ}, c.toNat = n → Char.ofNat n = c := by
    intro n h
    rw [← h, Char.ofNat_toNat]
  unfold escape
  split
  · rename_i h; subst h; exact key _ (by decide) rfl
  split
  · rename_i h; subst h; exact key _ (by decide) rfl
  split
  · rename_i h; exact key _ (by decide) (by rw [← hof h]; rfl)
  split
  · rename_i h; exact key _ (by decide) (by rw [← hof h]; rfl)
  split
  · rename_i h; exact key _ (by decide) (by rw [← hof h]; rfl)
  split
  · rename_i h; exact key _ (by decide) (by rw [← hof h]; rfl)
  split
  · rename_i h; exact key _ (by decide) (by rw [← hof h]; rfl)
  split
  · rename_i h1 h2 h3 h4 h5 h6 h7 h
    simp only [List.cons_append, List.nil_append]
    rw [parseStr.eq_def]
    dsimp only
    rw [if_neg (by decide), if_pos rfl]
    rw [if_pos rfl]
    have : hex4 '0' '0' (hexDigit (c.toNat / 16)) (hexDigit (c.toNat % 16)) = some c.toNat := by
      unfold hex4
      rw [hexVal_zero, hexVal_hexDigit (by omega), hexVal_hexDigit (by omega)]
      simp only [Option.bind_eq_bind, Option.bind_some, Option.pure_def, Option.some.injEq]
      omega
    rw [this]
    simp only [Option.bind_eq_bind, Option.bind_some]
    rw [if_neg (by omega), if_neg (by omega), Char.ofNat_toNat]
    cases parseStr rest <;> rfl
  · rename_i h1 h2 h3 h4 h5 h6 h7 h
    rw [List.singleton_append, parseStr.eq_def]
    dsimp only
    rw [if_neg h1, if_neg h2, if_neg h]
    cases parseStr rest <;> rfl

theorem parseStr_quote (s rest : List Char) : parseStr (s.flatMap escape ++ '"' :: rest) = some (s, rest) := by
  induction s with
  | nil =>
    rw [List.flatMap_nil, List.nil_append, parseStr.eq_def]
    dsimp only
    rw [if_pos rfl]
  | cons c s ih =>
    rw [List.flatMap_cons, List.append_assoc, parseStr_escape, ih]
    rfl

/-- A string that is read is read in any longer text. -/
theorem parseStr_append : ∀ (n : ℕ) (s : List Char), s.length ≤ n → ∀ {k r : List Char} (t : List Char),
    parseStr s = some (k, r) → parseStr (s ++ t) = some (k, r ++ t)
  | n, [], _, k, r, t, h => by rw [parseStr.eq_def] at h; cases h
  | 0, _ :: _, hn, _, _, _, _ => by simp at hn
  | n + 1, ch :: rest, hn, k, r, t, h => by
    have hn' : rest.length ≤ n := by simpa using hn
    rw [List.cons_append, parseStr.eq_def]
    rw [parseStr.eq_def] at h
    dsimp only at h ⊢
    split at h
    · rename_i h1
      rw [if_pos h1]
      cases h
      rfl
    · rename_i h1
      rw [if_neg h1]
      split at h
      · rename_i h2
        rw [if_pos h2]
        match rest, hn', h with
        | [], _, h => cases h
        | e :: rest, hn', h =>
          dsimp only [List.cons_append] at h ⊢
          split at h
          · rename_i h3
            rw [if_pos h3]
            match rest, hn', h with
            | [], _, h => cases h
            | [_], _, h => cases h
            | [_, _], _, h => cases h
            | [_, _, _], _, h => cases h
            | a :: b :: c :: d :: rest, hn', h =>
              dsimp only [List.cons_append] at h ⊢
              simp only [Option.bind_eq_bind, Option.bind_eq_some_iff] at h
              obtain ⟨m, hm, h⟩ := h
              rw [hm]
              simp only [Option.bind_eq_bind, Option.bind_some]
              split at h
              · rename_i h4
                rw [if_pos h4]
                match rest, hn', h with
                | [], _, h => cases h
                | [_], _, h => cases h
                | [_, _], _, h => cases h
                | [_, _, _], _, h => cases h
                | [_, _, _, _], _, h => cases h
                | [_, _, _, _, _], _, h => cases h
                | bs :: u :: a' :: b' :: c' :: d' :: rest, hn', h =>
                  dsimp only [List.cons_append] at h ⊢
                  split at h
                  · rename_i h5
                    rw [if_pos h5]
                    simp only [Option.bind_eq_some_iff] at h
                    obtain ⟨m', hm', h⟩ := h
                    rw [hm']
                    simp only [Option.bind_some]
                    split at h
                    · rename_i h6
                      rw [if_pos h6]
                      simp only [Option.bind_eq_some_iff] at h
                      obtain ⟨s', hs, h⟩ := h
                      cases h
                      rw [parseStr_append n rest (by simp at hn'; omega) t (k := s'.1) (r := s'.2) hs]
                      rfl
                    · cases h
                  · cases h
              · rename_i h4
                rw [if_neg h4]
                split at h
                · cases h
                · rename_i h5
                  rw [if_neg h5]
                  simp only [Option.bind_eq_some_iff] at h
                  obtain ⟨s', hs, h⟩ := h
                  cases h
                  rw [parseStr_append n rest (by simp at hn'; omega) t (k := s'.1) (r := s'.2) hs]
                  rfl
          · rename_i h3
            rw [if_neg h3]
            simp only [Option.bind_eq_bind, Option.bind_eq_some_iff] at h
            obtain ⟨c, hc, s', hs, h⟩ := h
            cases h
            rw [hc]
            simp only [Option.bind_eq_bind, Option.bind_some]
            rw [parseStr_append n rest (by simp at hn'; omega) t (k := s'.1) (r := s'.2) hs]
            rfl
      · rename_i h2
        rw [if_neg h2]
        split at h
        · cases h
        · rename_i h3
          rw [if_neg h3]
          simp only [Option.bind_eq_bind, Option.bind_eq_some_iff] at h
          obtain ⟨s', hs, h⟩ := h
          cases h
          rw [parseStr_append n rest hn' t (k := s'.1) (r := s'.2) hs]
          rfl

/-! Numbers -/

theorem digits_append {s : List Char} (t : List Char) (h : (digits s).2 ≠ []) :
    digits (s ++ t) = ((digits s).1, (digits s).2 ++ t) := by
  unfold digits at h ⊢
  dsimp only at h ⊢
  induction s with
  | nil => simp at h
  | cons c s ih =>
    by_cases hc : isDigit c
    · rw [List.dropWhile_cons_of_pos hc] at h
      rw [List.cons_append, List.takeWhile_cons_of_pos hc, List.dropWhile_cons_of_pos hc,
        List.takeWhile_cons_of_pos hc, List.dropWhile_cons_of_pos hc]
      have := ih h
      rw [Prod.mk.injEq] at this ⊢
      exact ⟨by rw [this.1], this.2⟩
    · rw [List.cons_append, List.takeWhile_cons_of_neg hc, List.dropWhile_cons_of_neg hc,
        List.takeWhile_cons_of_neg hc, List.dropWhile_cons_of_neg hc]
      rfl

theorem digits_nil {s : List Char} (h : s = []) : (digits s).2 = [] := by subst h; rfl

theorem parseSign_append {s : List Char} (t : List Char) (h : (parseSign s).2 ≠ []) :
    parseSign (s ++ t) = ((parseSign s).1, (parseSign s).2 ++ t) := by
  match s, h with
  | [], h => exact absurd rfl h
  | c :: rest, _ =>
    dsimp only [List.cons_append, parseSign]
    split <;> rfl

theorem parseExpSign_append {s : List Char} (t : List Char) (h : (parseExpSign s).2 ≠ []) :
    parseExpSign (s ++ t) = ((parseExpSign s).1, (parseExpSign s).2 ++ t) := by
  match s, h with
  | [], h => exact absurd rfl h
  | c :: rest, _ =>
    dsimp only [List.cons_append, parseExpSign]
    split <;> rfl

theorem parseFrac_append {s : List Char} (t : List Char) {f r : List Char} (h : parseFrac s = some (f, r))
    (hr : r ≠ []) : parseFrac (s ++ t) = some (f, r ++ t) := by
  match s, h with
  | [], h =>
    dsimp only [parseFrac] at h
    cases h
    exact absurd rfl hr
  | c :: rest, h =>
    dsimp only [List.cons_append, parseFrac] at h ⊢
    split at h
    · rename_i h1
      rw [if_pos h1]
      split at h
      · cases h
      · rename_i h2
        cases h
        rw [digits_append t hr]
        dsimp only
        rw [if_neg h2]
    · rename_i h1
      rw [if_neg h1]
      cases h
      rfl

theorem parseExp_append {s : List Char} (t : List Char) {f r : List Char} (h : parseExp s = some (f, r))
    (hr : r ≠ []) : parseExp (s ++ t) = some (f, r ++ t) := by
  match s, h with
  | [], h =>
    dsimp only [parseExp] at h
    cases h
    exact absurd rfl hr
  | c :: rest, h =>
    dsimp only [List.cons_append, parseExp] at h ⊢
    split at h
    · rename_i h1
      rw [if_pos h1]
      split at h
      · cases h
      · rename_i h2
        cases h
        have hg : (parseExpSign rest).2 ≠ [] := fun e => hr (digits_nil e)
        rw [parseExpSign_append t hg]
        dsimp only
        rw [digits_append t hr]
        dsimp only
        rw [if_neg h2]
    · rename_i h1
      rw [if_neg h1]
      cases h
      rfl

theorem parseNum_append {s : List Char} (t : List Char) {f r : List Char} (h : parseNum s = some (f, r))
    (hr : r ≠ []) : parseNum (s ++ t) = some (f, r ++ t) := by
  unfold parseNum at h ⊢
  dsimp only at h ⊢
  split at h
  · cases h
  · rename_i h1
    simp only [Option.bind_eq_bind, Option.bind_eq_some_iff] at h
    obtain ⟨⟨f1, r1⟩, hf, ⟨e1, r2⟩, he, h⟩ := h
    cases h
    have hr1 : r1 ≠ [] := by
      rintro rfl
      dsimp only [parseExp] at he
      cases he
      exact hr rfl
    have hr0 : (digits (parseSign s).2).2 ≠ [] := by
      intro e
      rw [e] at hf
      dsimp only [parseFrac] at hf
      cases hf
      exact hr1 rfl
    have hg : (parseSign s).2 ≠ [] := fun e => hr0 (digits_nil e)
    rw [parseSign_append t hg]
    dsimp only
    rw [digits_append t hr0]
    dsimp only
    rw [if_neg h1, parseFrac_append t hf hr1]
    simp only [Option.bind_eq_bind, Option.bind_some]
    rw [parseExp_append t he hr]
    rfl

/-- A character that cannot continue a number. -/
def Ends (s : List Char) : Prop := ∀ c rest, s = c :: rest →
  isDigit c = false ∧ c ≠ '.' ∧ c ≠ 'e' ∧ c ≠ 'E'

/-- A sequence of digits without a leading zero. -/
def NumText (t : List Char) : Prop := t ≠ [] ∧ (∀ c ∈ t, isDigit c = true) ∧ (t.head? = some '0' → t = ['0'])

theorem digits_num {t : List Char} (h : ∀ c ∈ t, isDigit c = true) {rest : List Char} (hr : Ends rest) :
    digits (t ++ rest) = (t, rest) := by
  unfold digits
  have h1 : rest.takeWhile isDigit = [] ∧ rest.dropWhile isDigit = rest := by
    match rest, hr with
    | [], _ => exact ⟨rfl, rfl⟩
    | c :: rest, hr =>
      have := (hr c rest rfl).1
      exact ⟨List.takeWhile_cons_of_neg (by simp [this]), List.dropWhile_cons_of_neg (by simp [this])⟩
  rw [List.takeWhile_append_of_pos h, List.dropWhile_append_of_pos h, h1.1, h1.2, List.append_nil]

theorem digit_ne {c : Char} (h : isDigit c = true) : c ≠ '-' ∧ c ≠ '"' ∧ c ≠ '[' ∧ c ≠ '{' ∧ c ≠ 'n' ∧
    c ≠ 't' ∧ c ≠ 'f' ∧ isSpace c = false := by
  simp only [isDigit, decide_eq_true_eq] at h
  refine ⟨?_, ?_, ?_, ?_, ?_, ?_, ?_, ?_⟩
  any_goals (rintro rfl; exact absurd h (by decide))
  unfold isSpace
  by_contra hc
  simp only [Bool.not_eq_false, Bool.or_eq_true, decide_eq_true_eq] at hc
  rcases hc with ((rfl | rfl) | rfl) | rfl <;> exact absurd h (by decide)

theorem parseNum_num {t : List Char} (ht : NumText t) {rest : List Char} (hr : Ends rest) :
    parseNum (t ++ rest) = some (t, rest) := by
  obtain ⟨h0, hd, hz⟩ := ht
  have hs : parseSign (t ++ rest) = ([], t ++ rest) := by
    match t, h0, hd with
    | c :: t, _, hd =>
      dsimp only [List.cons_append, parseSign]
      rw [if_neg (digit_ne (hd c (by simp))).1]
  unfold parseNum
  rw [hs]
  dsimp only
  rw [digits_num hd hr]
  dsimp only
  rw [if_neg (by
    rintro (h | ⟨h, h'⟩)
    · exact h0 h
    · exact h' (hz h))]
  have hf : parseFrac rest = some ([], rest) := by
    match rest, hr with
    | [], _ => rfl
    | c :: rest, hr =>
      dsimp only [parseFrac]
      rw [if_neg (hr c rest rfl).2.1]
  have he : parseExp rest = some ([], rest) := by
    match rest, hr with
    | [], _ => rfl
    | c :: rest, hr =>
      dsimp only [parseExp]
      rw [if_neg (by
        rintro (h | h)
        · exact (hr c rest rfl).2.2.1 h
        · exact (hr c rest rfl).2.2.2 h)]
  rw [hf]
  simp only [Option.bind_eq_bind, Option.bind_some]
  rw [he]
  simp

end Json

end Verif
