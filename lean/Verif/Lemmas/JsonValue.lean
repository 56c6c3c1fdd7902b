import Verif.Lemmas.JsonText

/-! Lemmas on JSON values: what is read in a text is read in any longer text; what is printed is read
back. -/

namespace Verif.Json

theorem skip_append {s : List Char} (t : List Char) {c : Char} {rest : List Char} (h : skip s = c :: rest) :
    skip (s ++ t) = c :: (rest ++ t) := by
  unfold skip at h ⊢
  induction s with
  | nil => cases h
  | cons a s ih =>
    by_cases ha : isSpace a
    · rw [List.dropWhile_cons_of_pos ha] at h
      rw [List.cons_append, List.dropWhile_cons_of_pos ha]
      exact ih h
    · rw [List.dropWhile_cons_of_neg ha] at h
      rw [List.cons_append, List.dropWhile_cons_of_neg ha]
      cases h
      rfl

theorem skip_ne_nil {s : List Char} {c : Char} {rest : List Char} (h : skip s = c :: rest) : s ≠ [] := by
  rintro rfl
  cases h

theorem literal_append {lit s : List Char} (t : List Char) {r : List Char} (h : literal lit s = some r) :
    literal lit (s ++ t) = some (r ++ t) := by
  unfold literal at h ⊢
  split at h
  · rename_i hp
    cases h
    rw [List.isPrefixOf_iff_prefix] at hp
    rw [if_pos (by rw [List.isPrefixOf_iff_prefix]; exact hp.trans (List.prefix_append s t)),
      List.drop_append_of_le_length hp.length_le]
  · cases h

/-- Not a number. -/
def Closed (v : Json) : Prop := ∀ t, v ≠ num t

/-- What is read at the start of a text is read at the start of any longer text, with more fuel as
well; a number needs some text after it. -/
theorem value_append : ∀ n : ℕ,
    (∀ d s v r t m, n ≤ m → value n d s = some (v, r) → (r ≠ [] ∨ Closed v) →
      value m d (s ++ t) = some (v, r ++ t)) ∧
    (∀ d s v r t m, n ≤ m → elems n d s = some (v, r) → elems m d (s ++ t) = some (v, r ++ t)) ∧
    (∀ d s v r t m, n ≤ m → members n d s = some (v, r) → members m d (s ++ t) = some (v, r ++ t)) := by
  intro n
  induction n with
  | zero =>
    refine ⟨?_, ?_, ?_⟩
    · intro d s v r t m _ h _; rw [value] at h; cases h
    · intro d s v r t m _ h; rw [elems] at h; cases h
    · intro d s v r t m _ h; rw [members] at h; cases h
  | succ n ih =>
    obtain ⟨ihv, ihe, ihm⟩ := ih
    refine ⟨?_, ?_, ?_⟩
    · intro d s v r t m hm h hc
      obtain ⟨m, rfl⟩ : ∃ m', m = m' + 1 := ⟨m - 1, by omega⟩
      have hm' : n ≤ m := by omega
      rw [value] at h ⊢
      split at h
      · cases h
      · rename_i c rest hs
        rw [skip_append t hs]
        dsimp only
        split at h
        · rename_i h1
          rw [if_pos h1]
          simp only [Option.map_eq_some_iff] at h
          obtain ⟨⟨k, r'⟩, hp, h⟩ := h
          cases h
          rw [parseStr_append _ rest le_rfl t hp]
          rfl
        rename_i h1
        rw [if_neg h1]
        split at h
        · rename_i h2
          rw [if_pos h2]
          split at h
          · cases h
          · rename_i hd
            rw [if_neg hd]
            split at h
            · cases h
            · rename_i c' rest' hs'
              rw [skip_append t hs']
              dsimp only
              split at h
              · rename_i h3
                rw [if_pos h3]
                cases h
                rfl
              · rename_i h3
                rw [if_neg h3]
                simp only [Option.map_eq_some_iff] at h
                obtain ⟨⟨k, r'⟩, hp, h⟩ := h
                cases h
                rw [ihe _ _ _ _ t m hm' hp]
                rfl
        rename_i h2
        rw [if_neg h2]
        split at h
        · rename_i h3
          rw [if_pos h3]
          split at h
          · cases h
          · rename_i hd
            rw [if_neg hd]
            split at h
            · cases h
            · rename_i c' rest' hs'
              rw [skip_append t hs']
              dsimp only
              split at h
              · rename_i h3
                rw [if_pos h3]
                cases h
                rfl
              · rename_i h3
                rw [if_neg h3]
                simp only [Option.map_eq_some_iff] at h
                obtain ⟨⟨k, r'⟩, hp, h⟩ := h
                cases h
                rw [ihm _ _ _ _ t m hm' hp]
                rfl
        rename_i h3
        rw [if_neg h3]
        split at h
        · rename_i h4
          rw [if_pos h4]
          simp only [Option.map_eq_some_iff] at h
          obtain ⟨r', hp, h⟩ := h
          cases h
          rw [← List.cons_append, literal_append t hp]
          rfl
        rename_i h4
        rw [if_neg h4]
        split at h
        · rename_i h5
          rw [if_pos h5]
          simp only [Option.map_eq_some_iff] at h
          obtain ⟨r', hp, h⟩ := h
          cases h
          rw [← List.cons_append, literal_append t hp]
          rfl
        rename_i h5
        rw [if_neg h5]
        split at h
        · rename_i h6
          rw [if_pos h6]
          simp only [Option.map_eq_some_iff] at h
          obtain ⟨r', hp, h⟩ := h
          cases h
          rw [← List.cons_append, literal_append t hp]
          rfl
        rename_i h6
        rw [if_neg h6]
        simp only [Option.map_eq_some_iff] at h
        obtain ⟨⟨k, r'⟩, hp, h⟩ := h
        cases h
        rcases hc with hc | hc
        · rw [← List.cons_append, parseNum_append t hp hc]
          rfl
        · exact absurd rfl (hc k)
    · intro d s v r t m hm h
      obtain ⟨m, rfl⟩ : ∃ m', m = m' + 1 := ⟨m - 1, by omega⟩
      have hm' : n ≤ m := by omega
      rw [elems] at h ⊢
      split at h
      · cases h
      · rename_i v0 r0 hv
        split at h
        · cases h
        · rename_i c rest hs
          rw [ihv _ _ _ _ t m hm' hv (Or.inl (skip_ne_nil hs))]
          dsimp only
          rw [skip_append t hs]
          dsimp only
          split at h
          · rename_i h1
            rw [if_pos h1]
            simp only [Option.map_eq_some_iff] at h
            obtain ⟨⟨k, r'⟩, hp, h⟩ := h
            cases h
            rw [ihe _ _ _ _ t m hm' hp]
            rfl
          · rename_i h1
            rw [if_neg h1]
            split at h
            · rename_i h2
              rw [if_pos h2]
              cases h
              rfl
            · cases h
    · intro d s v r t m hm h
      obtain ⟨m, rfl⟩ : ∃ m', m = m' + 1 := ⟨m - 1, by omega⟩
      have hm' : n ≤ m := by omega
      rw [members] at h ⊢
      split at h
      · cases h
      · rename_i c rest hs
        rw [skip_append t hs]
        dsimp only
        split at h
        · rename_i h1
          rw [if_pos h1]
          split at h
          · cases h
          · rename_i k r0 hk
            rw [parseStr_append _ rest le_rfl t hk]
            dsimp only
            split at h
            · cases h
            · rename_i c' rest' hs'
              rw [skip_append t hs']
              dsimp only
              split at h
              · rename_i h2
                rw [if_pos h2]
                split at h
                · cases h
                · rename_i v0 r1 hv
                  split at h
                  · cases h
                  · rename_i c'' rest'' hs''
                    rw [ihv _ _ _ _ t m hm' hv (Or.inl (skip_ne_nil hs''))]
                    dsimp only
                    rw [skip_append t hs'']
                    dsimp only
                    split at h
                    · rename_i h3
                      rw [if_pos h3]
                      simp only [Option.map_eq_some_iff] at h
                      obtain ⟨⟨k, r'⟩, hp, h⟩ := h
                      cases h
                      rw [ihm _ _ _ _ t m hm' hp]
                      rfl
                    · rename_i h3
                      rw [if_neg h3]
                      split at h
                      · rename_i h4
                        rw [if_pos h4]
                        cases h
                        rfl
                      · cases h
              · cases h
        · cases h

mutual
/-- Numbers are plain digits, and the nesting is below `d`. -/
def Fits : ℕ → Json → Prop
  | _, null => True
  | _, bool _ => True
  | _, num t => NumText t
  | _, str _ => True
  | d, arr l => 1 < d ∧ FitsElems (d - 1) l
  | d, obj l => 1 < d ∧ FitsFields (d - 1) l
/-- All elements. -/
def FitsElems : ℕ → List Json → Prop
  | _, [] => True
  | d, v :: l => Fits d v ∧ FitsElems d l
/-- All fields. -/
def FitsFields : ℕ → List (List Char × Json) → Prop
  | _, [] => True
  | d, (_, v) :: l => Fits d v ∧ FitsFields d l
end

theorem skip_cons {c : Char} (h : isSpace c = false) (s : List Char) : skip (c :: s) = c :: s :=
  List.dropWhile_cons_of_neg (by simp [h])

theorem print_head {d : ℕ} {v : Json} (h : Fits d v) : ∃ c x, print v = c :: x ∧ isSpace c = false ∧
    c ≠ ']' ∧ c ≠ '}' := by
  match v, h with
  | null, _ => exact ⟨_, _, rfl, by decide, by decide, by decide⟩
  | bool true, _ => exact ⟨_, _, rfl, by decide, by decide, by decide⟩
  | bool false, _ => exact ⟨_, _, rfl, by decide, by decide, by decide⟩
  | str s, _ => exact ⟨'"', _, by rw [print, quote], by decide, by decide, by decide⟩
  | arr [], _ => exact ⟨'[', _, by rw [print], by decide, by decide, by decide⟩
  | arr (_ :: _), _ => exact ⟨'[', _, by rw [print], by decide, by decide, by decide⟩
  | obj [], _ => exact ⟨'{', _, by rw [print], by decide, by decide, by decide⟩
  | obj ((_, _) :: _), _ => exact ⟨'{', _, by rw [print], by decide, by decide, by decide⟩
  | num t, h =>
    rw [Fits] at h
    match t, h with
    | c :: t, h =>
      have hc := h.2.1 c (by simp)
      have h2 := hc
      simp only [isDigit, decide_eq_true_eq] at h2
      refine ⟨c, t, by rw [print], (digit_ne hc).2.2.2.2.2.2.2, ?_, ?_⟩
      · rintro rfl; exact absurd h2 (by decide)
      · rintro rfl; exact absurd h2 (by decide)

theorem ends_elems (l : List Json) (rest : List Char) : Ends (printElems l ++ rest) := by
  intro c x h
  match l, h with
  | [], h =>
    rw [printElems] at h
    cases h
    decide
  | _ :: _, h =>
    rw [printElems] at h
    cases h
    decide

theorem ends_fields (l : List (List Char × Json)) (rest : List Char) : Ends (printFields l ++ rest) := by
  intro c x h
  match l, h with
  | [], h =>
    rw [printFields] at h
    cases h
    decide
  | (_, _) :: _, h =>
    rw [printFields] at h
    cases h
    decide

theorem elems_length (l : List Json) : 1 ≤ (printElems l).length := by
  cases l <;> rw [printElems] <;> simp

theorem fields_length (l : List (List Char × Json)) : 1 ≤ (printFields l).length := by
  match l with
  | [] => rw [printFields]; simp
  | (_, _) :: _ => rw [printFields]; simp

mutual
/-- What is printed is read back. -/
theorem value_print : ∀ (v : Json) (d n : ℕ) (rest : List Char), Fits d v → Ends rest →
    2 * (print v).length ≤ n → value n d (print v ++ rest) = some (v, rest)
  | null, d, n, rest, _, _, hn => by
    obtain ⟨n, rfl⟩ : ∃ n', n = n' + 1 := ⟨n - 1, by simp [print] at hn; omega⟩
    rw [print, value]
    simp only [List.cons_append, List.nil_append]
    rw [skip_cons (by decide)]
    dsimp only
    rw [if_neg (by decide), if_neg (by decide), if_neg (by decide), if_pos rfl]
    simp [literal, List.isPrefixOf]
  | bool true, d, n, rest, _, _, hn => by
    obtain ⟨n, rfl⟩ : ∃ n', n = n' + 1 := ⟨n - 1, by simp [print] at hn; omega⟩
    rw [print, value]
    simp only [List.cons_append, List.nil_append]
    rw [skip_cons (by decide)]
    dsimp only
    rw [if_neg (by decide), if_neg (by decide), if_neg (by decide), if_neg (by decide), if_pos rfl]
    simp [literal, List.isPrefixOf]
  | bool false, d, n, rest, _, _, hn => by
    obtain ⟨n, rfl⟩ : ∃ n', n = n' + 1 := ⟨n - 1, by simp [print] at hn; omega⟩
    rw [print, value]
    simp only [List.cons_append, List.nil_append]
    rw [skip_cons (by decide)]
    dsimp only
    rw [if_neg (by decide), if_neg (by decide), if_neg (by decide), if_neg (by decide),
      if_neg (by decide), if_pos rfl]
    simp [literal, List.isPrefixOf]
  | num t, d, n, rest, h, hr, hn => by
    rw [Fits] at h
    have h' := h
    match t, h' with
    | c :: t, h' =>
      obtain ⟨n, rfl⟩ : ∃ n', n = n' + 1 := ⟨n - 1, by simp [print] at hn; omega⟩
      obtain ⟨_, a1, a2, a3, a4, a5, a6, a7⟩ := digit_ne (h'.2.1 c (by simp))
      rw [print, value, List.cons_append, skip_cons a7]
      dsimp only
      rw [if_neg a1, if_neg a2, if_neg a3, if_neg a4, if_neg a5, if_neg a6, ← List.cons_append,
        parseNum_num h hr]
      rfl
  | str s, d, n, rest, _, _, hn => by
    obtain ⟨n, rfl⟩ : ∃ n', n = n' + 1 := ⟨n - 1, by simp [print, quote] at hn; omega⟩
    rw [print, value, quote, List.cons_append, skip_cons (by decide)]
    dsimp only
    rw [if_pos rfl, List.append_assoc, List.singleton_append, parseStr_quote]
    rfl
  | arr [], d, n, rest, h, _, hn => by
    obtain ⟨n, rfl⟩ : ∃ n', n = n' + 1 := ⟨n - 1, by simp [print] at hn; omega⟩
    rw [Fits] at h
    rw [print, value]
    simp only [List.cons_append, List.nil_append]
    rw [skip_cons (by decide)]
    dsimp only
    rw [if_neg (by decide), if_pos rfl, if_neg (by omega), skip_cons (by decide)]
    dsimp only
    rw [if_pos rfl]
  | arr (v :: l), d, n, rest, h, hr, hn => by
    rw [Fits, FitsElems] at h
    obtain ⟨hd, hv, hl⟩ := h
    rw [print] at hn ⊢
    simp only [List.length_cons, List.length_append] at hn
    obtain ⟨n, rfl⟩ : ∃ n', n = n' + 1 := ⟨n - 1, by omega⟩
    have he := elems_print l v (d - 1) n rest (fun n' rest' hr' hn' => value_print v (d - 1) n' rest' hv hr' hn')
      hl (by omega)
    rw [value, List.cons_append, skip_cons (by decide)]
    dsimp only
    rw [if_neg (by decide), if_pos rfl, if_neg (by omega)]
    obtain ⟨c, x, hx, h1, h2, h3⟩ := print_head hv
    rw [hx] at he ⊢
    rw [List.append_assoc] at he ⊢
    simp only [List.cons_append] at he ⊢
    rw [skip_cons h1]
    dsimp only
    rw [if_neg h2, he]
    rfl
  | obj [], d, n, rest, h, _, hn => by
    obtain ⟨n, rfl⟩ : ∃ n', n = n' + 1 := ⟨n - 1, by simp [print] at hn; omega⟩
    rw [Fits] at h
    rw [print, value]
    simp only [List.cons_append, List.nil_append]
    rw [skip_cons (by decide)]
    dsimp only
    rw [if_neg (by decide), if_neg (by decide), if_pos rfl, if_neg (by omega), skip_cons (by decide)]
    dsimp only
    rw [if_pos rfl]
  | obj ((k, v) :: l), d, n, rest, h, hr, hn => by
    rw [Fits, FitsFields] at h
    obtain ⟨hd, hv, hl⟩ := h
    rw [print] at hn ⊢
    simp only [List.length_cons, List.length_append] at hn
    obtain ⟨n, rfl⟩ : ∃ n', n = n' + 1 := ⟨n - 1, by omega⟩
    have he := members_print l k v (d - 1) n rest
      (fun n' rest' hr' hn' => value_print v (d - 1) n' rest' hv hr' hn') hl (by omega)
    rw [value, List.cons_append, skip_cons (by decide)]
    dsimp only
    rw [if_neg (by decide), if_neg (by decide), if_pos rfl, if_neg (by omega)]
    rw [quote] at he ⊢
    simp only [List.append_assoc, List.cons_append] at he ⊢
    rw [skip_cons (by decide)]
    dsimp only
    rw [if_neg (by decide), he]
    rfl
/-- The rest of an array is read back. -/
theorem elems_print : ∀ (l : List Json) (v : Json) (d n : ℕ) (rest : List Char),
    (∀ (n' : ℕ) (rest' : List Char), Ends rest' → 2 * (print v).length ≤ n' →
      value n' d (print v ++ rest') = some (v, rest')) → FitsElems d l →
    2 * ((print v).length + (printElems l).length) + 1 ≤ n →
    elems n d (print v ++ printElems l ++ rest) = some (v :: l, rest)
  | [], v, d, n, rest, hv, _, hn => by
    obtain ⟨n, rfl⟩ : ∃ n', n = n' + 1 := ⟨n - 1, by omega⟩
    rw [List.append_assoc, elems, hv n _ (ends_elems _ _) (by omega)]
    dsimp only
    rw [printElems, List.singleton_append, skip_cons (by decide)]
    dsimp only
    rw [if_neg (by decide), if_pos rfl]
  | w :: l, v, d, n, rest, hv, hl, hn => by
    rw [FitsElems] at hl
    have hlen : (printElems (w :: l)).length = 1 + ((print w).length + (printElems l).length) := by
      rw [printElems]
      simp only [List.length_cons, List.length_append]
      omega
    obtain ⟨n, rfl⟩ : ∃ n', n = n' + 1 := ⟨n - 1, by omega⟩
    rw [List.append_assoc, elems, hv n _ (ends_elems _ _) (by omega)]
    dsimp only
    rw [printElems, List.cons_append, skip_cons (by decide)]
    dsimp only
    rw [if_pos rfl, elems_print l w d n rest
      (fun n' rest' hr' hn' => value_print w d n' rest' hl.1 hr' hn') hl.2 (by omega)]
    rfl
/-- The rest of an object is read back. -/
theorem members_print : ∀ (l : List (List Char × Json)) (k : List Char) (v : Json) (d n : ℕ) (rest : List Char),
    (∀ (n' : ℕ) (rest' : List Char), Ends rest' → 2 * (print v).length ≤ n' →
      value n' d (print v ++ rest') = some (v, rest')) → FitsFields d l →
    2 * ((print v).length + (printFields l).length) + 1 ≤ n →
    members n d (quote k ++ (':' :: (print v ++ printFields l)) ++ rest) = some ((k, v) :: l, rest)
  | [], k, v, d, n, rest, hv, _, hn => by
    obtain ⟨n, rfl⟩ : ∃ n', n = n' + 1 := ⟨n - 1, by omega⟩
    rw [members, quote]
    simp only [List.append_assoc, List.cons_append, List.nil_append]
    rw [skip_cons (by decide)]
    dsimp only
    rw [if_pos rfl, parseStr_quote]
    dsimp only
    rw [skip_cons (by decide)]
    dsimp only
    rw [if_pos rfl, hv n _ (ends_fields _ _) (by omega)]
    dsimp only
    rw [printFields, List.singleton_append, skip_cons (by decide)]
    dsimp only
    rw [if_neg (by decide), if_pos rfl]
  | (k', w) :: l, k, v, d, n, rest, hv, hl, hn => by
    rw [FitsFields] at hl
    have hlen : (printFields ((k', w) :: l)).length = 1 + ((quote k').length + (1 + ((print w).length +
        (printFields l).length))) := by
      rw [printFields]
      simp only [List.length_cons, List.length_append]
      omega
    obtain ⟨n, rfl⟩ : ∃ n', n = n' + 1 := ⟨n - 1, by omega⟩
    rw [members, quote]
    simp only [List.append_assoc, List.cons_append, List.nil_append]
    rw [skip_cons (by decide)]
    dsimp only
    rw [if_pos rfl, parseStr_quote]
    dsimp only
    rw [skip_cons (by decide)]
    dsimp only
    rw [if_pos rfl, hv n _ (ends_fields _ _) (by omega)]
    dsimp only
    rw [printFields, List.cons_append, skip_cons (by decide)]
    dsimp only
    rw [if_pos rfl, members_print l k' w d n rest
      (fun n' rest' hr' hn' => value_print w d n' rest' hl.1 hr' hn') hl.2 (by omega)]
    rfl
end

theorem ends_nil : Ends [] := by
  intro c rest h
  cases h

/-- What is printed is read back. -/
theorem parse_print {v : Json} (h : Fits 128 v) : parse (print v) = some v := by
  have := value_print v 128 (2 * (print v).length + 2) [] h ends_nil (by omega)
  rw [List.append_nil] at this
  unfold parse
  rw [this]
  dsimp only
  rw [if_pos (show skip [] = [] from rfl)]

/-- The text of an array, an object or a string is no number. -/
theorem value_closed {n d : ℕ} {c : Char} {s : List Char} {w : Json} {r : List Char}
    (hc : c = '[' ∨ c = '{' ∨ c = '"') (h : value n d (c :: s) = some (w, r)) : Closed w := by
  match n, h with
  | 0, h => rw [value] at h; cases h
  | n + 1, h =>
    intro t ht
    subst ht
    rcases hc with rfl | rfl | rfl
    · rw [value, skip_cons (by decide)] at h
      dsimp only at h
      rw [if_neg (by decide), if_pos rfl] at h
      split at h
      · cases h
      · split at h
        · cases h
        · split at h
          · cases h
          · simp only [Option.map_eq_some_iff] at h
            obtain ⟨_, _, h⟩ := h
            cases h
    · rw [value, skip_cons (by decide)] at h
      dsimp only at h
      rw [if_neg (by decide), if_neg (by decide), if_pos rfl] at h
      split at h
      · cases h
      · split at h
        · cases h
        · split at h
          · cases h
          · simp only [Option.map_eq_some_iff] at h
            obtain ⟨_, _, h⟩ := h
            cases h
    · rw [value, skip_cons (by decide)] at h
      dsimp only at h
      rw [if_pos rfl] at h
      simp only [Option.map_eq_some_iff] at h
      obtain ⟨_, _, h⟩ := h
      cases h

/-- An array, an object or a string. -/
def Bracketed : Json → Prop
  | str _ => True
  | arr _ => True
  | obj _ => True
  | _ => False

theorem print_bracketed {v : Json} (h : Bracketed v) : ∃ c x, print v = c :: x ∧
    (c = '[' ∨ c = '{' ∨ c = '"') := by
  match v, h with
  | str s, _ => exact ⟨'"', _, by rw [print, quote], by decide⟩
  | arr [], _ => exact ⟨'[', _, by rw [print], by decide⟩
  | arr (_ :: _), _ => exact ⟨'[', _, by rw [print], by decide⟩
  | obj [], _ => exact ⟨'{', _, by rw [print], by decide⟩
  | obj ((_, _) :: _), _ => exact ⟨'{', _, by rw [print], by decide⟩

/-- A text that ends too early is refused: no proper prefix of a printed array, object or string is
JSON. -/
theorem parse_torn {v : Json} (h : Fits 128 v) (hb : Bracketed v) {s t : List Char} (hst : print v = s ++ t)
    (ht : t ≠ []) : parse s = none := by
  match s, hst with
  | [], _ => rfl
  | a :: s, hst =>
    obtain ⟨c, x, hx, hc⟩ := print_bracketed hb
    have hac : a = c := by
      rw [hx, List.cons_append] at hst
      exact (List.cons.inj hst).1.symm
    unfold parse
    split
    · rfl
    · rename_i w r hv
      exfalso
      have h1 := (value_append _).1 128 (a :: s) w r t (2 * (a :: s ++ t).length + 2)
        (by simp only [List.length_append]; omega) hv (Or.inr (value_closed (by rw [hac]; exact hc) hv))
      have h2 := value_print v 128 (2 * (print v).length + 2) [] h ends_nil (by omega)
      rw [List.append_nil, hst, h1] at h2
      exact ht (List.append_eq_nil_iff.1 (Prod.mk.inj (Option.some.inj h2)).2).2

end Verif.Json
