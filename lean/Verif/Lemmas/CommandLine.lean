import Verif.Lemmas.ServicesFiles
import Verif.Spec.CommandLine
import Verif.Props.Config

/-! The shell and the argument parser on the texts built by the services. -/

namespace Verif.CommandLine
open Config ClientFiles Disk Disk.Prog

/-- Characters read outside and inside quotes. -/
def unq (s : List Char) : Word := s.map (fun c => (c, false))
def quo (s : List Char) : Word := s.map (fun c => (c, true))

theorem plain_ne {c : Char} (h : plainChar c = true) : c ≠ ' ' ∧ c ≠ '"' := by
  constructor
  · rintro rfl
    revert h
    decide
  · rintro rfl
    revert h
    decide

theorem lex_plain (rest : List Char) : ∀ (w : List Char) (u : Word), (∀ c ∈ w, plainChar c = true) →
    lex false (some u) (w ++ rest) = lex false (some (u ++ unq w)) rest
  | [], u, _ => by rw [List.nil_append]; unfold unq; rw [List.map_nil, List.append_nil]
  | c :: w, u, h => by
    have hc := h c (List.mem_cons_self ..)
    obtain ⟨h1, h2⟩ := plain_ne hc
    rw [List.cons_append]
    show (if (false : Bool) = true then _ else if c = ' ' then _ else if c = '"' then _ else if plainChar c = true
      then lex false (some (u ++ [(c, false)])) (w ++ rest) else none) = _
    rw [if_neg Bool.false_ne_true, if_neg h1, if_neg h2, if_pos hc,
      lex_plain rest w _ (fun d hd => h d (List.mem_cons_of_mem _ hd))]
    unfold unq
    rw [List.map_cons, List.append_assoc]
    rfl

theorem lex_start {w : List Char} (hw : w ≠ []) (h : ∀ c ∈ w, plainChar c = true) (rest : List Char) :
    lex false none (w ++ rest) = lex false (some (unq w)) rest := by
  cases w with
  | nil => exact absurd rfl hw
  | cons c w =>
    have hc := h c (List.mem_cons_self ..)
    obtain ⟨h1, h2⟩ := plain_ne hc
    rw [List.cons_append]
    show (if (false : Bool) = true then _ else if c = ' ' then _ else if c = '"' then _ else if plainChar c = true
      then lex false (some ([] ++ [(c, false)])) (w ++ rest) else none) = _
    rw [if_neg Bool.false_ne_true, if_neg h1, if_neg h2, if_pos hc,
      lex_plain rest w _ (fun d hd => h d (List.mem_cons_of_mem _ hd))]
    rfl

theorem lex_word {w : List Char} (hw : w ≠ []) (h : ∀ c ∈ w, plainChar c = true) (rest : List Char) :
    lex false none (w ++ ' ' :: rest) = (lex false none rest).map (unq w :: ·) := by
  rw [lex_start hw h]
  rfl

theorem lex_last {w : List Char} (hw : w ≠ []) (h : ∀ c ∈ w, plainChar c = true) :
    lex false none w = some [unq w] := by
  have := lex_start hw h []
  rw [List.append_nil] at this
  rw [this]
  rfl

theorem lex_inside : ∀ (w : List Char) (u : Word), (∀ c ∈ w, safeChar c = true) →
    lex true (some u) (w ++ ['"']) = some [u ++ quo w]
  | [], u, _ => by unfold quo; rw [List.map_nil, List.append_nil]; rfl
  | c :: w, u, h => by
    have hc := h c (List.mem_cons_self ..)
    unfold safeChar at hc
    simp only [ne_eq, decide_not, Bool.and_eq_true, Bool.not_eq_eq_eq_not, Bool.not_true,
      decide_eq_false_iff_not] at hc
    obtain ⟨⟨⟨h1, h2⟩, h3⟩, h4⟩ := hc
    rw [List.cons_append]
    show (if (true : Bool) = true then if c = '"' then _ else if c = '$' ∨ c = '`' ∨ c = '\\' then none
      else lex true (some (u ++ [(c, true)])) (w ++ ['"']) else _) = _
    rw [if_pos rfl, if_neg h1, if_neg (by rintro (h | h | h) <;> contradiction),
      lex_inside w _ (fun d hd => h d (List.mem_cons_of_mem _ hd))]
    unfold quo
    rw [List.map_cons, List.append_assoc]
    rfl

theorem lex_quoted {w : List Char} (h : ∀ c ∈ w, safeChar c = true) :
    lex false none ('"' :: (w ++ ['"'])) = some [quo w] := by
  show lex true (some []) (w ++ ['"']) = _
  rw [lex_inside w [] h]
  rfl

/-- A text: plain words with spaces after them, and then the rest. -/
def spaced : List (List Char) → List Char → List Char
  | [], rest => rest
  | w :: ws, rest => w ++ ' ' :: spaced ws rest

theorem lex_spaced (rest : List Char) : ∀ (ws : List (List Char)),
    (∀ w ∈ ws, w ≠ [] ∧ ∀ c ∈ w, plainChar c = true) →
    lex false none (spaced ws rest) = (lex false none rest).map (ws.map unq ++ ·)
  | [], _ => by
    show lex false none rest = _
    cases lex false none rest <;> rfl
  | w :: ws, h => by
    obtain ⟨h1, h2⟩ := h w (List.mem_cons_self ..)
    show lex false none (w ++ ' ' :: spaced ws rest) = _
    rw [lex_word h1 h2, lex_spaced rest ws (fun v hv => h v (List.mem_cons_of_mem _ hv))]
    cases lex false none rest <;> rfl

theorem alnum_plain {c : Char} (h : c.isAlphanum = true) : plainChar c = true := by
  unfold plainChar
  rw [h]
  rfl

theorem digit_alnum {n : ℕ} (h : n < 10) : (Char.ofNat (48 + n)).isAlphanum = true := by
  have : ∀ n < 10, (Char.ofNat (48 + n)).isAlphanum = true := by decide
  exact this n h

theorem isDigit_alnum {c : Char} (h : Json.isDigit c = true) : c.isAlphanum = true := by
  unfold Json.isDigit at h
  have h := of_decide_eq_true h
  have e : c = Char.ofNat (48 + (c.toNat - 48)) := by
    rw [show 48 + (c.toNat - 48) = c.toNat by omega, Char.ofNat_toNat]
  rw [e]
  exact digit_alnum (by omega)

theorem decimalText_plain (n : ℕ) : ∀ c ∈ decimalText n, plainChar c = true :=
  fun c hc => alnum_plain (isDigit_alnum (decimalText_digits n c hc))

theorem digits_plain (k : ℕ) : ∀ c ∈ ((Nat.digits 10 (k + 1)).reverse).map (fun d => Char.ofNat (48 + d)),
    plainChar c = true := by
  intro c hc
  rw [List.mem_map] at hc
  obtain ⟨d, hd, rfl⟩ := hc
  exact alnum_plain (digit_alnum (Nat.digits_lt_base (by norm_num) (List.mem_reverse.1 hd)))

theorem jsString_plain (x : Option ℤ) : ∀ c ∈ jsString x, plainChar c = true := by
  match x with
  | none => decide
  | some (.ofNat 0) => decide
  | some (.ofNat (k + 1)) => exact digits_plain k
  | some (.negSucc k) =>
    intro c hc
    rcases List.mem_cons.1 hc with rfl | hc
    · rfl
    · exact digits_plain k c hc

theorem plain_append {u w : List Char} (hu : ∀ c ∈ u, plainChar c = true) (hw : ∀ c ∈ w, plainChar c = true) :
    ∀ c ∈ u ++ w, plainChar c = true := by
  intro c hc
  rcases List.mem_append.1 hc with h | h
  · exact hu c h
  · exact hw c h

/-- The words of the prefix. -/
def prefixWords (o : Options) : List (List Char) :=
  ["RUST_LOG=info".toList, "THRESHOLD=".toList ++ jsString o.threshold,
    "NUMBER_OF_MEMBERS=".toList ++ jsString o.numberMembers, "DEGREE=".toList ++ jsString o.degree,
    "/usr/local/bin/client".toList]

theorem prefix_spaced (o : Options) (rest : List Char) :
    cmdPrefix o ++ ' ' :: rest = spaced (prefixWords o) rest := by
  unfold cmdPrefix prefixWords spaced spaced spaced spaced spaced spaced
  have e1 : "RUST_LOG=info THRESHOLD=".toList = "RUST_LOG=info".toList ++ ' ' :: "THRESHOLD=".toList := by decide
  have e2 : " NUMBER_OF_MEMBERS=".toList = ' ' :: "NUMBER_OF_MEMBERS=".toList := by decide
  have e3 : " DEGREE=".toList = ' ' :: "DEGREE=".toList := by decide
  have e4 : " /usr/local/bin/client".toList = ' ' :: "/usr/local/bin/client".toList := by decide
  rw [e1, e2, e3, e4]
  simp only [List.append_assoc, List.cons_append]

theorem plain_ne_nil_append {u : List Char} (w : List Char) (h : u ≠ []) : u ++ w ≠ [] := by
  intro e
  exact h (List.append_eq_nil_iff.1 e).1

theorem prefixWords_plain (o : Options) : ∀ w ∈ prefixWords o, w ≠ [] ∧ ∀ c ∈ w, plainChar c = true := by
  intro w hw
  unfold prefixWords at hw
  simp only [List.mem_cons, List.not_mem_nil, or_false] at hw
  rcases hw with rfl | rfl | rfl | rfl | rfl
  · exact ⟨by decide, by decide⟩
  · exact ⟨plain_ne_nil_append _ (by decide), plain_append (by decide) (jsString_plain _)⟩
  · exact ⟨plain_ne_nil_append _ (by decide), plain_append (by decide) (jsString_plain _)⟩
  · exact ⟨plain_ne_nil_append _ (by decide), plain_append (by decide) (jsString_plain _)⟩
  · exact ⟨by decide, by decide⟩

theorem unq_fst (s : List Char) : (unq s).map (·.1) = s := by
  unfold unq
  rw [List.map_map]
  exact List.map_id _

theorem quo_fst (s : List Char) : (quo s).map (·.1) = s := by
  unfold quo
  rw [List.map_map]
  exact List.map_id _

/-- A name: letters, digits and underscores, not starting with a digit. -/
def goodName (n : List Char) : Bool :=
  n ≠ [] && n.all (fun c => c.isAlphanum || c = '_') && (n.head?.map (fun c => !c.isDigit)).getD false &&
    n.all (fun c => c ≠ '=')

theorem assignment_eq {n : List Char} (hn : goodName n = true) (x : List Char) :
    assignment (unq (n ++ '=' :: x)) = some (n, x) := by
  unfold goodName at hn
  simp only [Bool.and_eq_true, decide_eq_true_eq] at hn
  obtain ⟨⟨⟨h1, h2⟩, h3⟩, h4⟩ := hn
  have e : unq (n ++ '=' :: x) = unq n ++ ('=', false) :: unq x := by
    unfold unq
    rw [List.map_append, List.map_cons]
  have ht : (unq n ++ ('=', false) :: unq x).takeWhile (fun c => decide (c ≠ ('=', false))) = unq n := by
    rw [List.takeWhile_append_of_pos, List.takeWhile_cons]
    · rw [if_neg (by decide), List.append_nil]
    · intro c hc
      unfold unq at hc
      rw [List.mem_map] at hc
      obtain ⟨d, hd, rfl⟩ := hc
      have := List.all_eq_true.1 h4 d hd
      have := of_decide_eq_true this
      rw [decide_eq_true_eq]
      intro e
      exact this (congrArg Prod.fst e)
  unfold assignment
  rw [e]
  dsimp only
  rw [ht, List.drop_left]
  dsimp only
  rw [if_pos, unq_fst, unq_fst]
  refine ⟨?_, ?_, ?_⟩
  · unfold unq
    rw [ne_eq, List.map_eq_nil_iff]
    exact h1
  · unfold unq
    rw [List.all_map]
    exact h2
  · unfold unq
    rw [List.head?_map, Option.map_map]
    exact h3

/-- The environment of a command with the prefix. -/
def prefixVars (o : Options) (v : Vars) : Vars := fun key =>
  if key.toList = "DEGREE".toList then some (jsString o.degree)
  else if key.toList = "NUMBER_OF_MEMBERS".toList then some (jsString o.numberMembers)
  else if key.toList = "THRESHOLD".toList then some (jsString o.threshold)
  else if key.toList = "RUST_LOG".toList then some "info".toList
  else v key

theorem prefixVars_config (o : Options) (v : Vars) : clientConfig (prefixVars o v) = clientConfig (commandVars o v) := by
  have h : ∀ key ∈ ["THRESHOLD", "NUMBER_OF_MEMBERS", "DEGREE"], prefixVars o v key = commandVars o v key := by
    intro key hk
    simp only [List.mem_cons, List.not_mem_nil, or_false] at hk
    rcases hk with rfl | rfl | rfl
    · unfold prefixVars commandVars
      rw [if_neg (by decide), if_neg (by decide), if_pos (by decide), if_pos rfl]
    · unfold prefixVars commandVars
      rw [if_neg (by decide), if_pos (by decide), if_neg (by decide), if_pos rfl]
    · unfold prefixVars commandVars
      rw [if_pos (by decide), if_neg (by decide), if_neg (by decide), if_pos rfl]
  unfold clientConfig readParams varU32
  rw [h _ (by simp), h _ (by simp), h _ (by simp)]

theorem shell_prefix (o : Options) (v : Vars) {rest : List Char} {ws : List Word} (h : lex false none rest = some ws) :
    shell v (cmdPrefix o ++ ' ' :: rest) = some (prefixVars o v, ws.map (fun w => w.map (·.1))) := by
  unfold shell
  rw [prefix_spaced, lex_spaced rest _ (prefixWords_plain o), h]
  have e0 : "RUST_LOG=info".toList = "RUST_LOG".toList ++ '=' :: "info".toList := by decide
  have e1 : ∀ x, "THRESHOLD=".toList ++ x = "THRESHOLD".toList ++ '=' :: x := fun _ => rfl
  have e2 : ∀ x, "NUMBER_OF_MEMBERS=".toList ++ x = "NUMBER_OF_MEMBERS".toList ++ '=' :: x := fun _ => rfl
  have e3 : ∀ x, "DEGREE=".toList ++ x = "DEGREE".toList ++ '=' :: x := fun _ => rfl
  show (match environment v ((prefixWords o).map unq ++ ws) with
    | (env, cmd :: args) => if cmd = "/usr/local/bin/client".toList then some (env, args) else none
    | (_, []) => none) = _
  have he : environment v ((prefixWords o).map unq ++ ws) =
      (prefixVars o v, "/usr/local/bin/client".toList :: ws.map (fun w => w.map (·.1))) := by
    unfold prefixWords
    rw [e0, e1, e2, e3]
    simp only [List.map_cons, List.map_nil, List.cons_append, List.nil_append]
    rw [environment, assignment_eq (by decide)]
    dsimp only
    rw [environment, assignment_eq (by decide)]
    dsimp only
    rw [environment, assignment_eq (by decide)]
    dsimp only
    rw [environment, assignment_eq (by decide)]
    dsimp only
    rw [environment]
    have hn : assignment (unq "/usr/local/bin/client".toList) = none := by decide
    rw [hn]
    dsimp only
    rw [List.map_cons, unq_fst]
    rfl
  rw [he]
  dsimp only
  rw [if_pos rfl]

/-! ### Arguments -/

theorem parseUsize_decimal {n : ℕ} (h : n < 2 ^ 64) : parseUsize (decimalText n) = some n := by
  have hd := decimalText_digits n
  have hh : (decimalText n).head? ≠ some '+' := by
    intro e
    cases hx : decimalText n with
    | nil => rw [hx] at e; cases e
    | cons c l =>
      rw [hx] at e hd
      cases e
      have := hd '+' (List.mem_cons_self ..)
      revert this
      decide
  unfold parseUsize
  dsimp only
  rw [if_neg hh, ofDigits_decimalText, if_pos ⟨decimalText_ne_nil n, List.all_eq_true.2 hd, h⟩]

/-- A word that is not taken for an option. -/
def Word.Positional (w : List Char) : Prop := w.head? = some '-' → w = ['-']

theorem not_option {w : List Char} (h : Word.Positional w) :
    ¬ (w.head? = some '-' ∧ w ≠ ['-']) ∧ w ≠ ['-', '-'] ∧ w.take 2 ≠ ['-', '-'] := by
  unfold Word.Positional at h
  refine ⟨fun ⟨h1, h2⟩ => h2 (h h1), ?_, ?_⟩
  · rintro rfl
    exact absurd (h rfl) (by decide)
  · intro e
    match w, h, e with
    | c :: d :: w, h, e =>
      have h1 : c = '-' := by injection e
      rw [h1] at h
      exact absurd (h rfl) (by simp)

theorem scan_positional (s : Opts) (f : Found) {w : List Char} (h : Word.Positional w) (ws : List (List Char)) :
    scan s f none (w :: ws) = scan s { f with positional := f.positional ++ [w] } none ws := by
  obtain ⟨h1, h2, h3⟩ := not_option h
  rw [scan]
  rw [if_neg h2, if_neg h3, if_neg h1]

theorem scan_f (f : Found) (hf : f.options = []) {w : List Char} (h : Word.Positional w) :
    scan fileOpts f none [['-', 'f'], w] = some { f with options := [('f', w)] } := by
  obtain ⟨h1, -, -⟩ := not_option h
  obtain ⟨p, o⟩ := f
  cases hf
  rw [scan]
  rw [if_neg (by decide), if_neg (by decide), if_pos ⟨rfl, by decide⟩]
  show (cluster fileOpts ⟨p, []⟩ ['f']).bind _ = _
  have : cluster fileOpts ⟨p, []⟩ ['f'] = some (⟨p, []⟩, some 'f') := rfl
  rw [this]
  show scan fileOpts ⟨p, []⟩ (some 'f') [w] = _
  rw [scan]
  rw [if_neg h1]
  rfl

theorem decimal_positional (n : ℕ) : Word.Positional (decimalText n) := by
  intro e
  have hd := decimalText_digits n
  cases hx : decimalText n with
  | nil => rw [hx] at e; cases e
  | cons c l =>
    rw [hx] at e hd
    cases e
    exact absurd (hd '-' (List.mem_cons_self ..)) (by decide)

theorem parse_keygen {f : List Char} (h : Word.Positional f) :
    parseArgs ["keygen".toList, ['-', 'f'], f] = some (.commands [.keygen f]) := by
  rw [parseArgs, if_pos rfl, scan_f _ rfl h]
  rfl

theorem parse_prove {i : ℕ} (h : i < 2 ^ 64) :
    parseArgs ["dkg".toList, "prove".toList, decimalText i] = some (.commands [.prove i]) := by
  rw [parseArgs, if_neg (by decide), if_neg (by decide), if_neg (by decide)]
  rw [if_pos rfl, if_pos rfl, scan_positional _ _ (decimal_positional i)]
  show (parseUsize (decimalText i)).map _ = _
  rw [parseUsize_decimal h]
  rfl

theorem parse_dkgVerify {i : ℕ} (h : i < 2 ^ 64) :
    parseArgs ["dkg".toList, "verify".toList, decimalText i] = some (.commands [.dkgVerify i]) := by
  rw [parseArgs, if_neg (by decide), if_neg (by decide), if_neg (by decide)]
  rw [if_pos rfl, if_neg (by decide), if_pos rfl, scan_positional _ _ (decimal_positional i)]
  show (parseUsize (decimalText i)).map _ = _
  rw [parseUsize_decimal h]
  rfl

theorem parse_derive : parseArgs ["dkg".toList, "derive".toList] = some (.commands [.derive none "member".toList]) := by
  rw [parseArgs, if_neg (by decide), if_neg (by decide), if_neg (by decide)]
  rw [if_pos rfl, if_neg (by decide), if_neg (by decide), if_pos rfl]
  rfl

theorem parse_deriveMember {i : ℕ} (h : i < 2 ^ 64) {f : List Char} (hf : Word.Positional f) :
    parseArgs ["dkg".toList, "derive".toList, decimalText i, ['-', 'f'], f] =
      some (.commands [.derive (some i) f]) := by
  rw [parseArgs, if_neg (by decide), if_neg (by decide), if_neg (by decide)]
  rw [if_pos rfl, if_neg (by decide), if_neg (by decide), if_pos rfl, scan_positional _ _ (decimal_positional i),
    scan_f _ rfl hf]
  show (parseUsize (decimalText i)).map _ = _
  rw [parseUsize_decimal h]
  rfl

theorem parse_eval {i : ℕ} (h : i < 2 ^ 64) {x : List Char} (hx : Word.Positional x) :
    parseArgs ["rand".toList, "eval".toList, decimalText i, x] = some (.commands [.eval i (utf8 x)]) := by
  rw [parseArgs, if_neg (by decide), if_neg (by decide), if_neg (by decide)]
  rw [if_neg (by decide), if_pos rfl, if_pos rfl, scan_positional _ _ (decimal_positional i), scan_positional _ _ hx]
  show (parseUsize (decimalText i)).map _ = _
  rw [parseUsize_decimal h]
  rfl

theorem parse_verifyEval {i : ℕ} (h : i < 2 ^ 64) {x : List Char} (hx : Word.Positional x) :
    parseArgs ["rand".toList, "verify".toList, decimalText i, x] = some (.commands [.verifyEval i (utf8 x)]) := by
  rw [parseArgs, if_neg (by decide), if_neg (by decide), if_neg (by decide)]
  rw [if_neg (by decide), if_pos rfl, if_neg (by decide), if_pos rfl, scan_positional _ _ (decimal_positional i),
    scan_positional _ _ hx]
  show (parseUsize (decimalText i)).map _ = _
  rw [parseUsize_decimal h]
  rfl

theorem parse_combine {x : List Char} (hx : Word.Positional x) :
    parseArgs ["rand".toList, "combine".toList, x] = some (.commands [.combine (utf8 x) false]) := by
  rw [parseArgs, if_neg (by decide), if_neg (by decide), if_neg (by decide)]
  rw [if_neg (by decide), if_pos rfl, if_neg (by decide), if_neg (by decide), if_pos rfl, scan_positional _ _ hx]
  rfl

theorem parse_verifyFinal {x : List Char} (hx : Word.Positional x) :
    parseArgs ["rand".toList, "verify-final".toList, x] = some (.commands [.verifyFinal (utf8 x)]) := by
  rw [parseArgs, if_neg (by decide), if_neg (by decide), if_neg (by decide)]
  rw [if_neg (by decide), if_pos rfl, if_neg (by decide), if_neg (by decide), if_neg (by decide), if_pos rfl,
    scan_positional _ _ hx]
  rfl

/-! ### Lines -/

theorem Runs.of {o : Options} {v : Vars} {line rest : List Char} {ws : List Word} {args : List (List Char)} {c : Command}
    (e : line = cmdPrefix o ++ ' ' :: rest) (h : lex false none rest = some ws) (ha : ws.map (fun w => w.map (·.1)) = args)
    (hp : parseArgs args = some (.commands [c])) : Runs o v line c :=
  ⟨_, _, by rw [e]; exact shell_prefix o v h, by rw [ha]; exact hp, prefixVars_config o v⟩

theorem FileArg.pos {f : List Char} (h : FileArg f) : Word.Positional f := fun e => absurd e h.2.2
theorem InputArg.pos {f : List Char} (h : InputArg f) : Word.Positional f := fun e => absurd e h.2

theorem plain_list {ws : List (List Char)} (h : ws.all (fun w => w ≠ [] && w.all plainChar) = true) :
    ∀ w ∈ ws, w ≠ [] ∧ ∀ c ∈ w, plainChar c = true := by
  intro w hw
  have := List.all_eq_true.1 h w hw
  rw [Bool.and_eq_true, decide_eq_true_eq] at this
  exact ⟨this.1, fun c hc => List.all_eq_true.1 this.2 c hc⟩

theorem runs_keygen (o : Options) (v : Vars) {f : List Char} (h : FileArg f) : Runs o v (keygenLine o f) (.keygen f) := by
  refine Runs.of (rest := spaced ["keygen".toList, ['-', 'f']] f)
    (ws := [unq "keygen".toList, unq ['-', 'f'], unq f]) ?_ ?_ ?_ (parse_keygen h.pos)
  rotate_left
  · rw [lex_spaced _ _ (plain_list (by decide)), lex_last h.1 h.2.1]
    rfl
  · simp only [List.map_cons, List.map_nil, unq_fst]
  · unfold keygenLine
    rw [List.append_assoc]
    rfl

theorem lex_words_decimal {ws : List (List Char)} (h : ws.all (fun w => w ≠ [] && w.all plainChar) = true) (i : ℕ) :
    lex false none (spaced ws (decimalText i)) = some (ws.map unq ++ [unq (decimalText i)]) := by
  rw [lex_spaced _ _ (plain_list h), lex_last (decimalText_ne_nil i) (decimalText_plain i)]
  rfl

theorem runs_prove (o : Options) (v : Vars) {i : ℕ} (h : i < 2 ^ 64) : Runs o v (proveLine o i) (.prove i) := by
  refine Runs.of (rest := spaced ["dkg".toList, "prove".toList] (decimalText i)) ?_ (lex_words_decimal (by decide) i)
    ?_ (parse_prove h)
  · unfold proveLine
    rw [List.append_assoc]
    rfl
  · simp only [List.map_cons, List.map_nil, List.cons_append, List.nil_append, unq_fst]

theorem runs_dkgVerify (o : Options) (v : Vars) {i : ℕ} (h : i < 2 ^ 64) :
    Runs o v (dkgVerifyLine o i) (.dkgVerify i) := by
  refine Runs.of (rest := spaced ["dkg".toList, "verify".toList] (decimalText i)) ?_ (lex_words_decimal (by decide) i)
    ?_ (parse_dkgVerify h)
  · unfold dkgVerifyLine
    rw [List.append_assoc]
    rfl
  · simp only [List.map_cons, List.map_nil, List.cons_append, List.nil_append, unq_fst]

theorem runs_derive (o : Options) (v : Vars) : Runs o v (deriveLine o) (.derive none "member".toList) := by
  refine Runs.of (rest := spaced ["dkg".toList] "derive".toList) (ws := [unq "dkg".toList, unq "derive".toList]) ?_ ?_
    ?_ parse_derive
  · unfold deriveLine
    rfl
  · rw [lex_spaced _ _ (plain_list (by decide)), lex_last (by decide) (by decide)]
    rfl
  · simp only [List.map_cons, List.map_nil, unq_fst]

theorem runs_deriveMember (o : Options) (v : Vars) {i : ℕ} (h : i < 2 ^ 64) {f : List Char} (hf : FileArg f) :
    Runs o v (deriveMemberLine o i f) (.derive (some i) f) := by
  refine Runs.of (rest := spaced ["dkg".toList, "derive".toList, decimalText i, ['-', 'f']] f)
    (ws := [unq "dkg".toList, unq "derive".toList, unq (decimalText i), unq ['-', 'f'], unq f]) ?_ ?_
    ?_ (parse_deriveMember h hf.pos)
  · unfold deriveMemberLine deriveLine
    rw [List.append_assoc, List.append_assoc, List.append_assoc, List.append_assoc]
    rfl
  · rw [lex_spaced, lex_last hf.1 hf.2.1]
    · rfl
    · intro w hw
      simp only [List.mem_cons, List.not_mem_nil, or_false] at hw
      rcases hw with rfl | rfl | rfl | rfl
      · exact ⟨by decide, by decide⟩
      · exact ⟨by decide, by decide⟩
      · exact ⟨decimalText_ne_nil i, decimalText_plain i⟩
      · exact ⟨by decide, by decide⟩
  · simp only [List.map_cons, List.map_nil, unq_fst]

theorem lex_index_quoted {a b : List Char} (h : [a, b].all (fun w => w ≠ [] && w.all plainChar) = true) (i : ℕ)
    {x : List Char} (hx : ∀ c ∈ x, safeChar c = true) :
    lex false none (spaced [a, b, decimalText i] ('"' :: (x ++ ['"']))) =
      some [unq a, unq b, unq (decimalText i), quo x] := by
  rw [lex_spaced, lex_quoted hx]
  · rfl
  · intro w hw
    simp only [List.mem_cons, List.not_mem_nil, or_false] at hw
    rcases hw with rfl | rfl | rfl
    · exact plain_list h _ (by simp)
    · exact plain_list h _ (by simp)
    · exact ⟨decimalText_ne_nil i, decimalText_plain i⟩

theorem runs_eval (o : Options) (v : Vars) {i : ℕ} (h : i < 2 ^ 64) {x : List Char} (hx : InputArg x) :
    Runs o v (evalLine o i x) (.eval i (utf8 x)) := by
  refine Runs.of ?_ (lex_index_quoted (a := "rand".toList) (b := "eval".toList) (by decide) i hx.1) ?_
    (parse_eval h hx.pos)
  · unfold evalLine
    simp only [List.append_assoc]
    rfl
  · simp only [List.map_cons, List.map_nil, unq_fst, quo_fst]

theorem runs_verifyEval (o : Options) (v : Vars) {i : ℕ} (h : i < 2 ^ 64) {x : List Char} (hx : InputArg x) :
    Runs o v (verifyEvalLine o i x) (.verifyEval i (utf8 x)) := by
  refine Runs.of ?_ (lex_index_quoted (a := "rand".toList) (b := "verify".toList) (by decide) i hx.1) ?_
    (parse_verifyEval h hx.pos)
  · unfold verifyEvalLine
    simp only [List.append_assoc]
    rfl
  · simp only [List.map_cons, List.map_nil, unq_fst, quo_fst]

theorem lex_sub_quoted {a b : List Char} (h : [a, b].all (fun w => w ≠ [] && w.all plainChar) = true)
    {x : List Char} (hx : ∀ c ∈ x, safeChar c = true) :
    lex false none (spaced [a, b] ('"' :: (x ++ ['"']))) = some [unq a, unq b, quo x] := by
  rw [lex_spaced _ _ (plain_list h), lex_quoted hx]
  rfl

theorem runs_combine (o : Options) (v : Vars) {x : List Char} (hx : InputArg x) :
    Runs o v (combineLine o x) (.combine (utf8 x) false) := by
  refine Runs.of ?_ (lex_sub_quoted (a := "rand".toList) (b := "combine".toList) (by decide) hx.1) ?_
    (parse_combine hx.pos)
  · unfold combineLine
    simp only [List.append_assoc]
    rfl
  · simp only [List.map_cons, List.map_nil, unq_fst, quo_fst]

theorem runs_verifyFinal (o : Options) (v : Vars) {x : List Char} (hx : InputArg x) :
    Runs o v (verifyFinalLine o x) (.verifyFinal (utf8 x)) := by
  refine Runs.of ?_ (lex_sub_quoted (a := "rand".toList) (b := "verify-final".toList) (by decide) hx.1) ?_
    (parse_verifyFinal hx.pos)
  · unfold verifyFinalLine
    simp only [List.append_assoc]
    rfl
  · simp only [List.map_cons, List.map_nil, unq_fst, quo_fst]

theorem bind_pure_unit : ∀ (P : Prog Unit), P.bind (fun _ => pure ()) = P
  | .done (.ok _) => rfl
  | .done (.error _) => rfl
  | .read n next => congrArg (Prog.read n) (funext (fun b => bind_pure_unit (next b)))
  | .write n bytes next => congrArg (Prog.write n bytes) (bind_pure_unit next)

theorem Runs.exec {o : Options} {v : Vars} {line : List Char} {c : Command} (h : Runs o v line c) {cfg : DkgConfig} {k : ℕ}
    (hc : clientConfig (commandVars o v) = .ok (cfg, k)) (T : Tools) (ρ : Random) :
    execLine T ρ v line = c.prog T cfg ρ := by
  obtain ⟨env, args, h1, h2, h3⟩ := h
  unfold execLine
  rw [h1]
  dsimp only
  unfold clientMain
  rw [h3, hc, h2]
  exact bind_pure_unit _

end Verif.CommandLine
