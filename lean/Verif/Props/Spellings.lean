import Verif.Lemmas.CommandLine

/-! C93: the ways to write the options of the client. -/

namespace Verif.Props
open ClientFiles CommandLine

private theorem mock_eq (args : List (List Char)) : parseArgs ("mock".toList :: args) =
    (scan mockOpts ⟨[], []⟩ none args).bind (fun f => match f.positional with
      | [] => some (.commands ((if (f.value 'm').isSome then [.mockMembers] else []) ++
          (if (f.value 'd').isSome then [.mockDkg] else []) ++
          ((f.value 'r').map (fun v => Command.mockRandom (utf8 v))).toList))
      | _ => none) := by
  rw [parseArgs.eq_def]
  dsimp only
  rw [if_neg (by decide), if_neg (by decide), if_pos rfl]
  rfl

private theorem setup_eq (args : List (List Char)) : parseArgs ("setup".toList :: args) =
    (scan setupOpts ⟨[], []⟩ none args).bind (fun f => match f.positional with
      | [] => some (.setup (f.value '1').isSome (f.value '2').isSome)
      | _ => none) := by
  rw [parseArgs.eq_def]
  dsimp only
  rw [if_neg (by decide), if_pos rfl]
  rfl

private theorem keygen_eq (args : List (List Char)) : parseArgs ("keygen".toList :: args) =
    (scan fileOpts ⟨[], []⟩ none args).bind (fun f => match f.positional with
      | [] => some (.commands [.keygen ((f.value 'f').getD "member".toList)])
      | _ => none) := by
  rw [parseArgs.eq_def]
  dsimp only
  rw [if_pos rfl]
  rfl

private theorem combine_eq (args : List (List Char)) : parseArgs ("rand".toList :: "combine".toList :: args) =
    (scan skipOpts ⟨[], []⟩ none args).bind (fun f => match f.positional with
      | [x] => some (.commands [.combine (utf8 x) (f.value 's').isSome])
      | _ => none) := by
  rw [parseArgs, if_neg (by decide), if_neg (by decide), if_neg (by decide)]
  rw [if_neg (by decide), if_pos rfl, if_neg (by decide), if_neg (by decide), if_pos rfl]
  rfl

private theorem long_value (s : Opts) (f : Found) (ws : List (List Char)) {w : List Char} {r : Found × Option Char}
    (h : longOption s f w = some r) (hw : w ≠ []) : scan s f none (('-' :: '-' :: w) :: ws) = scan s r.1 r.2 ws := by
  rw [scan.eq_def]
  dsimp only
  rw [if_neg (by intro e; exact hw (List.cons.inj (List.cons.inj e).2).2),
    if_pos (show ('-' :: '-' :: w).take 2 = ['-', '-'] from rfl)]
  show (longOption s f w).bind _ = _
  rw [h]
  rfl

private theorem short_value (s : Opts) (f : Found) (ws : List (List Char)) {c : Char} {w : List Char} {r : Found × Option Char}
    (hc : c ≠ '-') (h : cluster s f (c :: w) = some r) : scan s f none (('-' :: c :: w) :: ws) = scan s r.1 r.2 ws := by
  rw [scan.eq_def]
  dsimp only
  rw [if_neg (by intro e; exact hc (List.cons.inj (List.cons.inj e).2).1),
    if_neg (by intro e; exact hc (List.cons.inj (List.cons.inj e).2).1), if_pos ⟨rfl, by intro e; cases e⟩]
  show (cluster s f (c :: w)).bind _ = _
  rw [h]
  rfl

private theorem next_value (s : Opts) (f : Found) (ws : List (List Char)) {c : Char} {w : List Char} {g : Found}
    (hw : w.head? ≠ some '-') (h : f.add c w = some g) : scan s f (some c) (w :: ws) = scan s g none ws := by
  rw [scan.eq_def]
  dsimp only
  rw [if_neg (fun e => hw e.1), h]
  rfl

private theorem scan_end (s : Opts) (f : Found) : scan s f none [] = some f := by
  rw [scan.eq_def]
  rfl

private theorem cluster_rest {s : Opts} {f : Found} {c : Char} {w : List Char} {g : Found} (hf : c ∉ s.flags) (hv : c ∈ s.valued)
    (h : w ≠ []) (h' : w.head? ≠ some '=') (hg : f.add c w = some g) : cluster s f (c :: w) = some (g, none) := by
  rw [cluster.eq_def]
  dsimp only
  rw [if_neg hf, if_pos hv]
  cases w with
  | nil => exact absurd rfl h
  | cons a w =>
    have ha : a ≠ '=' := fun e => h' (by rw [e]; rfl)
    split
    · cases ‹_›
    · rename_i heq
      exact absurd (List.cons.inj heq).1 ha
    · rw [hg]; rfl

private theorem skip_positional (v : List Char) (h : v.head? ≠ some '-') (s : Opts) (f : Found) (ws : List (List Char)) :
    scan s f none (v :: ws) = scan s { f with positional := f.positional ++ [v] } none ws := 
  scan_positional _ _ (fun e => absurd e h) _

/-- C93. An option can be written in several ways that mean the same: with its value in the next word or after an equals sign, or,
for a letter, in the same word; flags of `mock` in one word or in several, in any order; options before or after the input. -/
theorem C93_spellings (v : List Char) :
    (∀ w ∈ ["--rand=".toList, "-r=".toList],
      parseArgs ["mock".toList, w ++ v] = some (.commands [.mockRandom (utf8 v)])) ∧
    parseArgs ["keygen".toList, "-f=".toList ++ v] = some (.commands [.keygen v]) ∧
    (v.head? ≠ some '-' →
      (∀ w ∈ ["--rand".toList, "-r".toList], parseArgs ["mock".toList, w, v] = some (.commands [.mockRandom (utf8 v)])) ∧
      parseArgs ["keygen".toList, "-f".toList, v] = some (.commands [.keygen v]) ∧
      ∀ w ∈ ["-s".toList, "--skip".toList],
        parseArgs ["rand".toList, "combine".toList, w, v] = some (.commands [.combine (utf8 v) true]) ∧
        parseArgs ["rand".toList, "combine".toList, v, w] = some (.commands [.combine (utf8 v) true])) ∧
    (v ≠ [] → v.head? ≠ some '=' →
      parseArgs ["mock".toList, "-r".toList ++ v] = some (.commands [.mockRandom (utf8 v)]) ∧
      parseArgs ["mock".toList, "-dmr".toList ++ v] = some (.commands [.mockMembers, .mockDkg, .mockRandom (utf8 v)]) ∧
      parseArgs ["keygen".toList, "-f".toList ++ v] = some (.commands [.keygen v])) ∧
    (∀ ws ∈ [["-md".toList], ["-dm".toList], ["-m".toList, "-d".toList], ["-d".toList, "-m".toList],
        ["--mem".toList, "--dkg".toList], ["--dkg".toList, "-m".toList]],
      parseArgs ("mock".toList :: ws) = some (.commands [.mockMembers, .mockDkg])) ∧
    (∀ ws ∈ [["--skip".toList, "--split".toList], ["--split".toList, "--skip".toList]],
      parseArgs ("setup".toList :: ws) = some (.setup true true)) ∧
    parseArgs ["setup".toList] = some (.setup false false) ∧
    parseArgs ["setup".toList, "--skip".toList] = some (.setup true false) ∧
    parseArgs ["setup".toList, "--split".toList] = some (.setup false true) := by
  refine ⟨?_, ?_, fun h => ⟨?_, ?_, ?_⟩, fun h1 h2 => ⟨?_, ?_, ?_⟩, ?_, ?_, ?_, ?_, ?_⟩
  · intro w hw
    simp only [List.mem_cons, List.not_mem_nil, or_false] at hw
    rcases hw with rfl | rfl <;> rw [mock_eq]
    · rw [show "--rand=".toList ++ v = '-' :: '-' :: ('r' :: 'a' :: 'n' :: 'd' :: '=' :: v) from rfl,
        long_value mockOpts _ [] (r := (⟨[], [('r', v)]⟩, none)) rfl (List.cons_ne_nil _ _), scan_end]
      rfl
    · rw [show "-r=".toList ++ v = '-' :: 'r' :: '=' :: v from rfl,
        short_value mockOpts _ [] (r := (⟨[], [('r', v)]⟩, none)) (by decide) rfl, scan_end]
      rfl
  · rw [keygen_eq, show "-f=".toList ++ v = '-' :: 'f' :: '=' :: v from rfl,
      short_value fileOpts _ [] (r := (⟨[], [('f', v)]⟩, none)) (by decide) rfl, scan_end]
    rfl
  · intro w hw
    simp only [List.mem_cons, List.not_mem_nil, or_false] at hw
    rcases hw with rfl | rfl <;> rw [mock_eq]
    · rw [show "--rand".toList = '-' :: '-' :: ['r', 'a', 'n', 'd'] from rfl,
        long_value mockOpts _ [v] (r := (⟨[], []⟩, some 'r')) rfl (List.cons_ne_nil _ _),
        next_value mockOpts _ [] (g := ⟨[], [('r', v)]⟩) h rfl, scan_end]
      rfl
    · rw [show "-r".toList = ['-', 'r'] from rfl,
        short_value mockOpts _ [v] (r := (⟨[], []⟩, some 'r')) (by decide) rfl,
        next_value mockOpts _ [] (g := ⟨[], [('r', v)]⟩) h rfl, scan_end]
      rfl
  · rw [keygen_eq, show "-f".toList = ['-', 'f'] from rfl,
      short_value fileOpts _ [v] (r := (⟨[], []⟩, some 'f')) (by decide) rfl,
      next_value fileOpts _ [] (g := ⟨[], [('f', v)]⟩) h rfl, scan_end]
    rfl
  · intro w hw
    have hs : ∀ (f : Found) (ws : List (List Char)), f.options = [] →
        scan skipOpts f none (w :: ws) = scan skipOpts ⟨f.positional, [('s', [])]⟩ none ws := by
      intro f ws hf
      obtain ⟨p, o⟩ := f
      cases hf
      simp only [List.mem_cons, List.not_mem_nil, or_false] at hw
      rcases hw with rfl | rfl
      · rw [show "-s".toList = ['-', 's'] from rfl, short_value skipOpts _ ws (r := (⟨p, [('s', [])]⟩, none)) (by decide) rfl]
      · rw [show "--skip".toList = '-' :: '-' :: ['s', 'k', 'i', 'p'] from rfl,
          long_value skipOpts _ ws (r := (⟨p, [('s', [])]⟩, none)) rfl (List.cons_ne_nil _ _)]
    refine ⟨?_, ?_⟩
    · rw [combine_eq, hs _ _ rfl, skip_positional v h, scan_end]
      rfl
    · rw [combine_eq, skip_positional v h, hs _ _ rfl, scan_end]
      rfl
  · rw [mock_eq, show "-r".toList ++ v = '-' :: 'r' :: v from rfl,
      short_value mockOpts _ [] (by decide)
        (cluster_rest (g := ⟨[], [('r', v)]⟩) (by decide) (by decide) h1 h2 rfl), scan_end]
    rfl
  · have hc : cluster mockOpts ⟨[], []⟩ ('d' :: 'm' :: 'r' :: v) = some (⟨[], [('r', v), ('m', []), ('d', [])]⟩, none) := by
      show cluster mockOpts ⟨[], [('m', []), ('d', [])]⟩ ('r' :: v) = _
      exact cluster_rest (by decide) (by decide) h1 h2 rfl
    rw [mock_eq, show "-dmr".toList ++ v = '-' :: 'd' :: 'm' :: 'r' :: v from rfl,
      short_value mockOpts _ [] (by decide) hc, scan_end]
    rfl
  · rw [keygen_eq, show "-f".toList ++ v = '-' :: 'f' :: v from rfl,
      short_value fileOpts _ [] (by decide)
        (cluster_rest (g := ⟨[], [('f', v)]⟩) (by decide) (by decide) h1 h2 rfl), scan_end]
    rfl
  · intro ws hw
    simp only [List.mem_cons, List.not_mem_nil, or_false] at hw
    rcases hw with rfl | rfl | rfl | rfl | rfl | rfl <;> rfl
  · intro ws hw
    simp only [List.mem_cons, List.not_mem_nil, or_false] at hw
    rcases hw with rfl | rfl <;> rfl
  · rfl
  · rfl
  · rfl

/-- C93. An input with an equals sign in it, after an equals sign or glued to its letter. -/
example : ∀ w ∈ ["--rand=a=b".toList, "-r=a=b".toList, "-ra=b".toList],
    parseArgs ["mock".toList, w] = some (.commands [.mockRandom (utf8 "a=b".toList)]) := by
  intro w hw
  simp only [List.mem_cons, List.not_mem_nil, or_false] at hw
  rcases hw with rfl | rfl | rfl
  · exact (C93_spellings "a=b".toList).1 _ (List.mem_cons_self ..)
  · exact (C93_spellings "a=b".toList).1 _ (List.mem_cons_of_mem _ (List.mem_cons_self ..))
  · exact ((C93_spellings "a=b".toList).2.2.2.1 (by decide) (by decide)).1

end Verif.Props
