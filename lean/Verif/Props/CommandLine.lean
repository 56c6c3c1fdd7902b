import Verif.Lemmas.ServicesText
import Verif.Props.ServicesFiles

/-! C93: the command lines of the services, through the shell and the parser of the client. -/

namespace Verif.Props
open Disk Disk.Prog Spec ClientFiles CommandLine
open Config (Options Vars clientConfig commandVars)
open Services (Machine Draw GoodDraw Faithful Fresh)
open ServicesFiles (tools random memberName World sent Fine)
open ServicesText (Start)
open ZkdvrfPre (State Completed)

/-- C93. Every command line of the services runs exactly the command that is meant, with the arguments that
are meant and with the configuration of the options, whatever the environment of the service is. -/
theorem C93_command_lines (o : Options) (v : Vars) (i : ℕ) (hi : i < 2 ^ 64) (f x : List Char) (hf : FileArg f)
    (hx : InputArg x) :
    Runs o v (keygenLine o f) (.keygen f) ∧
    Runs o v (proveLine o i) (.prove i) ∧
    Runs o v (dkgVerifyLine o i) (.dkgVerify i) ∧
    Runs o v (deriveLine o) (.derive none "member".toList) ∧
    Runs o v (deriveMemberLine o i f) (.derive (some i) f) ∧
    Runs o v (evalLine o i x) (.eval i (utf8 x)) ∧
    Runs o v (verifyEvalLine o i x) (.verifyEval i (utf8 x)) ∧
    Runs o v (combineLine o x) (.combine (utf8 x) false) ∧
    Runs o v (verifyFinalLine o x) (.verifyFinal (utf8 x)) :=
  ⟨runs_keygen o v hf, runs_prove o v hi, runs_dkgVerify o v hi, runs_derive o v, runs_deriveMember o v hi hf,
    runs_eval o v hi hx, runs_verifyEval o v hi hx, runs_combine o v hx, runs_verifyFinal o v hx⟩

/-- C93. What such a line does to the data files: with options that are numbers below `2^32` and a possible
threshold, what the command does with that threshold and that number of members; if one of the three
options is anything else, what the command does with 3 of 5. -/
theorem C93_effect (T : Tools) (ρ : ClientFiles.Random) (o : Options) (v : Vars) {line : List Char} {c : Command}
    (h : Runs o v line c) :
    (∀ t n d : ℕ, o.threshold = some (t : ℤ) → o.numberMembers = some (n : ℤ) → o.degree = some (d : ℤ) →
      t < 2 ^ 32 → n < 2 ^ 32 → d < 2 ^ 32 → 0 < t → t ≤ n → execLine T ρ v line = c.prog T ⟨t, n⟩ ρ) ∧
    ((∃ x ∈ [o.threshold, o.numberMembers, o.degree], ∀ k : ℕ, k < 2 ^ 32 → x ≠ some (k : ℤ)) →
      execLine T ρ v line = c.prog T ⟨3, 5⟩ ρ) :=
  ⟨fun t n d h1 h2 h3 h4 h5 h6 h7 h8 => h.exec ((C70_service_command o v).1 t n d h1 h2 h3 h4 h5 h6 h7 h8) T ρ,
    fun hb => h.exec ((C70_service_command o v).2 hb) T ρ⟩

/-- C93. The file name of a node and the input of a round are arguments of that kind, in every state of the
contract. -/
theorem C93_arguments (M : Machine) {p : State} (hr : ZkdvrfPre.Reachable M.env p) (ht : 1 ≤ p.threshold) :
    (∀ a, FileArg (memberName M.env.keccak a)) ∧
    ∃ x, InputArg x ∧ ServicesText.roundText p = pure x ∧ utf8 x = p.roundInput p.currentRoundNum := by
  obtain ⟨x, h1, h2, h3⟩ := ServicesText.round_input hr ht
  refine ⟨fun a => ServicesText.memberName_arg _ a, x, h3, ?_, h2⟩
  unfold ServicesText.roundText
  rw [h1]
  rfl

/-- C93. A service whose options agree with the contract does in every pass what the model of C91 says, where
commands are values and not text. -/
theorem C93_passes (M : Machine) {p : State} (hr : ZkdvrfPre.Reachable M.env p) (ht : 1 ≤ p.threshold)
    (htn : p.threshold ≤ p.memberCount) (u : Start) (hu : u.Matches p.threshold p.memberCount) (d : Draw) :
    (∀ a, ServicesText.nodePass M u.options u.vars p a d = ServicesFiles.nodePass M p a d) ∧
    ∀ begun, ServicesText.adminPass M u.options u.vars p d begun = ServicesFiles.adminPass M p d begun := by
  obtain ⟨k, hk⟩ := ServicesText.Start.Matches.config hr ht htn hu
  exact ⟨fun a => ServicesText.nodePass_eq hk hr ht a, fun begun => ServicesText.adminPass_eq hk hr ht begun⟩

/-- C93. The histories of services that build command lines are the histories of C91. -/
theorem C93_histories (M : Machine) {o : Address} {ws : List Address} {t n : ℕ} {aux1 : G1} {aux2 : G2}
    {A : Start} {U : Address → Start} (hA : A.Matches t n) (hU : ∀ a, (U a).Matches t n) {w w' : World}
    (h0 : Fresh M o ws t n w.p) (N : ℕ) :
    ServicesText.Honest M A U o ws t n aux1 aux2 w N w' ↔ ServicesFiles.Honest M o ws t n aux1 aux2 w N w' :=
  ⟨fun h => (ServicesText.to_files h0 hA hU h).1, fun h => (ServicesText.of_files h0 hA hU h).1⟩

/-- C93. In such a history no pass fails, no transaction reverts, and round `K` is complete exactly when
enough transactions have been sent. -/
theorem C93_no_failure (M : Machine) {o : Address} {ws : List Address} {t n : ℕ} {aux1 : G1} {aux2 : G2}
    (hM : Faithful M t n aux1 aux2) {A : Start} {U : Address → Start} (hA : A.Matches t n)
    (hU : ∀ a, (U a).Matches t n) {w w' : World} (h0 : Fresh M o ws t n w.p) {N : ℕ}
    (h : ServicesText.Honest M A U o ws t n aux1 aux2 w N w') (hN : N < 2 ^ 255) :
    (∀ a ∈ ws, ∀ d, GoodDraw t n aux1 aux2 d →
      Fine M w'.p a ((ServicesText.nodePass M (U a).options (U a).vars w'.p a d).run (w'.node a)).2) ∧
    (∀ d begun, Fine M w'.p o ((ServicesText.adminPass M A.options A.vars w'.p d begun).run w'.admin).2) ∧
    ∀ K, 1 ≤ K → (Completed w'.p K ↔ 2 * n + 2 + K * (t + 2) ≤ N) := by
  obtain ⟨hf, hk⟩ := ServicesText.to_files h0 hA hU h
  obtain ⟨f1, f2⟩ := C91_no_failure M hM h0 hf hN
  refine ⟨fun a ha d hd => ?_, fun d begun => ?_, fun K hK => C91_rounds M hM h0 hf hN K hK⟩
  · rw [hk.node_eq h0.t_pos h0.t_le (hU a) a d]
    exact f1 a ha d hd
  · rw [hk.admin_eq h0.t_pos h0.t_le hA d begun]
    exact f2 d begun

/-- C93. Whatever was stopped before, such services can complete nine rounds. -/
theorem C93_completes (M : Machine) {o : Address} {ws : List Address} {t n : ℕ} {aux1 : G1} {aux2 : G2}
    (hM : Faithful M t n aux1 aux2) (d : Draw) (hd : GoodDraw t n aux1 aux2 d) {A : Start} {U : Address → Start}
    (hA : A.Matches t n) (hU : ∀ a, (U a).Matches t n) {w w' : World} (h0 : Fresh M o ws t n w.p) {N : ℕ}
    (h : ServicesText.Honest M A U o ws t n aux1 aux2 w N w') (hN : N ≤ 2 * n + 2 + 9 * (t + 2)) :
    ∃ w'', ServicesText.Honest M A U o ws t n aux1 aux2 w (2 * n + 2 + 9 * (t + 2)) w'' ∧
      (∃ N', N + N' = 2 * n + 2 + 9 * (t + 2) ∧ ServicesFiles.Honest M o ws t n aux1 aux2 w' N' w'') ∧
      ∀ K, 1 ≤ K → K ≤ 9 → Completed w''.p K := by
  obtain ⟨hf, hk⟩ := ServicesText.to_files h0 hA hU h
  obtain ⟨N', rfl⟩ : ∃ N', N' = 2 * n + 2 + 9 * (t + 2) - N := ⟨_, rfl⟩
  have e : N + (2 * n + 2 + 9 * (t + 2) - N) = 2 * n + 2 + 9 * (t + 2) := by omega
  obtain ⟨w'', h2⟩ := C91_completes M hM d hd h0 hf _ (le_of_eq e)
  have h3 := files_trans hf h2
  rw [e] at h3
  have hN' : 2 * n + 2 + 9 * (t + 2) < 2 ^ 255 := by
    have ht' : 1 ≤ w.p.threshold := by rw [h0.threshold]; exact h0.t_pos
    obtain ⟨_, o1, o2, hz⟩ := ZkdvrfPre.sim h0.reachable ht'
    have hb : 7 * w.p.memberCount + 14 < 2 ^ 32 := (Zkdvrf.regInv hz).bound
    rw [h0.members] at hb
    have := h0.t_le
    refine lt_trans (show 2 * n + 2 + 9 * (t + 2) < 2 ^ 40 by omega) (by decide +kernel)
  refine ⟨w'', (ServicesText.of_files h0 hA hU h3).1, ⟨_, e, h2⟩, fun K h1 h9 => ?_⟩
  refine (C91_rounds M hM h0 h3 hN' K h1).2 ?_
  have := Nat.mul_le_mul_right (t + 2) h9
  omega

/-- C93. A node and the admin of three members with threshold 2, started with an environment that says
something else, complete nine rounds. -/
example (s₀ : Store) : ∃ w w', Fresh toyMachine 7 [1, 2, 3] 2 3 w.p ∧
    ServicesText.Honest toyMachine ⟨⟨some 2, some 3, some 18⟩, fun _ => some "7".toList⟩
      (fun _ => ⟨⟨some 2, some 3, some 18⟩, fun _ => none⟩) 7 [1, 2, 3] 2 3 (5 • g1) FixedPoint.aux2 w 44 w' ∧
    ∀ k, 1 ≤ k → k ≤ 9 → Completed w'.p k := by
  obtain ⟨p, hp⟩ := toy_fresh
  obtain ⟨w', h1, -, h2⟩ := C93_completes toyMachine toy_faithful toyDraw toy_good
    (A := ⟨⟨some 2, some 3, some 18⟩, fun _ => some "7".toList⟩)
    (U := fun _ => ⟨⟨some 2, some 3, some 18⟩, fun _ => none⟩) ⟨rfl, rfl, 18, by norm_num, rfl⟩
    (fun _ => ⟨rfl, rfl, 18, by norm_num, rfl⟩) (w := ⟨p, s₀, fun _ => s₀⟩) hp .refl (by norm_num)
  exact ⟨_, w', hp, h1, h2⟩

/-- C93. The text of a line, and the arguments that the client gets. -/
example :
    String.ofList (deriveMemberLine ⟨some 2, some 3, some 18⟩ 2 "member_0xAb".toList) =
      "RUST_LOG=info THRESHOLD=2 NUMBER_OF_MEMBERS=3 DEGREE=18 /usr/local/bin/client dkg derive 2 -f member_0xAb" ∧
    (shell (fun _ => none) (combineLine ⟨some 2, some 3, some 18⟩ "zkRand-v1-2024:1".toList)).map (·.2) =
      some ["rand".toList, "combine".toList, "zkRand-v1-2024:1".toList] ∧
    FileArg "member_0xAb".toList ∧ InputArg "zkRand-v1-2024:1".toList ∧ InputArg "a b".toList := by
  refine ⟨by decide +kernel, by decide +kernel, ⟨by decide, by decide, by decide⟩, ⟨by decide, by decide⟩,
    ⟨by decide, by decide⟩⟩

/-! ### Limits -/

theorem add_positional {f g : Found} {c : Char} {v : List Char} (h : f.add c v = some g) :
    g.positional = f.positional := by
  unfold Found.add at h
  split at h
  · cases h
  · cases h; rfl

theorem cluster_positional (s : Opts) : ∀ (w : List Char) (f : Found) (r : Found × Option Char),
    cluster s f w = some r → r.1.positional = f.positional := by
  intro w
  induction w with
  | nil => intro f r h; cases h; rfl
  | cons c cs ih =>
    intro f r h
    rw [cluster.eq_def] at h
    dsimp only at h
    split at h
    · cases ha : f.add c [] with
      | none => rw [ha] at h; cases h
      | some g =>
        rw [ha] at h
        exact (ih g r h).trans (add_positional ha)
    · split at h
      · split at h
        · cases h; rfl
        · next v =>
          cases ha : f.add c v with
          | none => rw [ha] at h; cases h
          | some g => rw [ha] at h; cases h; exact add_positional ha
        · cases ha : f.add c cs with
          | none => rw [ha] at h; cases h
          | some g => rw [ha] at h; cases h; exact add_positional ha
      · cases h

theorem long_positional (s : Opts) (f : Found) (w : List Char) (r : Found × Option Char)
    (h : longOption s f w = some r) : r.1.positional = f.positional := by
  unfold longOption at h
  obtain ⟨c, -, h⟩ := Option.bind_eq_some_iff.1 h
  split at h
  · next v _ =>
    split at h
    · cases ha : f.add c v with
      | none => rw [ha] at h; cases h
      | some g => rw [ha] at h; cases h; exact add_positional ha
    · cases h
  · split at h
    · cases h; rfl
    · cases ha : f.add c [] with
      | none => rw [ha] at h; cases h
      | some g => rw [ha] at h; cases h; exact add_positional ha

/-- A last word that begins with a dash is never a positional argument. -/
theorem scan_dash (s : Opts) (f g : Found) {w : List Char} (h1 : w.head? = some '-') (h2 : w ≠ ['-'])
    (h : scan s f none [w] = some g) : g.positional = f.positional := by
  have last : ∀ (r : Found × Option Char), scan s r.1 r.2 [] = some g → g = r.1 := by
    intro r hr
    rw [scan] at hr
    split at hr
    · exact (Option.some.inj hr).symm
    · cases hr
  rw [scan.eq_def] at h
  dsimp only at h
  split at h
  · cases h
    exact List.append_nil _
  · split at h
    · obtain ⟨r, e1, e2⟩ := Option.bind_eq_some_iff.1 h
      rw [last r e2]
      exact long_positional s f _ r e1
    · rw [if_pos ⟨h1, h2⟩] at h
      obtain ⟨r, e1, e2⟩ := Option.bind_eq_some_iff.1 h
      rw [last r e2]
      exact cluster_positional s _ f r e1

theorem parse_dash {x : List Char} (h1 : x.head? = some '-') (h2 : x ≠ ['-']) (i : ℕ) :
    parseArgs ["rand".toList, "eval".toList, decimalText i, x] = none ∧
    parseArgs ["rand".toList, "verify".toList, decimalText i, x] = none ∧
    parseArgs ["rand".toList, "combine".toList, x] = none ∧
    parseArgs ["rand".toList, "verify-final".toList, x] = none := by
  refine ⟨?_, ?_, ?_, ?_⟩
  · rw [parseArgs, if_neg (by decide), if_neg (by decide), if_neg (by decide)]
    rw [if_neg (by decide), if_pos rfl, if_pos rfl, scan_positional _ _ (decimal_positional i)]
    cases hs : scan noOpts ⟨[] ++ [decimalText i], []⟩ none [x] with
    | none => rfl
    | some g =>
      have := scan_dash _ _ g h1 h2 hs
      dsimp only at this
      change (match g.positional with | [i, x] => _ | _ => none) = none
      rw [this]
      rfl
  · rw [parseArgs, if_neg (by decide), if_neg (by decide), if_neg (by decide)]
    rw [if_neg (by decide), if_pos rfl, if_neg (by decide), if_pos rfl, scan_positional _ _ (decimal_positional i)]
    cases hs : scan noOpts ⟨[] ++ [decimalText i], []⟩ none [x] with
    | none => rfl
    | some g =>
      have := scan_dash _ _ g h1 h2 hs
      dsimp only at this
      change (match g.positional with | [i, x] => _ | _ => none) = none
      rw [this]
      rfl
  · rw [parseArgs, if_neg (by decide), if_neg (by decide), if_neg (by decide)]
    rw [if_neg (by decide), if_pos rfl, if_neg (by decide), if_neg (by decide), if_pos rfl]
    cases hs : scan skipOpts ⟨[], []⟩ none [x] with
    | none => rfl
    | some g =>
      have := scan_dash _ _ g h1 h2 hs
      dsimp only at this
      change (match g.positional with | [x] => _ | _ => none) = none
      rw [this]
  · rw [parseArgs, if_neg (by decide), if_neg (by decide), if_neg (by decide)]
    rw [if_neg (by decide), if_pos rfl, if_neg (by decide), if_neg (by decide), if_neg (by decide), if_pos rfl]
    cases hs : scan noOpts ⟨[], []⟩ none [x] with
    | none => rfl
    | some g =>
      have := scan_dash _ _ g h1 h2 hs
      dsimp only at this
      change (match g.positional with | [x] => _ | _ => none) = none
      rw [this]

theorem run_bad_args (T : Tools) (ρ : ClientFiles.Random) {v env : Vars} {line : List Char} {args : List (List Char)}
    (h1 : shell v line = some (env, args)) (h2 : parseArgs args = none) (s : Store) :
    ∃ e, (execLine T ρ v line).run s = (s, .error e) := by
  unfold execLine
  rw [h1]
  dsimp only
  unfold clientMain
  rw [h2]
  cases hc : clientConfig env with
  | error e => exact ⟨_, rfl⟩
  | ok c => exact ⟨_, rfl⟩

/-- C93 (limit). An input that begins with a dash (and is not just a dash) is taken for options: with it the
commands of a round end with an error and touch no data file. -/
theorem C93_violation_dash (T : Tools) (ρ : ClientFiles.Random) (o : Options) (v : Vars) (i : ℕ) (x : List Char)
    (hx : ∀ c ∈ x, safeChar c = true) (h1 : x.head? = some '-') (h2 : x ≠ ['-']) (s : Store) :
    ∀ line ∈ [evalLine o i x, verifyEvalLine o i x, combineLine o x, verifyFinalLine o x],
      ∃ e, (execLine T ρ v line).run s = (s, .error e) := by
  obtain ⟨p1, p2, p3, p4⟩ := parse_dash h1 h2 i
  intro line hl
  simp only [List.mem_cons, List.not_mem_nil, or_false] at hl
  have e1 : evalLine o i x = cmdPrefix o ++ ' ' :: spaced ["rand".toList, "eval".toList, decimalText i] ('"' :: (x ++ ['"'])) := by
    unfold evalLine; simp only [List.append_assoc]; rfl
  have e2 : verifyEvalLine o i x = cmdPrefix o ++ ' ' :: spaced ["rand".toList, "verify".toList, decimalText i] ('"' :: (x ++ ['"'])) := by
    unfold verifyEvalLine; simp only [List.append_assoc]; rfl
  have e3 : combineLine o x = cmdPrefix o ++ ' ' :: spaced ["rand".toList, "combine".toList] ('"' :: (x ++ ['"'])) := by
    unfold combineLine; simp only [List.append_assoc]; rfl
  have e4 : verifyFinalLine o x = cmdPrefix o ++ ' ' :: spaced ["rand".toList, "verify-final".toList] ('"' :: (x ++ ['"'])) := by
    unfold verifyFinalLine; simp only [List.append_assoc]; rfl
  rcases hl with rfl | rfl | rfl | rfl
  · have := shell_prefix o v (lex_index_quoted (a := "rand".toList) (b := "eval".toList) (by decide) i hx)
    rw [← e1] at this
    simp only [List.map_cons, List.map_nil, unq_fst, quo_fst] at this
    exact run_bad_args T ρ this p1 s
  · have := shell_prefix o v (lex_index_quoted (a := "rand".toList) (b := "verify".toList) (by decide) i hx)
    rw [← e2] at this
    simp only [List.map_cons, List.map_nil, unq_fst, quo_fst] at this
    exact run_bad_args T ρ this p2 s
  · have := shell_prefix o v (lex_sub_quoted (a := "rand".toList) (b := "combine".toList) (by decide) hx)
    rw [← e3] at this
    simp only [List.map_cons, List.map_nil, unq_fst, quo_fst] at this
    exact run_bad_args T ρ this p3 s
  · have := shell_prefix o v (lex_sub_quoted (a := "rand".toList) (b := "verify-final".toList) (by decide) hx)
    rw [← e4] at this
    simp only [List.map_cons, List.map_nil, unq_fst, quo_fst] at this
    exact run_bad_args T ρ this p4 s

theorem parse_combine_skip {x : List Char} (hx : Word.Positional x) :
    parseArgs ["rand".toList, "combine".toList, x, "-s".toList] = some (.commands [.combine (utf8 x) true]) := by
  rw [parseArgs, if_neg (by decide), if_neg (by decide), if_neg (by decide)]
  rw [if_neg (by decide), if_pos rfl, if_neg (by decide), if_neg (by decide), if_pos rfl, scan_positional _ _ hx]
  rfl

/-- C93 (limit). Such inputs exist; the second would also switch the verification off if it were not the only
argument. -/
example : ∀ x ∈ ["-1".toList, "-s".toList, "--".toList, "--skip".toList],
    (∀ c ∈ x, safeChar c = true) ∧ x.head? = some '-' ∧ x ≠ ['-'] := by decide

theorem lex_inside_rest (rest : List Char) : ∀ (w : List Char) (u : CommandLine.Word), (∀ c ∈ w, safeChar c = true) →
    lex true (some u) (w ++ '"' :: rest) = lex false (some (u ++ quo w)) rest
  | [], u, _ => by unfold quo; rw [List.map_nil, List.append_nil]; rfl
  | c :: w, u, h => by
    have hc := h c (List.mem_cons_self ..)
    unfold safeChar at hc
    simp only [ne_eq, decide_not, Bool.and_eq_true, Bool.not_eq_eq_eq_not, Bool.not_true,
      decide_eq_false_iff_not] at hc
    obtain ⟨⟨⟨h1, h2⟩, h3⟩, h4⟩ := hc
    rw [List.cons_append]
    show (if (true : Bool) = true then if c = '"' then _ else if c = '$' ∨ c = '`' ∨ c = '\\' then none
      else lex true (some (u ++ [(c, true)])) (w ++ '"' :: rest) else _) = _
    rw [if_pos rfl, if_neg h1, if_neg (by rintro (h | h | h) <;> contradiction),
      lex_inside_rest rest w _ (fun d hd => h d (List.mem_cons_of_mem _ hd))]
    unfold quo
    rw [List.map_cons, List.append_assoc]
    rfl

/-- C93 (limit). The command lines do not escape the input.  An input with a quotation mark in it adds an
argument: here the option that switches the verification of the evaluations off. -/
theorem C93_violation_quote (o : Options) (v : Vars) (x : List Char) (hx : InputArg x) :
    Runs o v (combineLine o (x ++ "\" \"-s".toList)) (.combine (utf8 x) true) := by
  refine Runs.of (rest := spaced ["rand".toList, "combine".toList] ('"' :: (x ++ "\" \"-s\"".toList))) ?_
    (ws := [unq "rand".toList, unq "combine".toList, quo x, quo "-s".toList]) ?_ ?_ (parse_combine_skip hx.pos)
  · unfold combineLine
    simp only [List.append_assoc]
    rfl
  · rw [lex_spaced _ _ (plain_list (by decide))]
    have e : lex false none ('"' :: (x ++ "\" \"-s\"".toList)) = some [quo x, quo "-s".toList] := by
      show lex true (some []) (x ++ '"' :: " \"-s\"".toList) = _
      rw [lex_inside_rest _ _ _ hx.1]
      rfl
    rw [e]
    rfl
  · simp only [List.map_cons, List.map_nil, unq_fst, quo_fst]

/-- C93 (limit). A line with such an input. -/
example : String.ofList (combineLine ⟨some 2, some 3, some 18⟩ ("x".toList ++ "\" \"-s".toList)) =
      "RUST_LOG=info THRESHOLD=2 NUMBER_OF_MEMBERS=3 DEGREE=18 /usr/local/bin/client rand combine \"x\" \"-s\"" ∧
    InputArg "x".toList := by
  exact ⟨by decide +kernel, by decide, by decide⟩

end Verif.Props
