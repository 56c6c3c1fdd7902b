import Verif.Model.Config
import Verif.Spec.Config
import Verif.Model.Zkdvrf
import Mathlib.Data.Nat.Digits.Lemmas
import Mathlib.Tactic

/-! Property C70: the configuration with which the client runs, alone and below the services. -/

namespace Verif.Props
open Verif Verif.Config

theorem digitVal_some {c : Char} {x : ℕ} : digitVal c = some x ↔ x < 10 ∧ c = Spec.decimalChar x := by
  unfold digitVal
  constructor
  · intro h
    split at h
    · next hc =>
      have hx : x = c.toNat - 48 := (Option.some.inj h).symm
      have hlt : x < 10 := by omega
      refine ⟨hlt, ?_⟩
      have hcn : c.toNat = 48 + x := by omega
      have : c = Char.ofNat (48 + x) := by rw [← hcn, Char.ofNat_toNat]
      rw [this]
      clear h hx hcn this hc
      interval_cases x <;> rfl
    · cases h
  · rintro ⟨hx, rfl⟩
    interval_cases x <;> rfl

theorem foldl_ge (ds : List ℕ) : ∀ acc, acc ≤ ds.foldl (fun a d => 10 * a + d) acc := by
  induction ds with
  | nil => intro acc; exact le_refl _
  | cons d ds ih => intro acc; exact le_trans (by omega) (ih (10 * acc + d))

theorem foldl_ofDigits (ds : List ℕ) :
    ds.foldl (fun a d => 10 * a + d) 0 = Nat.ofDigits 10 ds.reverse := by
  rw [Nat.ofDigits_eq_foldr, List.foldr_reverse]
  congr 1
  funext a d
  simp only [Nat.cast_id]
  omega

theorem parseDigits_some (m : ℕ) : ∀ (cs : List Char) (acc : ℕ), acc < 2 ^ 32 →
    (parseDigits acc cs = some m ↔ m < 2 ^ 32 ∧ ∃ ds : List ℕ, (∀ d ∈ ds, d < 10) ∧
      cs = ds.map Spec.decimalChar ∧ m = ds.foldl (fun a d => 10 * a + d) acc)
  | [], acc, hacc => by
    unfold parseDigits
    constructor
    · intro h
      have := Option.some.inj h
      exact ⟨by omega, [], by simp, rfl, this.symm⟩
    · rintro ⟨_, ds, _, h, rfl⟩
      cases ds with
      | nil => rfl
      | cons d ds => cases h
  | c :: cs, acc, hacc => by
    unfold parseDigits
    constructor
    · intro h
      cases hc : digitVal c with
      | none => rw [hc] at h; cases h
      | some x =>
        rw [hc] at h
        change (if _ then _ else _) = _ at h
        split at h
        · next hlt =>
          obtain ⟨hx, rfl⟩ := digitVal_some.1 hc
          obtain ⟨hm, ds, h1, rfl, h3⟩ := (parseDigits_some m cs _ hlt.2).1 h
          exact ⟨hm, x :: ds, by
            intro d hd
            rcases List.mem_cons.1 hd with rfl | hd
            · exact hx
            · exact h1 d hd, rfl, h3⟩
        · cases h
    · rintro ⟨hm, ds, h1, h2, h3⟩
      cases ds with
      | nil => cases h2
      | cons d ds =>
        rw [List.map_cons, List.cons.injEq] at h2
        have hd := h1 d List.mem_cons_self
        rw [digitVal_some.2 ⟨hd, h2.1⟩]
        change (if _ then _ else _) = _
        have hge := foldl_ge ds (10 * acc + d)
        rw [List.foldl_cons] at h3
        have hlt : 10 * acc + d < 2 ^ 32 := by omega
        rw [if_pos ⟨by omega, hlt⟩]
        exact (parseDigits_some m cs _ hlt).2 ⟨hm, ds, fun d hd => h1 d (List.mem_cons_of_mem _ hd), h2.2, h3⟩

theorem decimalChar_ne_plus {d : ℕ} (h : d < 10) : Spec.decimalChar d ≠ '+' := by
  interval_cases d <;> decide

/-- C70. A string is read as the number `m` exactly if it is a decimal numeral for `m` and
`m < 2^32`. -/
theorem C70_parse (s : List Char) (m : ℕ) :
    parseU32 s = some m ↔ Spec.Numeral s m ∧ m < 2 ^ 32 := by
  have key : ∀ cs : List Char, cs ≠ [] → (parseDigits 0 cs = some m ↔ m < 2 ^ 32 ∧
      ∃ ds : List ℕ, ds ≠ [] ∧ (∀ d ∈ ds, d < 10) ∧ m = Nat.ofDigits 10 ds.reverse ∧
        cs = ds.map Spec.decimalChar) := by
    intro cs hne
    rw [parseDigits_some m cs 0 (by norm_num)]
    constructor
    · rintro ⟨hm, ds, h1, h2, h3⟩
      refine ⟨hm, ds, ?_, h1, by rw [h3, foldl_ofDigits], h2⟩
      rintro rfl
      exact hne h2
    · rintro ⟨hm, ds, _, h1, h3, h2⟩
      exact ⟨hm, ds, h1, h2, by rw [h3, foldl_ofDigits]⟩
  unfold parseU32
  split
  · constructor
    · intro h; cases h
    · rintro ⟨⟨ds, hne, _, _, h | h⟩, _⟩
      · cases ds with
        | nil => exact absurd rfl hne
        | cons d ds => cases h
      · cases h
  · next c cs =>
    rw [key _ (List.cons_ne_nil _ _)]
    constructor
    · rintro ⟨hm, ds, hne, h1, h2, h3⟩
      exact ⟨⟨ds, hne, h1, h2, Or.inr (by rw [h3])⟩, hm⟩
    · rintro ⟨⟨ds, hne, h1, h2, h | h⟩, hm⟩
      · cases ds with
        | nil => exact absurd rfl hne
        | cons d ds =>
          rw [List.map_cons, List.cons.injEq] at h
          exact absurd h.1.symm (decimalChar_ne_plus (h1 d List.mem_cons_self))
      · exact ⟨hm, ds, hne, h1, h2, (List.cons.inj h).2⟩
  · next c cs hns =>
    rw [key _ (List.cons_ne_nil _ _)]
    constructor
    · rintro ⟨hm, ds, hne, h1, h2, h3⟩
      exact ⟨⟨ds, hne, h1, h2, Or.inl h3⟩, hm⟩
    · rintro ⟨⟨ds, hne, h1, h2, h | h⟩, hm⟩
      · exact ⟨hm, ds, hne, h1, h2, h⟩
      · cases ds with
        | nil => exact absurd rfl hne
        | cons d ds =>
          rw [List.map_cons, List.cons.injEq] at h
          exact absurd h.2 (hns _ _ h.1)

theorem varU32_some {env : Vars} {key : String} {m : ℕ} :
    varU32 env key = some m ↔ ∃ s, env key = some s ∧ Spec.Numeral s m ∧ m < 2 ^ 32 := by
  unfold varU32
  rw [Option.bind_eq_some_iff]
  simp only [C70_parse]

/-- C70. The client runs with threshold `t`, `n` members and degree `d` if the three variables are
numerals for these numbers, below `2^32`, and `0 < t ≤ n`; it refuses to run if `0 < t ≤ n` fails; and
if any of the three is missing or not such a numeral, it ignores all of them and runs with 3, 5 and
18. -/
theorem C70_client_config (env : Vars) :
    (∀ t n d st sn sd, env "THRESHOLD" = some st → env "NUMBER_OF_MEMBERS" = some sn →
      env "DEGREE" = some sd → Spec.Numeral st t → Spec.Numeral sn n → Spec.Numeral sd d →
      t < 2 ^ 32 → n < 2 ^ 32 → d < 2 ^ 32 →
      (0 < t ∧ t ≤ n → clientConfig env = .ok (⟨t, n⟩, d)) ∧
      (¬ (0 < t ∧ t ≤ n) → clientConfig env = .error (.err (.InvalidParams t n)))) ∧
    ((∃ key ∈ ["THRESHOLD", "NUMBER_OF_MEMBERS", "DEGREE"],
      ¬ ∃ s m, env key = some s ∧ Spec.Numeral s m ∧ m < 2 ^ 32) →
      clientConfig env = .ok (⟨3, 5⟩, 18)) := by
  constructor
  · intro t n d st sn sd h1 h2 h3 h4 h5 h6 h7 h8 h9
    have e1 : varU32 env "THRESHOLD" = some t := varU32_some.2 ⟨st, h1, h4, h7⟩
    have e2 : varU32 env "NUMBER_OF_MEMBERS" = some n := varU32_some.2 ⟨sn, h2, h5, h8⟩
    have e3 : varU32 env "DEGREE" = some d := varU32_some.2 ⟨sd, h3, h6, h9⟩
    unfold clientConfig readParams
    rw [e1, e2, e3]
    dsimp only
    unfold DkgConfig.new
    constructor
    · intro h
      rw [if_pos h]
      rfl
    · intro h
      rw [if_neg h]
      rfl
  · rintro ⟨key, hk, hno⟩
    have hnone : varU32 env key = none := by
      cases h : varU32 env key with
      | none => rfl
      | some m =>
        obtain ⟨s, h1, h2, h3⟩ := varU32_some.1 h
        exact absurd ⟨s, m, h1, h2, h3⟩ hno
    have hr : readParams env = (3, 5, 18) := by
      unfold readParams
      simp only [List.mem_cons, List.not_mem_nil, or_false] at hk
      rcases hk with rfl | rfl | rfl
      · rw [hnone]
      · rw [hnone]
        cases varU32 env "THRESHOLD" <;> rfl
      · rw [hnone]
        cases varU32 env "THRESHOLD" <;> cases varU32 env "NUMBER_OF_MEMBERS" <;> rfl
    unfold clientConfig
    rw [hr]
    rfl

/-- Both cases occur: the example configuration, and an environment in which only the degree is
missing, where the given numbers 2 and 3 are not used. -/
example : clientConfig (fun key => if key = "THRESHOLD" then some "2".toList
      else if key = "NUMBER_OF_MEMBERS" then some "+03".toList
      else if key = "DEGREE" then some "18".toList else none) = .ok (⟨2, 3⟩, 18) ∧
    clientConfig (fun key => if key = "THRESHOLD" then some "2".toList
      else if key = "NUMBER_OF_MEMBERS" then some "3".toList else none) = .ok (⟨3, 5⟩, 18) := by
  constructor <;> rfl

theorem digits_chars (l : List ℕ) (h : ∀ d ∈ l, d < 10) :
    l.map (fun d => Char.ofNat (48 + d)) = l.map Spec.decimalChar := by
  apply List.map_congr_left
  intro d hd
  have := h d hd
  interval_cases d <;> rfl

theorem numeral_jsString (k : ℕ) : Spec.Numeral (jsString (some (k : ℤ))) k := by
  cases k with
  | zero => exact ⟨[0], by simp, by simp, rfl, Or.inl rfl⟩
  | succ k =>
    have hlt : ∀ d ∈ (Nat.digits 10 (k + 1)).reverse, d < 10 := by
      intro d hd
      exact Nat.digits_lt_base (by norm_num) (List.mem_reverse.1 hd)
    refine ⟨(Nat.digits 10 (k + 1)).reverse, ?_, hlt, ?_, Or.inl ?_⟩
    · rw [Ne, List.reverse_eq_nil_iff]
      exact Nat.digits_ne_nil_iff_ne_zero.2 (Nat.succ_ne_zero k)
    · rw [List.reverse_reverse, Nat.ofDigits_digits]
    · exact digits_chars _ hlt

theorem parse_jsString (x : Option ℤ) (m : ℕ) :
    parseU32 (jsString x) = some m ↔ x = some (m : ℤ) ∧ m < 2 ^ 32 := by
  constructor
  · intro h
    match x, h with
    | none, h => cases h
    | some (.negSucc k), h =>
      have h' : parseDigits 0 ('-' :: ((Nat.digits 10 (k + 1)).reverse).map
        (fun d => Char.ofNat (48 + d))) = some m := h
      cases h'
    | some (.ofNat k), h =>
      obtain ⟨⟨ds, hne, h1, h2, h3⟩, hm⟩ := (C70_parse _ _).1 h
      obtain ⟨ds', hne', h1', h2', h3'⟩ := numeral_jsString k
      have hjs : jsString (some (k : ℤ)) = jsString (some (.ofNat k)) := rfl
      rw [hjs] at h3'
      have hinj : ∀ (a b : List ℕ), (∀ d ∈ a, d < 10) → (∀ d ∈ b, d < 10) →
          a.map Spec.decimalChar = b.map Spec.decimalChar → a = b := by
        intro a
        induction a with
        | nil =>
          intro b _ _ hab
          cases b with
          | nil => rfl
          | cons d b => cases hab
        | cons d a ih =>
          intro b ha hb hab
          cases b with
          | nil => cases hab
          | cons d' b =>
            rw [List.map_cons, List.map_cons, List.cons.injEq] at hab
            have e1 := digitVal_some.2 ⟨ha d List.mem_cons_self, rfl⟩
            rw [hab.1, digitVal_some.2 ⟨hb d' List.mem_cons_self, rfl⟩] at e1
            rw [Option.some.inj e1, ih b (fun x hx => ha x (List.mem_cons_of_mem _ hx))
              (fun x hx => hb x (List.mem_cons_of_mem _ hx)) hab.2]
      have hplus : ∀ (a b : List ℕ), a ≠ [] → (∀ d ∈ a, d < 10) →
          a.map Spec.decimalChar ≠ '+' :: b.map Spec.decimalChar := by
        intro a b ha hd hab
        cases a with
        | nil => exact ha rfl
        | cons d a => exact decimalChar_ne_plus (hd d List.mem_cons_self) (List.cons.inj hab).1
      have hds : ds = ds' := by
        rcases h3 with h3 | h3 <;> rcases h3' with h3' | h3'
        · exact hinj _ _ h1 h1' (h3.symm.trans h3')
        · exact absurd (h3.symm.trans h3') (hplus _ _ hne h1)
        · exact absurd (h3'.symm.trans h3) (hplus _ _ hne' h1')
        · exact hinj _ _ h1 h1' (List.cons.inj (h3.symm.trans h3')).2
      refine ⟨?_, hm⟩
      rw [h2, h2', hds]
      rfl
  · rintro ⟨rfl, hm⟩
    exact (C70_parse _ _).2 ⟨numeral_jsString m, hm⟩

/-- C70. A command run by a service, whatever environment it inherits: if the three options of the
service are numbers from 0 to `2^32 - 1`, the client uses exactly these; otherwise (an option is not a
number, negative or too large) it runs with 3, 5 and 18. -/
theorem C70_service_command (o : Options) (inherited : Vars) :
    (∀ t n d : ℕ, o.threshold = some (t : ℤ) → o.numberMembers = some (n : ℤ) → o.degree = some (d : ℤ) →
      t < 2 ^ 32 → n < 2 ^ 32 → d < 2 ^ 32 → 0 < t → t ≤ n →
      clientConfig (commandVars o inherited) = .ok (⟨t, n⟩, d)) ∧
    ((∃ x ∈ [o.threshold, o.numberMembers, o.degree], ∀ k : ℕ, k < 2 ^ 32 → x ≠ some (k : ℤ)) →
      clientConfig (commandVars o inherited) = .ok (⟨3, 5⟩, 18)) := by
  have e1 : commandVars o inherited "THRESHOLD" = some (jsString o.threshold) := rfl
  have e2 : commandVars o inherited "NUMBER_OF_MEMBERS" = some (jsString o.numberMembers) := rfl
  have e3 : commandVars o inherited "DEGREE" = some (jsString o.degree) := rfl
  constructor
  · intro t n d h1 h2 h3 h4 h5 h6 h7 h8
    rw [h1] at e1
    rw [h2] at e2
    rw [h3] at e3
    exact ((C70_client_config _).1 t n d _ _ _ e1 e2 e3 (numeral_jsString t) (numeral_jsString n)
      (numeral_jsString d) h4 h5 h6).1 ⟨h7, h8⟩
  · rintro ⟨x, hx, hno⟩
    apply (C70_client_config _).2
    have hbad : ¬ ∃ s m, some (jsString x) = some s ∧ Spec.Numeral s m ∧ m < 2 ^ 32 := by
      rintro ⟨s, m, hs, h1, h2⟩
      cases hs
      obtain ⟨h3, h4⟩ := (parse_jsString x m).1 ((C70_parse _ _).2 ⟨h1, h2⟩)
      exact hno m h4 h3
    simp only [List.mem_cons, List.not_mem_nil, or_false] at hx
    rcases hx with rfl | rfl | rfl
    · exact ⟨"THRESHOLD", by simp, by rw [e1]; exact hbad⟩
    · exact ⟨"NUMBER_OF_MEMBERS", by simp, by rw [e2]; exact hbad⟩
    · exact ⟨"DEGREE", by simp, by rw [e3]; exact hbad⟩

/-- Both cases of the theorem, and the effect of the environment the service was started in: none. -/
example : (∀ inherited, clientConfig (commandVars ⟨some 2, some 3, some 19⟩ inherited) = .ok (⟨2, 3⟩, 19)) ∧
    ∀ inherited, clientConfig (commandVars ⟨some 2, some (-3), some 19⟩ inherited) = .ok (⟨3, 5⟩, 18) :=
  ⟨fun i => (C70_service_command _ i).1 2 3 19 rfl rfl rfl (by norm_num) (by norm_num) (by norm_num)
    (by norm_num) (by norm_num),
   fun i => (C70_service_command _ i).2 ⟨some (-3), by simp, fun k _ h => by
    have := Option.some.inj h; omega⟩⟩

/-- C70. A service that has passed its check against the contract (`check_config`, services/admin.ts,
services/node.ts) and has a degree runs its commands with the threshold and the number of members of
the contract. -/
theorem C70_matches_contract (o : Options) (inherited : Vars) (s : Zkdvrf.State) (d : ℕ)
    (h1 : o.threshold = some (s.threshold : ℤ)) (h2 : o.numberMembers = some (s.memberCount : ℤ))
    (h3 : o.degree = some (d : ℤ)) (hd : d < 2 ^ 32) (ht : 0 < s.threshold)
    (htn : s.threshold ≤ s.memberCount) (hn : s.memberCount < 2 ^ 32) :
    clientConfig (commandVars o inherited) = .ok (⟨s.threshold, s.memberCount⟩, d) :=
  (C70_service_command o inherited).1 _ _ d h1 h2 h3 (lt_of_le_of_lt htn hn) hn hd ht htn

/-- C70 (violation). Without a degree the check against the contract passes all the same, and the
commands then run with 3 of 5 whatever the contract says. -/
theorem C70_violation_missing_degree (o : Options) (inherited : Vars) (s : Zkdvrf.State)
    (_ : o.threshold = some (s.threshold : ℤ)) (_ : o.numberMembers = some (s.memberCount : ℤ))
    (h : o.degree = none) :
    clientConfig (commandVars o inherited) = .ok (⟨3, 5⟩, 18) :=
  (C70_service_command o inherited).2 ⟨o.degree, by simp, fun k _ => by rw [h]; exact nofun⟩

/-- C70. When a service is started with no command line options, its options are the values of the three
variables, its polling interval is `POLLING_INTERVAL` or 12 seconds and its interval between rounds is
`RAND_GEN_INTERVAL` or one hour (zero and values that are not numbers count as missing). -/
theorem C70_run_options (env : String → Option ℤ) :
    runOptions (fun _ => none) env =
      ⟨env "THRESHOLD", env "NUMBER_OF_MEMBERS", env "DEGREE"⟩ ∧
    (∀ k, env "POLLING_INTERVAL" = some k → k ≠ 0 → pollingInterval (fun _ => none) env = some k) ∧
    (env "POLLING_INTERVAL" = none ∨ env "POLLING_INTERVAL" = some 0 →
      pollingInterval (fun _ => none) env = some 12000) ∧
    (∀ k, env "RAND_GEN_INTERVAL" = some k → k ≠ 0 → randGenInterval (fun _ => none) env = some k) ∧
    (env "RAND_GEN_INTERVAL" = none ∨ env "RAND_GEN_INTERVAL" = some 0 →
      randGenInterval (fun _ => none) env = some 3600) := by
  have hd : ∀ (x : Option ℤ) (d k : ℤ), x = some k → k ≠ 0 → orDefault x d = some k := by
    rintro x d k rfl hk
    unfold orDefault
    split
    · next h => cases h
    · next h => exact absurd (Option.some.inj h) hk
    · next h => exact h.symm
  have hz : ∀ (x : Option ℤ) (d : ℤ), x = none ∨ x = some 0 → orDefault x d = some d := by
    rintro x d (rfl | rfl) <;> rfl
  exact ⟨rfl, fun k h hk => hd _ _ k h hk, fun h => hz _ _ h, fun k h hk => hd _ _ k h hk, fun h => hz _ _ h⟩

/-- An environment that sets everything but the polling interval. -/
example : let env : String → Option ℤ := fun key => if key = "THRESHOLD" then some 2
      else if key = "NUMBER_OF_MEMBERS" then some 3 else if key = "DEGREE" then some 18
      else if key = "RAND_GEN_INTERVAL" then some 60 else none
    runOptions (fun _ => none) env = ⟨some 2, some 3, some 18⟩ ∧
    pollingInterval (fun _ => none) env = some 12000 ∧ randGenInterval (fun _ => none) env = some 60 :=
  ⟨(C70_run_options _).1, (C70_run_options _).2.2.1 (Or.inl rfl), (C70_run_options _).2.2.2.1 60 rfl (by norm_num)⟩

/-- C70 (violation). The command line option for the threshold also sets the degree, and the option for
the polling interval (milliseconds) also sets the interval between rounds (seconds), whatever the
environment says. -/
theorem C70_violation_flags (flags : Flags) (env : String → Option ℤ) :
    (∀ k, flags "threshold" = some k →
      (runOptions flags env).threshold = some k ∧ (runOptions flags env).degree = some k) ∧
    (∀ k, flags "polling-interval" = some k →
      pollingInterval flags env = some k ∧ randGenInterval flags env = some k) := by
  constructor <;> intro k h <;>
    simp only [runOptions, pollingInterval, randGenInterval, uint, h, and_self]

/-- With `--threshold 3` and `--polling-interval 12000`: degree 3, and a round every 12000 seconds. -/
example (env : String → Option ℤ) : let flags : Flags := fun key => if key = "threshold" then some 3
      else if key = "polling-interval" then some 12000 else none
    (runOptions flags env).degree = some 3 ∧ randGenInterval flags env = some 12000 :=
  ⟨((C70_violation_flags _ env).1 3 rfl).2, ((C70_violation_flags _ env).2 12000 rfl).2⟩

end Verif.Props
