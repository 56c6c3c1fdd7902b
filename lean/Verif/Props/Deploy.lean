import Verif.Model.Deploy
import Verif.Props.DemoMembers
import Verif.Props.ServicesStart
import Verif.Props.Config
import Verif.Props.Halo2

/-!
C77: deployment (scripts/deploy.ts) and the start of the demo (scripts/demo/admin.ts).
-/

namespace Verif.Props
open Verif.Services
open Verif.ZkdvrfPre
open Verif.Deploy

/-! ### Reading the variables -/

theorem hexVal_some {c : Char} {x : ℕ} : hexVal c = some x ↔ x < 16 ∧ c ∈ Spec.hexChars x := by
  unfold hexVal
  constructor
  · intro h
    have key : x < 16 ∧ (c.toNat = (if x < 10 then 48 + x else 87 + x) ∨ c.toNat = if x < 10 then 48 + x else 55 + x) := by
      split at h
      · cases h; split <;> omega
      · split at h
        · cases h; split <;> omega
        · split at h
          · cases h; split <;> omega
          · cases h
    obtain ⟨hx, hc⟩ := key
    refine ⟨hx, ?_⟩
    rcases hc with hc | hc <;> rw [← Char.ofNat_toNat c, hc] <;> clear h hc <;> interval_cases x <;> decide +kernel
  · rintro ⟨hx, h⟩
    simp only [Spec.hexChars, List.mem_cons, List.not_mem_nil, or_false] at h
    rcases h with rfl | rfl <;> interval_cases x <;> rfl

theorem mapM_some_forall₂ {α β : Type} {f : α → Option β} : ∀ {l : List α} {ys : List β},
    l.mapM f = some ys ↔ List.Forall₂ (fun a b => f a = some b) l ys
  | [], ys => by
    simp only [List.mapM_nil, List.forall₂_nil_left_iff]
    exact ⟨fun h => (Option.some.inj h).symm, fun h => h ▸ rfl⟩
  | a :: l, ys => by
    rw [List.mapM_cons, List.forall₂_cons_left_iff]
    cases h : f a with
    | none => simp
    | some b =>
      cases h2 : l.mapM f with
      | none =>
        refine Iff.intro (fun h => by cases h) ?_
        rintro ⟨b', ys', e1, e2, -⟩
        rw [← mapM_some_forall₂] at e2
        rw [h2] at e2; cases e2
      | some bs =>
        constructor
        · intro h'
          exact ⟨b, bs, rfl, mapM_some_forall₂.1 h2, (Option.some.inj h').symm⟩
        · rintro ⟨b', ys', e1, e2, rfl⟩
          rw [← mapM_some_forall₂, h2] at e2
          cases e1; cases e2; rfl

theorem foldl_base (b : ℕ) (ds : List ℕ) : ds.foldl (fun n d => b * n + d) 0 = Nat.ofDigits b ds.reverse := by
  induction ds using List.reverseRecOn with
  | nil => rfl
  | append_singleton ds d ih =>
    rw [List.foldl_append, List.reverse_append, List.reverse_singleton, List.singleton_append, Nat.ofDigits_cons, ← ih]
    simp only [List.foldl_cons, List.foldl_nil]
    ring

theorem numeral_some {b : ℕ} {f : Char → Option ℕ} {cs : List Char} {m : ℕ} : numeral b f cs = some m ↔
    ∃ ds, ds ≠ [] ∧ m = Nat.ofDigits b ds.reverse ∧ List.Forall₂ (fun c d => f c = some d) cs ds := by
  unfold numeral
  split
  · refine Iff.intro (fun h => by cases h) ?_
    rintro ⟨ds, h1, -, h2⟩
    cases h2; exact absurd rfl h1
  · next h0 =>
    rw [Option.map_eq_some_iff]
    constructor
    · rintro ⟨ds, h1, rfl⟩
      refine ⟨ds, ?_, foldl_base b ds, mapM_some_forall₂.1 h1⟩
      rintro rfl
      have := mapM_some_forall₂.1 h1
      cases this; exact h0 rfl
    · rintro ⟨ds, h1, rfl, h2⟩
      exact ⟨ds, mapM_some_forall₂.2 h2, foldl_base b ds⟩

theorem forall₂_and_right {α β : Type} {P : β → Prop} {R : α → β → Prop} : ∀ {l : List α} {ys : List β},
    List.Forall₂ (fun a b => P b ∧ R a b) l ys ↔ (∀ b ∈ ys, P b) ∧ List.Forall₂ R l ys
  | [], [] => by simp
  | [], _ :: _ => by simp
  | _ :: _, [] => by simp
  | a :: l, b :: ys => by
    rw [List.forall₂_cons, List.forall₂_cons, forall₂_and_right, List.forall_mem_cons]
    exact and_and_and_comm

theorem forall₂_eq_map {α β : Type} {f : β → α} : ∀ {l : List α} {ys : List β},
    List.Forall₂ (fun a b => a = f b) l ys ↔ l = ys.map f
  | [], [] => by simp
  | [], _ :: _ => by simp
  | _ :: _, [] => by simp
  | a :: l, b :: ys => by
    rw [List.forall₂_cons, forall₂_eq_map, List.map_cons, List.cons.injEq]

theorem numeral_dec {cs : List Char} {m : ℕ} : numeral 10 Config.digitVal cs = some m ↔ Spec.DecimalNumeral cs m := by
  rw [numeral_some]
  refine exists_congr fun ds => and_congr_right fun _ => ?_
  simp only [digitVal_some]
  rw [forall₂_and_right, forall₂_eq_map]
  exact and_left_comm

theorem numeral_hex {cs : List Char} {m : ℕ} : numeral 16 hexVal cs = some m ↔ Spec.HexNumeral ('0' :: 'x' :: cs) m := by
  rw [numeral_some]
  refine exists_congr fun ds => ?_
  simp only [hexVal_some]
  rw [forall₂_and_right]
  constructor
  · rintro ⟨h1, h2, h3, h4⟩
    exact ⟨cs, h1, h3, h2, rfl, h4⟩
  · rintro ⟨cs', h1, h3, h2, h5, h4⟩
    cases h5
    exact ⟨h1, h2, h3, h4⟩

theorem decimal_first {c : Char} {cs : List Char} {m : ℕ} (h : Spec.DecimalNumeral (c :: cs) m) :
    c ≠ '-' ∧ ∀ cs', cs ≠ 'x' :: cs' := by
  obtain ⟨ds, -, h1, -, h2⟩ := h
  have key : ∀ d, d < 10 → Spec.decimalChar d ≠ '-' ∧ Spec.decimalChar d ≠ 'x' := by
    intro d hd
    interval_cases d <;> decide +kernel
  match ds, h1, h2 with
  | [d], h1, h2 =>
    cases h2
    exact ⟨(key d (h1 d (by simp))).1, fun cs' h => by cases h⟩
  | d :: d' :: ds, h1, h2 =>
    rw [List.map_cons, List.map_cons] at h2
    obtain ⟨h3, h4⟩ := List.cons.inj h2
    refine ⟨h3 ▸ (key d (h1 d (by simp))).1, fun cs' h => ?_⟩
    rw [h4] at h
    exact (key d' (h1 d' (by simp))).2 (List.cons.inj h).1

theorem uintArg_of {bits : ℕ} {s : List Char} {o : Option ℕ} (h : bigNumber s = o.map fun n : ℕ => (n : ℤ)) (m : ℕ) :
    uintArg bits s = some m ↔ m < 2 ^ bits ∧ o = some m := by
  unfold uintArg
  rw [h]
  cases o with
  | none => simp
  | some n =>
    show (if n < 2 ^ bits then some n else none) = some m ↔ _
    split
    · rw [Option.some.injEq]
      constructor
      · rintro rfl; exact ⟨by assumption, rfl⟩
      · exact fun h => h.2
    · refine Iff.intro (fun h => by cases h) ?_
      rintro ⟨h1, h2⟩
      cases h2
      exact absurd h1 (by assumption)

theorem uintArg_neg {bits : ℕ} {s : List Char} {o : Option ℕ} (h : bigNumber s = o.map fun n : ℕ => -(n : ℤ)) (m : ℕ) :
    uintArg bits s = some m ↔ m = 0 ∧ o = some 0 := by
  unfold uintArg
  rw [h]
  rcases o with _ | _ | n
  · simp
  · show (if 0 < 2 ^ bits then some 0 else none) = some m ↔ _
    rw [if_pos (Nat.two_pow_pos bits), Option.some.injEq]
    simp [eq_comm]
  · show none = some m ↔ _
    simp

/-- C77. Which strings in the environment variables are numbers for the contracts, and which numbers: decimal digits, or `0x`
and hexadecimal digits of either case, of a value that fits; with a minus sign only zero. -/
theorem C77_uint_argument (bits : ℕ) (s : List Char) (m : ℕ) : uintArg bits s = some m ↔
    m < 2 ^ bits ∧ (Spec.DecimalNumeral s m ∨ Spec.HexNumeral s m ∨
      m = 0 ∧ ∃ s', s = '-' :: s' ∧ (Spec.DecimalNumeral s' 0 ∨ Spec.HexNumeral s' 0)) := by
  have hexdash : ∀ {s' : List Char} {m}, ¬ Spec.HexNumeral ('-' :: s') m := by
    rintro s' m ⟨ds, cs, -, -, -, h, -⟩
    exact absurd (List.cons.inj h).1 (by decide)
  obtain ⟨x, hx⟩ : ∃ x, bigNumber s = x := ⟨_, rfl⟩
  have hx' := hx
  unfold bigNumber at hx
  split at hx
  · next cs =>
    rw [uintArg_neg (o := numeral 16 hexVal cs) (hx'.trans hx.symm), numeral_hex]
    constructor
    · rintro ⟨rfl, h⟩
      exact ⟨Nat.two_pow_pos bits, .inr (.inr ⟨rfl, _, rfl, .inr h⟩)⟩
    · rintro ⟨-, h | h | ⟨rfl, s', h1, h | h⟩⟩
      · exact absurd rfl (decimal_first h).1
      · exact absurd h hexdash
      · cases h1; exact absurd rfl ((decimal_first h).2 cs)
      · cases h1; exact ⟨rfl, h⟩
  · next cs =>
    rw [uintArg_of (o := numeral 16 hexVal cs) (hx'.trans hx.symm), numeral_hex]
    refine and_congr_right fun _ => ⟨fun h => .inr (.inl h), ?_⟩
    rintro (h | h | ⟨-, s', h1, -⟩)
    · exact absurd rfl ((decimal_first h).2 cs)
    · exact h
    · exact absurd (List.cons.inj h1).1 (by decide)
  · next cs hno =>
    rw [uintArg_neg (o := numeral 10 Config.digitVal cs) (hx'.trans hx.symm), numeral_dec]
    constructor
    · rintro ⟨rfl, h⟩
      exact ⟨Nat.two_pow_pos bits, .inr (.inr ⟨rfl, _, rfl, .inl h⟩)⟩
    · rintro ⟨-, h | h | ⟨rfl, s', h1, h | ⟨ds, cs', -, -, -, h2, -⟩⟩⟩
      · exact absurd rfl (decimal_first h).1
      · exact absurd h hexdash
      · cases h1; exact ⟨rfl, h⟩
      · cases h1; exact (hno cs' h2).elim
  · next h1 h2 h3 =>
    rw [uintArg_of (o := numeral 10 Config.digitVal s) (hx'.trans hx.symm), numeral_dec]
    refine and_congr_right fun _ => ⟨.inl, ?_⟩
    rintro (h | ⟨ds, cs', -, -, -, h, -⟩ | ⟨-, s', h, -⟩)
    · exact h
    · exact (h2 cs' h).elim
    · exact (h3 s' h).elim

/-- All forms occur. -/
example : uintArg 32 "0x1F".toList = some 31 ∧ uintArg 32 "0031".toList = some 31 ∧ uintArg 32 "-0x0".toList = some 0 ∧
  uintArg 32 "-1".toList = none ∧ uintArg 4 "31".toList = none := by decide +kernel

theorem key_split {t n d : List Char} (h : t ++ ['-'] ++ n ++ ['-'] ++ d = "3-5-18".toList) :
    t = ['3'] ∧ n = ['5'] ∧ d = ['1', '8'] := by
  have h' : t ++ ('-' :: (n ++ '-' :: d)) = ['3', '-', '5', '-', '1', '8'] := by
    simpa using h
  clear h
  rcases t with _ | ⟨a, _ | ⟨b, _ | ⟨c, _ | ⟨e, _ | ⟨f, _ | ⟨g, t⟩⟩⟩⟩⟩⟩ <;> simp at h'
  · obtain ⟨rfl, h'⟩ := h'
    rcases n with _ | ⟨b, _ | ⟨c, _ | ⟨e, _ | ⟨f, n⟩⟩⟩⟩ <;> simp at h'
    · obtain ⟨rfl, rfl⟩ := h'
      exact ⟨rfl, rfl, rfl⟩
  · obtain ⟨rfl, rfl, rfl, h'⟩ := h'
    rcases n with _ | ⟨b, _ | ⟨c, n⟩⟩ <;> simp at h'

theorem keyArtifact_iff (t n d : Option (List Char)) (w : List Word) :
    keyArtifact t n d = some w ↔
      w = Halo2.vkWords ∧ t = some ['3'] ∧ n = some ['5'] ∧ d = some ['1', '8'] := by
  unfold keyArtifact
  dsimp only
  constructor
  · intro h
    split at h
    · rename_i hn
      have h2 := List.append_cancel_left (as := "contracts/Halo2VerifyingKey-".toList)
        (bs := t.getD "undefined".toList ++ ['-'] ++ n.getD "undefined".toList ++ ['-'] ++
          d.getD "undefined".toList ++ "-g2.sol:Halo2VerifyingKey".toList)
        (cs := "3-5-18".toList ++ "-g2.sol:Halo2VerifyingKey".toList)
        (by simp only [← List.append_assoc]; exact hn.trans (by decide))
      obtain ⟨h3, h4, h5⟩ := key_split (List.append_cancel_right h2)
      refine ⟨(Option.some.inj h).symm, ?_, ?_, ?_⟩
      · cases t with
        | none => exact absurd h3 (by decide)
        | some x => exact congrArg some h3
      · cases n with
        | none => exact absurd h4 (by decide)
        | some x => exact congrArg some h4
      · cases d with
        | none => exact absurd h5 (by decide)
        | some x => exact congrArg some h5
    · cases h
  · rintro ⟨rfl, rfl, rfl, rfl⟩
    rw [if_pos (by decide)]

/-- C77. Without `DEPLOY_NO_HELPERS=true` the deployment succeeds exactly for the configuration 3 of 5 with
degree 18, written just so (no leading zeros, no other notation), a nonzero address of the owner and a
minimal deposit in range.  The contract then has this configuration and this owner, no members yet, and
its proof check is the verifier contract of the repository with the key contract of the repository. -/
theorem C77_deploy_with_helpers (v : Config.Vars) (c : Chain) (deployer : Address)
    (hv : v "DEPLOY_NO_HELPERS" ≠ some "true".toList) :
    ((∃ d, main v c deployer = some d) ↔
      v "THRESHOLD" = some "3".toList ∧ v "NUMBER_OF_MEMBERS" = some "5".toList ∧
      v "DEGREE" = some "18".toList ∧ (∃ o, o ≠ 0 ∧ c.address ((v "ADMIN_ADDRESS").getD []) = some o) ∧
      ∃ m, uintArg 256 ((v "MIN_DEPOSIT").getD ['0']) = some m) ∧
    ∀ d, main v c deployer = some d →
      d.p.threshold = 3 ∧ d.p.memberCount = 5 ∧
      c.address ((v "ADMIN_ADDRESS").getD []) = some d.p.owner ∧
      uintArg 256 ((v "MIN_DEPOSIT").getD ['0']) = some d.p.minNodeDeposit ∧
      d.p.contractPhase = .Unregistered ∧ (∀ a, ¬ Added d.p a) ∧ d.p.pkList = [] ∧
      (∀ env, Reachable env d.p) ∧
      ∃ addr, ∀ E keccak sel, (envOf E keccak sel d).verifyProof =
        Halo2.verifyProof E keccak Halo2.vkWords sel addr := by
  have key : ∀ d, main v c deployer = some d → ∃ o m, v "THRESHOLD" = some "3".toList ∧
      v "NUMBER_OF_MEMBERS" = some "5".toList ∧ v "DEGREE" = some "18".toList ∧
      c.address ((v "ADMIN_ADDRESS").getD []) = some o ∧
      uintArg 256 ((v "MIN_DEPOSIT").getD ['0']) = some m ∧
      constructor ⟨deployer, 0⟩ 3 5 o true true true m = some d.p ∧
      d.halo2Verifier = c.created 1 ∧ d.halo2VerifyingKey = c.created 0 ∧
      d.chain.key (c.created 0) = some Halo2.vkWords ∧ d.chain.verifier (c.created 1) = true := by
    intro d h
    unfold main helpers at h
    rw [if_neg hv] at h
    cases hk : keyArtifact (v "THRESHOLD") (v "NUMBER_OF_MEMBERS") (v "DEGREE") with
    | none => rw [hk] at h; cases h
    | some w =>
      obtain ⟨rfl, e1, e2, e3⟩ := (keyArtifact_iff _ _ _ _).1 hk
      have u3 : uintArg 32 ['3'] = some 3 := by decide
      have u5 : uintArg 32 ['5'] = some 5 := by decide
      rw [hk, e1, e2] at h
      simp only [Option.bind_eq_bind, Option.bind_some, pure, u3, u5] at h
      cases ho : c.address ((v "ADMIN_ADDRESS").getD []) with
      | none => rw [ho] at h; cases h
      | some o =>
        cases hm : uintArg 256 ((v "MIN_DEPOSIT").getD ['0']) with
        | none => rw [ho, hm] at h; cases h
        | some m =>
          rw [ho, hm] at h
          simp only [Option.bind_some] at h
          rw [decide_eq_true (c.created_ne 1), decide_eq_true (c.created_ne 2),
            decide_eq_true (c.created_ne 3)] at h
          cases hc : constructor ⟨deployer, 0⟩ 3 5 o true true true m with
          | none => rw [hc] at h; cases h
          | some p =>
            rw [hc] at h
            obtain rfl := Option.some.inj h
            exact ⟨o, m, e1, e2, e3, rfl, rfl, hc, rfl, rfl, Function.update_self _ _ _,
              Function.update_self _ _ _⟩
  constructor
  · constructor
    · rintro ⟨d, h⟩
      obtain ⟨o, m, e1, e2, e3, e4, e5, e6, _⟩ := key d h
      exact ⟨e1, e2, e3, ⟨o, (constructor_some.1 e6).2.1, e4⟩, m, e5⟩
    · rintro ⟨e1, e2, e3, ⟨o, h0, e4⟩, m, e5⟩
      have u3 : uintArg 32 "3".toList = some 3 := by decide
      have u5 : uintArg 32 "5".toList = some 5 := by decide
      have hk := (keyArtifact_iff _ _ _ _).2 ⟨rfl, e1, e2, e3⟩
      unfold main helpers
      rw [if_neg hv, hk, e1, e2]
      simp only [Option.bind_eq_bind, Option.bind_some, pure, u3, u5, e4, e5]
      rw [decide_eq_true (c.created_ne 1), decide_eq_true (c.created_ne 2),
            decide_eq_true (c.created_ne 3),
        constructor_some.2 ⟨rfl, h0, rfl, by norm_num, by norm_num, by norm_num, by norm_num, rfl⟩]
      exact ⟨_, rfl⟩
  · intro d h
    obtain ⟨o, m, e1, e2, e3, e4, e5, e6, e7, e8, e9, e10⟩ := key d h
    have hr : ∀ env, Reachable env d.p := fun env => Reachable.deploy e6
    obtain ⟨_, _, _, _, _, _, _, hp⟩ := constructor_some.1 e6
    refine ⟨by rw [← hp], by rw [← hp], by rw [e4, ← hp], by rw [e5, ← hp], by rw [← hp], ?_,
      by rw [← hp], hr,
      BitVec.zeroExtend 256 d.halo2VerifyingKey, ?_⟩
    · rw [← hp]
      exact fun a h => h rfl
    · intro E keccak sel
      funext pr ins
      change proofCheck E keccak sel d pr ins = _
      unfold proofCheck
      rw [e7, e10, if_pos rfl, e8, e9]
      rfl

/-- C77. With `DEPLOY_NO_HELPERS=true` any threshold and any number of members below `2^32` with `7n + 14 < 2^32`
is deployed, also threshold 0 or a threshold above the number of members; three of the four addresses
must not be zero, the address of the key may. -/
theorem C77_deploy_without_helpers (v : Config.Vars) (c : Chain) (deployer : Address)
    (hv : v "DEPLOY_NO_HELPERS" = some "true".toList) (t n m : ℕ) (o a k g s : Address)
    (h1 : v "THRESHOLD" >>= uintArg 32 = some t) (h2 : v "NUMBER_OF_MEMBERS" >>= uintArg 32 = some n)
    (h3 : c.address ((v "ADMIN_ADDRESS").getD []) = some o)
    (h4 : uintArg 256 ((v "MIN_DEPOSIT").getD ['0']) = some m)
    (h5 : v "HALO2V" >>= c.address = some a) (h6 : v "HALO2VK" >>= c.address = some k)
    (h7 : v "GPP" >>= c.address = some g) (h8 : v "PSRAND" >>= c.address = some s) :
    ((∃ d, main v c deployer = some d) ↔ o ≠ 0 ∧ a ≠ 0 ∧ g ≠ 0 ∧ s ≠ 0 ∧ 7 * n + 14 < 2 ^ 32) ∧
    ∀ d, main v c deployer = some d → d.p.threshold = t ∧ d.p.memberCount = n ∧ d.p.owner = o ∧
      d.p.minNodeDeposit = m ∧ d.halo2Verifier = a ∧ d.halo2VerifyingKey = k ∧ d.chain = c ∧
      ∀ env, Reachable env d.p := by
  have hT : t < 2 ^ 32 := by
    cases hx : v "THRESHOLD" with
    | none => rw [hx] at h1; cases h1
    | some x =>
      rw [hx] at h1
      change uintArg 32 x = some t at h1
      unfold uintArg at h1
      split at h1
      · split at h1
        · obtain rfl := Option.some.inj h1; assumption
        · cases h1
      · cases h1
  have e : main v c deployer =
      (constructor ⟨deployer, 0⟩ t n o (decide (a ≠ 0)) (decide (g ≠ 0)) (decide (s ≠ 0)) m).map
        (fun p => (⟨p, a, k, c⟩ : Result)) := by
    unfold main helpers
    rw [if_pos hv, h5, h6, h7, h8]
    simp only [Option.bind_eq_bind, Option.bind_some, pure] at h1 h2 ⊢
    rw [h1, h2, h3, h4]
    simp only [Option.bind_some]
    cases constructor ⟨deployer, 0⟩ t n o (decide (a ≠ 0)) (decide (g ≠ 0)) (decide (s ≠ 0)) m <;> rfl
  rw [e]
  constructor
  · constructor
    · rintro ⟨d, h⟩
      obtain ⟨p, hp, _⟩ := Option.map_eq_some_iff.1 h
      obtain ⟨_, q1, q2, q3, q4, q5, q6, _⟩ := constructor_some.1 hp
      simp only [Bool.and_eq_true, decide_eq_true_eq] at q2
      exact ⟨q1, q2.1.1, q2.1.2, q2.2, q6⟩
    · rintro ⟨q1, q2, q3, q4, q5⟩
      rw [constructor_some.2 ⟨rfl, q1, by
        simp only [Bool.and_eq_true, decide_eq_true_eq]; exact ⟨⟨q2, q3⟩, q4⟩, by omega, hT, by omega, q5, rfl⟩]
      exact ⟨_, rfl⟩
  · intro d h
    obtain ⟨p, hp, rfl⟩ := Option.map_eq_some_iff.1 h
    have hr : ∀ env, Reachable env p := fun env => Reachable.deploy hp
    obtain ⟨_, _, _, _, _, _, _, hp⟩ := constructor_some.1 hp
    exact ⟨by rw [← hp], by rw [← hp], by rw [← hp], by rw [← hp], rfl, rfl, rfl, hr⟩

/-- C77 (violation). A contract deployed for a number `n` of members with a key that does not ask for `7n + 14`
public inputs - the key contract of the repository with `n` other than 5, or an address without a
contract, which the constructor does not reject - is useless: no dealing is ever accepted, so with at
least one member the setup never gets past the dealing phase. -/
theorem C77_violation_wrong_key (E : BnPairing) (keccak : Keccak) (sel : List Byte)
    (hs : sel.length = 4) (d : Result) {p : State} (hr : Reachable (envOf E keccak sel d) p)
    (ht : 1 ≤ p.threshold)
    (hk : (d.chain.key d.halo2VerifyingKey = none) ∨
      (d.chain.key d.halo2VerifyingKey = some Halo2.vkWords ∧ p.memberCount ≠ 5)) :
    p.ppList = [] ∧ (1 ≤ p.memberCount →
      p.contractPhase = .Unregistered ∨ p.contractPhase = .Registered ∨ p.contractPhase = .Nidkg) := by
  obtain ⟨_, o1, o2, hz⟩ := sim hr ht
  have hd := Zkdvrf.dkgInv hz
  have hnil : p.ppList = [] := by
    by_contra hne
    obtain ⟨pp, hpp⟩ := List.exists_mem_of_ne_nil _ hne
    obtain ⟨proof, q1, q2, _⟩ := hd.ppOk pp hpp
    change proofCheck E keccak sel d proof pp = some true at q1
    unfold proofCheck at q1
    split at q1
    · obtain ⟨_, π, inst, _, _, q3, q4⟩ := Halo2.verifyProof_format' E keccak _ sel hs _ _ _ q1
      have q5 : pp.length = inst.length := by rw [q3, wordsOf, List.length_map]
      have q6 : pp.length = 7 * p.memberCount + 14 := q2
      rcases hk with hk | ⟨hk, h5⟩
      · rw [hk] at q4
        have : ((([] : List Word)).getD 1 0).toNat = 0 := rfl
        rw [show (none : Option (List Word)).getD [] = [] from rfl, this] at q4
        omega
      · rw [hk] at q4
        have : (Halo2.vkWords.getD 1 0).toNat = 49 := by decide +kernel
        rw [show (some Halo2.vkWords).getD [] = Halo2.vkWords from rfl, this] at q4
        omega
    · cases q1
  refine ⟨hnil, fun hn => ?_⟩
  have hlate : ∀ ph, p.contractPhase = ph → ph ≠ .NidkgComplete ∧ ph ≠ .Ready := by
    intro ph hph
    have hl : (p.toZk o1 o2).ppList.length = 0 := by
      change p.ppList.length = 0
      rw [hnil]; rfl
    have hc := hd.ppLen
    constructor
    · rintro rfl
      have := hd.late (.inl (toZk_complete.2 hph))
      change _ = p.memberCount at this
      omega
    · rintro rfl
      have := hd.late (.inr (toZk_ready.2 hph))
      change _ = p.memberCount at this
      omega
  cases hph : p.contractPhase with
  | Unregistered => exact Or.inl rfl
  | Registered => exact Or.inr (Or.inl rfl)
  | Nidkg => exact Or.inr (Or.inr rfl)
  | NidkgComplete => exact absurd rfl (hlate _ hph).1
  | Ready => exact absurd rfl (hlate _ hph).2

/-- C77. A deployment with helpers and a client started in the same environment agree on the configuration. -/
theorem C77_client_agrees (v : Config.Vars) (c : Chain) (deployer : Address)
    (hv : v "DEPLOY_NO_HELPERS" ≠ some "true".toList) (d : Result) (h : main v c deployer = some d) :
    Config.clientConfig v = .ok (⟨d.p.threshold, d.p.memberCount⟩, 18) := by
  obtain ⟨e1, e2, e3, _⟩ := (C77_deploy_with_helpers v c deployer hv).1.1 ⟨d, h⟩
  obtain ⟨f1, f2, _⟩ := (C77_deploy_with_helpers v c deployer hv).2 d h
  have hr : Config.readParams v = (3, 5, 18) := by
    unfold Config.readParams Config.varU32
    rw [e1, e2, e3]
    decide
  unfold Config.clientConfig
  rw [hr, f1, f2]
  rfl

/-- C77 (violation). Without helpers a configuration in hexadecimal notation is deployed as written, but a
client started in the same environment does not read it and runs with 3 of 5 and degree 18. -/
theorem C77_violation_hex (v : Config.Vars) (cs : List Char)
    (h : v "THRESHOLD" = some ('0' :: 'x' :: cs) ∨ v "NUMBER_OF_MEMBERS" = some ('0' :: 'x' :: cs)) :
    Config.clientConfig v = .ok (⟨3, 5⟩, 18) := by
  refine (C70_client_config v).2 ?_
  have hno : ¬ ∃ m, Spec.Numeral ('0' :: 'x' :: cs) m := by
    rintro ⟨m, ds, _, h2, _, h3 | h3⟩
    · match ds, h2, h3 with
      | [], _, h3 => exact absurd (congrArg List.length h3) (by simp)
      | [a], _, h3 => exact absurd (congrArg List.length h3) (by simp)
      | a :: b :: ds, h2, h3 =>
        simp only [List.map_cons, List.cons.injEq] at h3
        have hb := h2 b (by simp)
        have := h3.2.1
        interval_cases b <;> revert this <;> decide
    · cases h3
  rcases h with h | h
  · exact ⟨"THRESHOLD", by simp, fun ⟨s, m, e1, e2, _⟩ => hno ⟨m, by rw [h] at e1; cases e1; exact e2⟩⟩
  · exact ⟨"NUMBER_OF_MEMBERS", by simp,
      fun ⟨s, m, e1, e2, _⟩ => hno ⟨m, by rw [h] at e1; cases e1; exact e2⟩⟩

/-! ### The start of the demo -/

theorem addMembers_spec {env : Env} {o : Address} (ho : o ≠ 0) :
    ∀ (ws : List Address) (p : State), Reachable env p → 1 ≤ p.threshold → p.owner = o →
    ((∃ p', addMembers env o false ws p = some p') ↔
      (0 ∉ ws ∧ ws.Nodup ∧ (∀ a ∈ ws, ¬ Added p a) ∧
        {a | Added p a}.ncard + ws.length ≤ p.memberCount)) ∧
    ∀ p', addMembers env o false ws p = some p' → Reachable env p' ∧
      (∀ a, Added p' a ↔ Added p a ∨ a ∈ ws) ∧ (∀ a, Added p a → p'.addrToNode a = p.addrToNode a) ∧
      (∀ a, ¬ Registered p a → ¬ Registered p' a) ∧
      p' = { p with addrToNode := p'.addrToNode, currentIndex := p'.currentIndex } := by
  intro ws
  induction ws with
  | nil =>
    intro p hr ht _
    obtain ⟨A, hm, hA, hle, _, _⟩ := ncard_added hr ht
    refine ⟨⟨fun _ => ⟨List.not_mem_nil, List.nodup_nil, by simp, ?_⟩, fun _ => ⟨p, rfl⟩⟩, ?_⟩
    · have : {a | Added p a} = (A : Set Address) := by ext a; simp [hm]
      rw [this, Set.ncard_coe_finset, hA]
      exact hle
    · rintro p' h
      cases h
      exact ⟨hr, fun a => by simp, fun _ _ => rfl, fun _ h => h, rfl⟩
  | cons a ws ih =>
    intro p hr ht hown
    obtain ⟨A, hm, hA, hle, hb, h0⟩ := ncard_added hr ht
    have hset : {a | Added p a} = (A : Set Address) := by ext a; simp [hm]
    have hfold : addMembers env o false (a :: ws) p =
        (ZkdvrfPre.exec env p ⟨o, 0⟩ (.addPermissionedNodes a)).bind
          (fun p => addMembers env o false ws p) := rfl
    rw [hfold]
    cases he : exec env p ⟨o, 0⟩ (.addPermissionedNodes a) with
    | none =>
      rw [Option.bind_none]
      refine ⟨⟨fun ⟨_, h⟩ => (by cases h), fun ⟨h1, h2, h3, h4⟩ => ?_⟩, fun _ h => (by cases h)⟩
      exfalso
      rw [hset, Set.ncard_coe_finset, List.length_cons] at h4
      have hna : (p.addrToNode a).nodeAddress = 0 := by
        have := h3 a List.mem_cons_self
        unfold Added at this
        exact not_not.1 this
      have : exec env p ⟨o, 0⟩ (.addPermissionedNodes a) = some _ :=
        addPermissionedNodes_some.2 ⟨rfl, hown.symm, by omega,
          fun h => h1 (by rw [h]; exact List.mem_cons_self), hna, by omega, rfl⟩
      rw [he] at this
      cases this
    | some p1 =>
      rw [Option.bind_some]
      obtain ⟨_, _, g1, g2, g3, g4, g5⟩ := addPermissionedNodes_some.1 he
      have hr1 : Reachable env p1 := by
        have := Reachable.step (env := env) (.call ⟨o, 0⟩ (.addPermissionedNodes a)) ho hr
        rwa [step_some he] at this
      have t1 : p1.threshold = p.threshold := by rw [← g5]
      have o1 : p1.owner = p.owner := by rw [← g5]
      have m1 : p1.memberCount = p.memberCount := by rw [← g5]
      obtain ⟨i1, i2⟩ := ih p1 hr1 (by rw [t1]; exact ht) (by rw [o1]; exact hown)
      have hadd1 : ∀ b, Added p1 b ↔ Added p b ∨ b = a := by
        intro b
        unfold Added
        rw [← g5]
        dsimp only
        by_cases hba : b = a
        · subst hba
          rw [Function.update_self]
          exact ⟨fun _ => Or.inr rfl, fun _ => g2⟩
        · rw [Function.update_of_ne hba]
          exact ⟨Or.inl, fun h => h.resolve_right hba⟩
      have hnotA : a ∉ A := fun h => (hm a).1 h g3
      have hset1 : {a | Added p1 a} = ((insert a A : Finset Address) : Set Address) := by
        ext b
        rw [Finset.mem_coe, Finset.mem_insert, hm]
        exact (hadd1 b).trans or_comm
      constructor
      · rw [i1, hset1, hset, Set.ncard_coe_finset, Set.ncard_coe_finset,
          Finset.card_insert_of_notMem hnotA, m1, List.length_cons]
        constructor
        · rintro ⟨q1, q2, q3, q4⟩
          refine ⟨?_, List.nodup_cons.2 ⟨fun h => q3 a h ((hadd1 a).2 (Or.inr rfl)), q2⟩, ?_, by omega⟩
          · intro h
            rcases List.mem_cons.1 h with h | h
            · exact g2 h.symm
            · exact q1 h
          · intro b hb
            rcases List.mem_cons.1 hb with rfl | hb
            · exact fun h => h g3
            · exact fun h => q3 b hb ((hadd1 b).2 (Or.inl h))
        · rintro ⟨q1, q2, q3, q4⟩
          obtain ⟨q5, q6⟩ := List.nodup_cons.1 q2
          refine ⟨fun h => q1 (List.mem_cons_of_mem _ h), q6, ?_, by omega⟩
          intro b hb h
          rcases (hadd1 b).1 h with h | rfl
          · exact q3 b (List.mem_cons_of_mem _ hb) h
          · exact q5 hb
      · intro p' hp'
        obtain ⟨j1, j2, j3, j4, j5⟩ := i2 p' hp'
        refine ⟨j1, ?_, ?_, ?_, ?_⟩
        · intro b
          rw [j2, hadd1, List.mem_cons, or_assoc]
        · intro b hb
          rw [j3 b ((hadd1 b).2 (Or.inl hb)), ← g5]
          dsimp only
          rw [Function.update_of_ne]
          rintro rfl
          exact hb g3
        · intro b hb
          refine j4 b ?_
          rw [← g5]
          unfold Registered at hb ⊢
          dsimp only
          by_cases hba : b = a
          · subst hba
            rw [Function.update_self]
            exact Bool.false_ne_true
          · rw [Function.update_of_ne hba]
            exact hb
        · rw [j5, ← g5]

/-- C77. The start of the demo admin adds all configured members, or fails: it needs distinct nonzero
addresses, none of them added before, within the number of members.  Nothing else changes. -/
theorem C77_add_members (env : Env) {o : Address} (ho : o ≠ 0) {p : State} (hr : Reachable env p)
    (ht : 1 ≤ p.threshold) (hown : p.owner = o) (ws : List Address) :
    ((∃ p', addMembers env o false ws p = some p') ↔
      (0 ∉ ws ∧ ws.Nodup ∧ (∀ a ∈ ws, ¬ Added p a) ∧
        {a | Added p a}.ncard + ws.length ≤ p.memberCount)) ∧
    ∀ p', addMembers env o false ws p = some p' →
      (∀ a, Added p' a ↔ Added p a ∨ a ∈ ws) ∧ (∀ a, Added p a → p'.addrToNode a = p.addrToNode a) ∧
      (∀ a, ¬ Registered p a → ¬ Registered p' a) ∧
      p' = { p with addrToNode := p'.addrToNode, currentIndex := p'.currentIndex } := by
  obtain ⟨h1, h2⟩ := addMembers_spec (env := env) ho ws p hr ht hown
  exact ⟨h1, fun p' h => (h2 p' h).2⟩

/-- C77. It is not repeatable: a second start fails, unless it is told to restart (`RESTART=true`). -/
theorem C77_second_start (env : Env) {o : Address} (ho : o ≠ 0) {p p' : State} (hr : Reachable env p)
    (ht : 1 ≤ p.threshold) (hown : p.owner = o) (a : Address) (ws : List Address)
    (h : addMembers env o false (a :: ws) p = some p') :
    addMembers env o false (a :: ws) p' = none ∧ addMembers env o true (a :: ws) p' = some p' := by
  refine ⟨?_, rfl⟩
  obtain ⟨h1, h2, _, _, h3⟩ := (addMembers_spec (env := env) ho (a :: ws) p hr ht hown).2 p' h
  have t1 : p'.threshold = p.threshold := by rw [h3]
  have o1 : p'.owner = p.owner := by rw [h3]
  have := (addMembers_spec (env := env) ho (a :: ws) p' h1 (by rw [t1]; exact ht)
    (by rw [o1]; exact hown)).1
  cases he : addMembers env o false (a :: ws) p' with
  | none => rfl
  | some x =>
    exact absurd ((h2 a).2 (Or.inr List.mem_cons_self)) ((this.1 ⟨x, he⟩).2.2.1 a List.mem_cons_self)

/-- C77, C76. From the deployment script to any number of randoms: after a deployment with helpers and without
a minimal deposit, the admin script started with the five members' addresses adds them, and the demo runs
through to any number of rounds (see `C76_demo_runs` for the values). -/
theorem C77_demo_from_deployment (v : Config.Vars) (c : Chain) (deployer : Address)
    (hv : v "DEPLOY_NO_HELPERS" ≠ some "true".toList) (hm : v "MIN_DEPOSIT" = none) {d : Result}
    (hd : main v c deployer = some d) (M : Machine) {aux1 : G1} {aux2 : G2}
    (hM : Faithful M 3 5 aux1 aux2) (ms : List (Address × Draw)) (h5 : ms.length = 5)
    (h0 : 0 ∉ ms.map Prod.fst) (hn : (ms.map Prod.fst).Nodup)
    (hg : ∀ m ∈ ms, GoodDraw 3 5 aux1 aux2 m.2) (early : Bool) :
    ∃ cfg p, Config.clientConfig v = .ok (cfg, 18) ∧
      addMembers M.env d.p.owner false (ms.map Prod.fst) d.p = some p ∧
      ∃ w1, DemoMembers.setup M cfg d.p.owner ms early ⟨p, [], .none⟩ = some w1 ∧
        w1.p.gpkVal = encodeG2 (smul2 (ms.map (fun m => m.2.stream 0)).sum g2) ∧
        ∀ rs : List (List (Address × Draw)),
          (∀ l ∈ rs, (∀ m ∈ l, m.1 ∈ ms.map Prod.fst) ∧ (l.map Prod.fst).Nodup ∧ 3 ≤ l.length) →
          rs.length + 1 < 2 ^ 256 →
          ∃ w2, rs.foldlM (fun w l => DemoMembers.round M cfg d.p.owner 5 l w) w1 = some w2 ∧
            ∀ k, 1 ≤ k → k ≤ rs.length → Completed w2.p k ∧
              (w2.p.roundToRandom k).proof = encodeG1 ((ms.map (fun m => m.2.stream 0)).sum •
                evalHash M.env.keccak (strBytes "zkRand-v1-2024:" ++ decimal k)) := by
  obtain ⟨⟨f1, f2, f3, ⟨o, f4, f5⟩, f6⟩, f7⟩ :=
    And.intro ((C77_deploy_with_helpers v c deployer hv).1.1 ⟨d, hd⟩)
      ((C77_deploy_with_helpers v c deployer hv).2 d hd)
  obtain ⟨g1, g2, g3, g4, g5, g6, hkeys, g7, _⟩ := f7
  rw [f5] at g3
  obtain rfl := Option.some.inj g3
  have hdep : d.p.minNodeDeposit = 0 := by
    rw [hm] at g4
    have : uintArg 256 ['0'] = some 0 := by decide
    exact Option.some.inj (g4.symm.trans this)
  have hcfg := C77_client_agrees v c deployer hv d hd
  obtain ⟨a1, a2⟩ := addMembers_spec (env := M.env) f4 (ms.map Prod.fst) d.p (g7 _)
    (by rw [g1]; norm_num) rfl
  have hemp : {a | Added d.p a} = ∅ := by
    ext a
    simp [g6 a]
  obtain ⟨p, hp⟩ := a1.2 ⟨h0, hn, fun a _ => g6 a, by
    rw [hemp, Set.ncard_empty, List.length_map, h5, g2]⟩
  obtain ⟨b1, b2, _, b3, b4⟩ := a2 p hp
  have hf : Fresh M d.p.owner (ms.map Prod.fst) 3 5 p :=
    ⟨b1, by rw [b4], f4, by rw [b4]; exact g1, by rw [b4]; exact g2, by norm_num, by norm_num,
      by rw [b4]; exact g5, by rw [b4]; exact hkeys, by rw [b4]; exact hdep, hn,
      by rw [List.length_map, h5], fun a => (b2 a).trans ⟨fun h => h.resolve_left (g6 a), Or.inr⟩⟩
  obtain ⟨w1, c1, _, _, c2, _, c3⟩ := C76_demo_runs M hM (w := ⟨p, [], .none⟩) hf hg early
  refine ⟨⟨3, 5⟩, p, by rw [hcfg, g1, g2], hp, w1, c1, c2, ?_⟩
  intro rs hrs hb
  obtain ⟨w2, e1, _, e3⟩ := c3 rs hrs hb
  exact ⟨w2, e1, fun k k1 k2 => ⟨(e3 k k1 k2).1, (e3 k k1 k2).2.1⟩⟩

/-! ### Concrete deployments meeting the hypotheses -/

/-- A chain on which every string is an address: the number of its characters. -/
def toyChain : Chain where
  key := fun _ => none
  verifier := fun _ => false
  address := fun s => some (BitVec.ofNat 160 s.length)
  created := fun _ => 100
  created_ne := fun _ => by decide

/-- The configuration of docker-compose.yml:11-13. -/
def toyVars : Config.Vars := fun key =>
  if key = "THRESHOLD" then some "3".toList
  else if key = "NUMBER_OF_MEMBERS" then some "5".toList
  else if key = "DEGREE" then some "18".toList
  else if key = "ADMIN_ADDRESS" then some "0x12345".toList
  else none

theorem toy_deployed : ∃ d, main toyVars toyChain 1 = some d ∧ d.p.owner = 7 := by
  obtain ⟨h1, h2⟩ := C77_deploy_with_helpers toyVars toyChain 1 (by decide)
  obtain ⟨d, hd⟩ := h1.2 ⟨rfl, rfl, rfl, ⟨7, by decide, rfl⟩, 0, by decide⟩
  have h3 := (h2 d hd).2.2.1
  exact ⟨d, hd, (Option.some.inj (h3.symm.trans (show _ = some 7 from rfl)))⟩

open Classical in
/-- A machine for 3 of 5. -/
noncomputable def toyMachine5 : Machine where
  env := toyEnv 3 5
  prover := fun _ => some []
  verifier := fun _ _ => true
  infPanics := true

open Classical in
theorem toy_faithful5 : Faithful toyMachine5 3 5 (5 • g1) FixedPoint.aux2 where
  sound := toy_sound 3 5
  table1 := FixedPoint.tableFitsN_spec addOrderOf_g1 (by decide +kernel)
  order2 := FixedPoint.r_nsmul_aux2
  table2 := FixedPoint.aux2_tableFits
  proves := fun ins h => ⟨[], rfl, rfl, congrArg some (decide_eq_true ⟨ins, rfl, h⟩)⟩
  hash := fun _ => by change (1 : Word) ≠ 0; decide +kernel

/-- Draws with which everything works for threshold 3. -/
noncomputable def toyDraw5 : Draw := ⟨1, fun i => if i = 1 ∨ i = 2 then 0 else 7, 3⟩

theorem toy_good5 : GoodDraw 3 5 (5 • g1) FixedPoint.aux2 toyDraw5 := by
  have hu1 : Spec.Usable g1 (5 • g1) (7 : Fr) :=
    ⟨7, by norm_num, rfl, FixedPoint.fitsN_spec addOrderOf_g1 (by decide +kernel)⟩
  have hu2 : Spec.Usable g2 FixedPoint.aux2 (7 : Fr) := toy_usable2
  refine ⟨?_, ?_, hu1, hu2, ?_⟩
  · change (1 : Fq) ≠ 0
    decide +kernel
  · change (7 : Fr) ≠ 0
    decide +kernel
  · intro i _ _
    have : Spec.poly ((List.range 3).map toyDraw5.stream) (i : Fr) = 7 := by
      change Spec.poly [(7 : Fr), 0, 0] (i : Fr) = 7
      simp [Spec.poly, Fin.sum_univ_succ]
    rw [this]
    exact hu1

/-- The whole demo, from the deployment to two rounds with different members. -/
example : ∃ d p w1 w2, main toyVars toyChain 1 = some d ∧
    addMembers toyMachine5.env 7 false [1, 2, 3, 4, 5] d.p = some p ∧
    DemoMembers.setup toyMachine5 ⟨3, 5⟩ 7
      [(1, toyDraw5), (2, toyDraw5), (3, toyDraw5), (4, toyDraw5), (5, toyDraw5)] false ⟨p, [], .none⟩ = some w1 ∧
    [[((4 : Address), toyDraw5), (1, toyDraw5), (2, toyDraw5)],
      [(5, toyDraw5), (3, toyDraw5), (1, toyDraw5), (2, toyDraw5)]].foldlM
      (fun w l => DemoMembers.round toyMachine5 ⟨3, 5⟩ 7 5 l w) w1 = some w2 ∧
    Completed w2.p 1 ∧ Completed w2.p 2 := by
  obtain ⟨d, hd, ho⟩ := toy_deployed
  have hms : ∀ m ∈ [((1 : Address), toyDraw5), (2, toyDraw5), (3, toyDraw5), (4, toyDraw5), (5, toyDraw5)],
      GoodDraw 3 5 (5 • g1) FixedPoint.aux2 m.2 := by
    intro m hm
    have : m.2 = toyDraw5 := by
      simp only [List.mem_cons, List.not_mem_nil, or_false] at hm
      rcases hm with rfl | rfl | rfl | rfl | rfl <;> rfl
    rw [this]
    exact toy_good5
  obtain ⟨cfg, p, e1, e2, w1, e3, _, e4⟩ := C77_demo_from_deployment toyVars toyChain 1 (by decide) rfl hd
    toyMachine5 toy_faithful5 _ rfl (by decide) (by decide) hms false
  rw [ho] at e2 e3 e4
  have hc : cfg = ⟨3, 5⟩ := by
    have e5 := C77_client_agrees toyVars toyChain 1 (by decide) d hd
    obtain ⟨f1, f2, _⟩ := (C77_deploy_with_helpers toyVars toyChain 1 (by decide)).2 d hd
    rw [f1, f2, e1] at e5
    have := Except.ok.inj e5
    exact congrArg Prod.fst this
  subst hc
  obtain ⟨w2, g1, g2⟩ := e4 [[((4 : Address), toyDraw5), (1, toyDraw5), (2, toyDraw5)],
      [(5, toyDraw5), (3, toyDraw5), (1, toyDraw5), (2, toyDraw5)]] (by
    intro l hl
    simp only [List.mem_cons, List.not_mem_nil, or_false] at hl
    rcases hl with rfl | rfl
    · refine ⟨?_, by simp only [List.map_cons, List.map_nil]; decide, by simp⟩
      intro m hm
      simp only [List.mem_cons, List.not_mem_nil, or_false] at hm
      rcases hm with rfl | rfl | rfl <;> simp
    · refine ⟨?_, by simp only [List.map_cons, List.map_nil]; decide, by simp⟩
      intro m hm
      simp only [List.mem_cons, List.not_mem_nil, or_false] at hm
      rcases hm with rfl | rfl | rfl | rfl <;> simp) (by
    change 3 < 2 ^ 256
    norm_num)
  exact ⟨d, p, w1, w2, hd, e2, e3, g1, (g2 1 (by norm_num) (by simp)).1, (g2 2 (by norm_num) (by simp)).1⟩

/-- A deployment without helpers for 2 of 3, in hexadecimal notation, and with no key: it is accepted, and the
hypotheses of the two violations are met. -/
def toyVarsHex : Config.Vars := fun key =>
  if key = "DEPLOY_NO_HELPERS" then some "true".toList
  else if key = "THRESHOLD" then some "0x2".toList
  else if key = "NUMBER_OF_MEMBERS" then some "0x3".toList
  else if key = "DEGREE" then some "18".toList
  else if key = "HALO2VK" then some []
  else if key = "MIN_DEPOSIT" then none
  else some "0x12345".toList

example : ∃ d, main toyVarsHex toyChain 1 = some d ∧ d.p.threshold = 2 ∧ d.p.memberCount = 3 ∧
    d.chain.key d.halo2VerifyingKey = none ∧ d.halo2VerifyingKey = 0 ∧
    (∀ env, Reachable env d.p) ∧ Config.clientConfig toyVarsHex = .ok (⟨3, 5⟩, 18) := by
  obtain ⟨h1, h2⟩ := C77_deploy_without_helpers toyVarsHex toyChain 1 rfl 2 3 0 7 7 0 7 7 (by decide)
    (by decide) rfl (by decide) rfl rfl rfl rfl
  obtain ⟨d, hd⟩ := h1.2 (by decide)
  obtain ⟨e1, e2, _, _, _, e3, e4, e5⟩ := h2 d hd
  exact ⟨d, hd, e1, e2, by rw [e4]; rfl, e3, e5, C77_violation_hex toyVarsHex ['2'] (Or.inl rfl)⟩

end Verif.Props
