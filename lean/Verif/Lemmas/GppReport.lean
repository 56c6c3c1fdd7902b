import Verif.Model.GppReport
import Verif.Lemmas.ClientDkgChain

/-! Facts about the comparison of keys (Model/GppReport.lean). -/

namespace Verif.GppReport
open ZkdvrfPre (State)

theorem hexNumber_decode : ∀ {t : List Char} {bs : List Byte} (acc : ℕ), hexDecode t = some bs →
    hexNumber acc t = some (acc * 256 ^ bs.length + ofBE bs)
  | [], bs, acc, h => by
    obtain rfl : [] = bs := Option.some.inj h
    rw [List.length_nil, pow_zero, mul_one]
    rfl
  | [_], bs, acc, h => by cases h
  | a :: b :: rest, bs, acc, h => by
    rw [hexDecode] at h
    cases h1 : hexVal a with
    | none => rw [h1] at h; cases h
    | some x =>
      cases h2 : hexVal b with
      | none => rw [h1, h2] at h; cases h
      | some y =>
        cases h3 : hexDecode rest with
        | none => rw [h1, h2, h3] at h; cases h
        | some cs =>
          rw [h1, h2, h3] at h
          obtain rfl : Fin.ofNat 256 (16 * x + y) :: cs = bs := Option.some.inj h
          have hx := hexVal_lt h1
          have hy := hexVal_lt h2
          have hv : (Fin.ofNat 256 (16 * x + y)).val = 16 * x + y := Nat.mod_eq_of_lt (by omega)
          rw [hexNumber, h1]
          change (do let x ← hexVal b; hexNumber (16 * (16 * acc + _) + x) rest) = _
          rw [h2]
          change hexNumber (16 * (16 * acc + x) + y) rest = _
          rw [hexNumber_decode _ h3, ofBE_cons, List.length_cons, hv, pow_succ]
          congr 1
          ring

/-- The client writes field elements so that `BigInt` reads their value. -/
theorem bigInt_write (x : Fq) : bigInt (writeField x) = some (wordOf x).toNat := by
  have h1 : hexDecode (trim0x (writeField x)) = some (feBytes x).reverse := hexDecode_encode _
  have h2 := hexNumber_decode 0 h1
  have h3 : ofBE (feBytes x).reverse = (wordOf x).toNat := by
    rw [show (feBytes x).reverse = beBytes 32 x.val from rfl, ofBE_beBytes, toNat_wordOf_q]
    exact Nat.mod_eq_of_lt (Fq_val_lt x)
  rw [h3, zero_mul, zero_add] at h2
  cases h4 : trim0x (writeField x) with
  | nil =>
    exfalso
    rw [h4] at h1
    have := congrArg List.length (Option.some.inj h1)
    simp at this
  | cons c l =>
    rw [h4] at h2
    have h5 : writeField x = '0' :: 'x' :: (c :: l) := by
      rw [← h4]
      rfl
    rw [h5]
    exact h2

theorem differs_cons (x : Fq) (w : Word) (l : List (List Char × Word)) :
    differs ((writeField x, w) :: l) = if wordOf x = w then differs l else some true := by
  rw [differs, bigInt_write]
  change (if (wordOf x).toNat ≠ w.toNat then some true else differs l) = _
  by_cases h : wordOf x = w
  · rw [if_pos h, if_neg (not_not.2 (congrArg _ h))]
  · rw [if_neg h, if_pos (fun e => h (BitVec.eq_of_toNat_eq e))]

theorem differs_G1 (V : G1) (w : SolG1) :
    differs [((PointSerde.ofG1 V).x, w.x), ((PointSerde.ofG1 V).y, w.y)] = some (decide (w ≠ encodeG1 V)) := by
  unfold PointSerde.ofG1
  dsimp only
  rw [differs_cons, differs_cons]
  obtain ⟨x, y⟩ := w
  unfold encodeG1
  dsimp only
  by_cases h1 : wordOf (coords V).1 = x
  · rw [if_pos h1]
    by_cases h2 : wordOf (coords V).2 = y
    · rw [if_pos h2, h1, h2, decide_eq_false (not_not.2 rfl)]
      rfl
    · rw [if_neg h2]; refine congrArg some (Eq.symm ?_); rw [decide_eq_true_iff]; exact fun e => h2 (SolG1.mk.inj e).2.symm
  · rw [if_neg h1]; refine congrArg some (Eq.symm ?_); rw [decide_eq_true_iff]; exact fun e => h1 (SolG1.mk.inj e).1.symm

theorem differs_G2 (P : G2) (w : SolG2) :
    differs [((Point2Serde.ofG2 P).x0, w.x0), ((Point2Serde.ofG2 P).x1, w.x1), ((Point2Serde.ofG2 P).y0, w.y0),
      ((Point2Serde.ofG2 P).y1, w.y1)] = some (decide (w ≠ encodeG2 P)) := by
  unfold Point2Serde.ofG2
  dsimp only
  rw [differs_cons, differs_cons, differs_cons, differs_cons]
  obtain ⟨x0, x1, y0, y1⟩ := w
  unfold encodeG2
  dsimp only
  by_cases h1 : wordOf (coords P).1.re = x0
  · rw [if_pos h1]
    by_cases h2 : wordOf (coords P).1.im = x1
    · rw [if_pos h2]
      by_cases h3 : wordOf (coords P).2.re = y0
      · rw [if_pos h3]
        by_cases h4 : wordOf (coords P).2.im = y1
        · rw [if_pos h4, h1, h2, h3, h4, decide_eq_false (not_not.2 rfl)]
          rfl
        · rw [if_neg h4]; refine congrArg some (Eq.symm ?_); rw [decide_eq_true_iff]; exact fun e => h4 (SolG2.mk.inj e).2.2.2.symm
      · rw [if_neg h3]; refine congrArg some (Eq.symm ?_); rw [decide_eq_true_iff]; exact fun e => h3 (SolG2.mk.inj e).2.2.1.symm
    · rw [if_neg h2]; refine congrArg some (Eq.symm ?_); rw [decide_eq_true_iff]; exact fun e => h2 (SolG2.mk.inj e).2.1.symm
  · rw [if_neg h1]; refine congrArg some (Eq.symm ?_); rw [decide_eq_true_iff]; exact fun e => h1 (SolG2.mk.inj e).1.symm

theorem vkMessages_none : ∀ (i : ℕ) (Vs : List G1) (ws : List SolG1),
    vkMessages i (Vs.map PointSerde.ofG1) ws = none ↔ ws.length < Vs.length
  | _, [], ws => by
    simp [vkMessages]
  | _, V :: Vs, [] => by
    simp [vkMessages]
  | i, V :: Vs, w :: ws => by
    rw [List.map_cons, vkMessages, differs_G1]
    have ih := vkMessages_none (i + 1) Vs ws
    cases h : vkMessages (i + 1) (Vs.map PointSerde.ofG1) ws with
    | none =>
      have := ih.1 h
      simp only [List.length_cons]
      exact ⟨fun _ => by omega, fun _ => rfl⟩
    | some ms =>
      have h2 : ¬ ws.length < Vs.length := fun hlt => by rw [ih.2 hlt] at h; cases h
      simp only [List.length_cons]
      exact ⟨(fun h => by cases h), fun h => absurd h (by omega)⟩

theorem vkMessages_some : ∀ {i : ℕ} {Vs : List G1} {ws : List SolG1} {ms : List Message},
    vkMessages i (Vs.map PointSerde.ofG1) ws = some ms →
    ∀ m, m ∈ ms ↔ ∃ j V, m = .vk (i + j) ∧ Vs[j]? = some V ∧ ws[j]? ≠ some (encodeG1 V)
  | _, [], _, ms, h, m => by
    obtain rfl : [] = ms := Option.some.inj h
    simp
  | _, V :: Vs, [], ms, h, m => by cases h
  | i, V :: Vs, w :: ws, ms, h, m => by
    rw [List.map_cons, vkMessages, differs_G1] at h
    cases h1 : vkMessages (i + 1) (Vs.map PointSerde.ofG1) ws with
    | none => rw [h1] at h; cases h
    | some ms' =>
      rw [h1] at h
      have ih := vkMessages_some h1 m
      have e : (if decide (w ≠ encodeG1 V) = true then Message.vk i :: ms' else ms') = ms := Option.some.inj h
      rw [← e]
      have hs : (∃ j V', m = .vk (i + j) ∧ (V :: Vs)[j]? = some V' ∧ (w :: ws)[j]? ≠ some (encodeG1 V')) ↔
          (m = .vk i ∧ w ≠ encodeG1 V) ∨ ∃ j V', m = .vk (i + 1 + j) ∧ Vs[j]? = some V' ∧ ws[j]? ≠ some (encodeG1 V') := by
        constructor
        · rintro ⟨j, V', h1, h2, h3⟩
          cases j with
          | zero =>
            rw [List.getElem?_cons_zero] at h2 h3
            obtain rfl := Option.some.inj h2
            exact Or.inl ⟨h1, fun e => h3 (congrArg some e)⟩
          | succ j =>
            rw [List.getElem?_cons_succ] at h2 h3
            exact Or.inr ⟨j, V', by rw [h1]; congr 1; omega, h2, h3⟩
        · rintro (⟨h1, h2⟩ | ⟨j, V', h1, h2, h3⟩)
          · exact ⟨0, V, h1, rfl, fun e => h2 (Option.some.inj e)⟩
          · exact ⟨j + 1, V', by rw [h1]; congr 1; omega, h2, h3⟩
      rw [hs, ← ih]
      by_cases hw : w ≠ encodeG1 V
      · rw [decide_eq_true hw, if_pos rfl, List.mem_cons]
        exact or_congr_left ⟨fun h => ⟨h, hw⟩, fun h => h.1⟩
      · rw [decide_eq_false hw, if_neg Bool.false_ne_true]
        exact ⟨Or.inr, fun h => h.resolve_left (fun h => hw h.2)⟩

end Verif.GppReport
