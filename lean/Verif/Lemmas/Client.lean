import Verif.Lemmas.OnChain
import Verif.Lemmas.Serialise
import Verif.Model.Client
import Verif.Spec.Client

namespace Verif.Client
open Verif

/-! ### Words as hexadecimal strings -/

theorem ofBE_dropZeros (bs : List Byte) :
    ofBE (bs.dropWhile (fun b => decide (b = 0))) = ofBE bs := by
  induction bs with
  | nil => rfl
  | cons b bs ih =>
    by_cases h : b = 0
    · rw [List.dropWhile_cons_of_pos (by simpa using h), ih, ofBE_cons, h]
      simp
    · rw [List.dropWhile_cons_of_neg (by simpa using h)]

theorem ofBE_minBytes (w : Word) : ofBE (minBytes w) = w.toNat := by
  have h := ofBE_dropZeros (Word.bytes w)
  rw [ofBE_wordBytes] at h
  unfold minBytes
  split
  · rename_i he
    rw [he] at h
    rw [← h]
    rfl
  · rename_i he
    rw [he] at h
    exact h

theorem length_minBytes (w : Word) : (minBytes w).length ≤ 32 := by
  have h := (List.dropWhile_suffix (fun b : Byte => decide (b = 0)) (l := Word.bytes w)).length_le
  rw [length_wordBytes] at h
  unfold minBytes
  split
  · simp
  · rename_i he
    rw [he] at h
    exact h

theorem readField_hexOfWord (p : ℕ) (w : Word) :
    readField p (hexOfWord w) =
      if w.toNat < p then .ok ((w.toNat : ℕ) : ZMod p) else .error .panic := by
  have hd : hexDecode (trim0x (hexOfWord w)) = some (minBytes w) := hexDecode_encode _
  unfold readField hexToLeBytes
  rw [hd]
  dsimp only
  rw [if_pos (length_minBytes w)]
  change (match fieldFromBytes p ((List.replicate (32 - (minBytes w).length) 0 ++
      minBytes w).reverse) with
    | none => (throw Fail.panic : Res (ZMod p))
    | some x => return x) = _
  unfold fieldFromBytes
  rw [ofLE_pad, ofBE_minBytes]
  by_cases h : w.toNat < p
  · rw [if_pos h, if_pos h]; rfl
  · rw [if_neg h, if_neg h]; rfl

theorem toG1_words (P : G1) :
    (⟨hexOfWord (encodeG1 P).x, hexOfWord (encodeG1 P).y⟩ : PointSerde).toG1 = .ok P := by
  have hx : readField q (hexOfWord (encodeG1 P).x) = .ok (coords P).1 := by
    rw [readField_hexOfWord, if_pos (show (encodeG1 P).x.toNat < q from wordOf_lt_q _)]
    exact congrArg Except.ok (cast_wordOf_q _)
  have hy : readField q (hexOfWord (encodeG1 P).y) = .ok (coords P).2 := by
    rw [readField_hexOfWord, if_pos (show (encodeG1 P).y.toNat < q from wordOf_lt_q _)]
    exact congrArg Except.ok (cast_wordOf_q _)
  unfold PointSerde.toG1
  dsimp only
  rw [hx, hy]
  change (match bnFromXY (coords P).1 (coords P).2 with
      | none => throw Fail.panic | some P => return P) = _
  rw [bnFromXY_coords]
  rfl

/-- Reading a record made from stored words. -/
theorem read_evalRecord (e : SolEval) (v : G1) (hv : decodeG1 e.value = some v)
    (hc : e.c.toNat < r) :
    (evalRecord e).read = if e.z.toNat < r then
      .ok ⟨e.indexPlus, v, ⟨((e.z.toNat : ℕ) : Fr), ((e.c.toNat : ℕ) : Fr)⟩⟩
      else .error .panic := by
  have h1 : (evalRecord e).value.toG1 = .ok v := by
    have := toG1_words v
    rw [← decodeG1_eq_some.1 hv] at this
    exact this
  unfold PartialEvalSerde.read
  rw [h1]
  change (do
    let z ← readField r (hexOfWord e.z)
    let c ← readField r (hexOfWord e.c)
    return (⟨e.indexPlus, v, ⟨z, c⟩⟩ : PartialEval) : Res PartialEval) = _
  rw [readField_hexOfWord, readField_hexOfWord, if_pos hc]
  by_cases hz : e.z.toNat < r
  · rw [if_pos hz, if_pos hz]; rfl
  · rw [if_neg hz, if_neg hz]; rfl

/-! ### The verification loop -/

section
variable (keccak : Keccak) (h2c : List Byte → G1) (cfg : DkgConfig) (input : List Byte)
  (vks : List G1)

theorem verifyLoop_ok (hl : vks.length = cfg.numberOfMembers) :
    ∀ es : List PartialEval, (∀ e ∈ es, 1 ≤ e.index ∧ e.index ≤ cfg.numberOfMembers) →
      verifyLoop keccak h2c cfg input vks es = .ok (Spec.verifying keccak h2c cfg input vks es)
  | [], _ => rfl
  | e :: es, h => by
    have he := h e List.mem_cons_self
    have ih := verifyLoop_ok hl es (fun e he => h e (List.mem_cons_of_mem _ he))
    have hlt : e.index - 1 < vks.length := by omega
    have hg : vks[e.index - 1]? = some vks[e.index - 1] := List.getElem?_eq_getElem hlt
    unfold verifyLoop
    rw [if_neg (by omega), hg]
    dsimp only
    rw [ih]
    dsimp only
    unfold Spec.verifying
    cases hv : e.verify keccak h2c cfg input vks[e.index - 1] with
    | ok u =>
      cases u
      have : Spec.Verifies keccak h2c cfg input vks e := ⟨_, hg, hv⟩
      rw [List.filter_cons_of_pos (by simpa using this)]
    | error f =>
      have : ¬ Spec.Verifies keccak h2c cfg input vks e := by
        rintro ⟨vk, h1, h2⟩
        rw [hg] at h1
        cases h1
        rw [hv] at h2
        cases h2
      rw [List.filter_cons_of_neg (by simpa using this)]

theorem verifyLoop_bad (hl : vks.length = cfg.numberOfMembers) :
    ∀ (pre : List PartialEval) (e : PartialEval) (post : List PartialEval),
      (∀ e ∈ pre, 1 ≤ e.index ∧ e.index ≤ cfg.numberOfMembers) →
      ¬ (1 ≤ e.index ∧ e.index ≤ cfg.numberOfMembers) →
      verifyLoop keccak h2c cfg input vks (pre ++ e :: post) = .error (.badIndex e.index)
  | [], e, post, _, he => by
    rw [List.nil_append, verifyLoop, if_pos (by omega)]
  | a :: pre, e, post, hp, he => by
    have ha := hp a List.mem_cons_self
    have ih := verifyLoop_bad hl pre e post (fun e he => hp e (List.mem_cons_of_mem _ he)) he
    have hlt : a.index - 1 < vks.length := by omega
    have hg : vks[a.index - 1]? = some vks[a.index - 1] := List.getElem?_eq_getElem hlt
    rw [List.cons_append, verifyLoop, if_neg (by omega), hg]
    dsimp only
    rw [ih]

end

open Classical in
theorem mem_verifying {keccak : Keccak} {h2c : List Byte → G1} {cfg : DkgConfig}
    {input : List Byte} {vks : List G1} {evals : List PartialEval} {e : PartialEval} :
    e ∈ Spec.verifying keccak h2c cfg input vks evals ↔
      e ∈ evals ∧ Spec.Verifies keccak h2c cfg input vks e := by
  unfold Spec.verifying
  rw [List.mem_filter]
  exact and_congr_right fun _ => decide_eq_true_iff

open Classical in
theorem verifying_all {keccak : Keccak} {h2c : List Byte → G1} {cfg : DkgConfig}
    {input : List Byte} {vks : List G1} {evals : List PartialEval}
    (h : ∀ e ∈ evals, Spec.Verifies keccak h2c cfg input vks e) :
    Spec.verifying keccak h2c cfg input vks evals = evals := by
  unfold Spec.verifying
  rw [List.filter_eq_self]
  exact fun e he => decide_eq_true (h e he)

theorem mapM_map_ok {α β γ : Type} (f : β → Res γ) (g : α → β) (h : α → γ) :
    ∀ l : List α, (∀ a ∈ l, f (g a) = .ok (h a)) → (l.map g).mapM f = .ok (l.map h)
  | [], _ => rfl
  | a :: l, hl => by
    rw [List.map_cons, List.mapM_cons, hl a List.mem_cons_self,
      mapM_map_ok f g h l (fun b hb => hl b (List.mem_cons_of_mem _ hb))]
    rfl

theorem mapM_panic' {β γ : Type} (f : β → Res γ) :
    ∀ l : List β, (∀ a ∈ l, f a = .error .panic ∨ ∃ b, f a = .ok b) →
      (∃ a ∈ l, f a = .error .panic) → l.mapM f = .error .panic
  | [], _, h => by obtain ⟨a, ha, _⟩ := h; cases ha
  | a :: l, hl, h => by
    rw [List.mapM_cons]
    rcases hl a List.mem_cons_self with ha | ⟨b, hb⟩
    · rw [ha]; rfl
    · have : ∃ a ∈ l, f a = .error .panic := by
        obtain ⟨c, hc, he⟩ := h
        rcases List.mem_cons.1 hc with rfl | hc
        · rw [hb] at he; cases he
        · exact ⟨c, hc, he⟩
      rw [hb, mapM_panic' f l (fun b hb => hl b (List.mem_cons_of_mem _ hb)) this]
      rfl

/-- The transaction built from a written pseudorandom. -/
theorem submission_of (p : PseudoRandom) (w : Word) (hw : p.value = Word.bytes w) :
    submission (PseudoRandomSerde.of p) = some ⟨encodeG1 p.proof, w⟩ := by
  have hd : ∀ x : Fq, hexDecode (trim0x (writeField x)) = some (feBytes x).reverse :=
    fun x => hexDecode_encode _
  have hb : ∀ x : Fq, BitVec.ofNat 256 (ofBE (feBytes x).reverse) = wordOf x := by
    intro x
    rw [show (feBytes x).reverse = beBytes 32 x.val from rfl, ofBE_beBytes,
      Nat.mod_eq_of_lt (Fq_val_lt x)]
    rfl
  have hv : BitVec.ofNat 256 (ofBE p.value) = w := by
    rw [hw, ofBE_wordBytes]
    exact BitVec.eq_of_toNat_eq (by rw [BitVec.toNat_ofNat]; exact Nat.mod_eq_of_lt w.isLt)
  unfold submission PseudoRandomSerde.of PointSerde.ofG1
  dsimp only
  rw [hd, hd]
  change (if (feBytes (coords p.proof).1).reverse.length ≤ 32 ∧
    (feBytes (coords p.proof).2).reverse.length ≤ 32 ∧ p.value.length = 32 then _ else _) = _
  rw [if_pos (by rw [hw]; simp), hb, hb, hv]
  rfl

/-- The part of the command after the evaluations have been selected. -/
theorem combine_eq (E : BnPairing) (keccak : Keccak) (h2c : List Byte → G1) (cfg : DkgConfig)
    (ef : List PartialEvalSerde) (gf : Point2Serde) (vf : List PointSerde) (input : List Byte)
    (skip : Bool) (evals : List PartialEval) (gpk : G2) (sel : Except CliFail (List PartialEval))
    (he : ef.mapM PartialEvalSerde.read = .ok evals) (hg : gf.toG2 = .ok gpk)
    (hs : (if skip then .ok evals else do
      let vks ← lift (vf.mapM PointSerde.toG1)
      verifyLoop keccak h2c cfg input vks evals) = sel) :
    combine E keccak h2c cfg ef gf vf input skip = (do
      let verified ← sel
      if verified.length < cfg.threshold then .error .notEnough
      else do
        let pseudo ← lift (combinePartialEvaluations keccak cfg (verified.take cfg.threshold))
        lift (pseudo.verify E keccak h2c input gpk)
        return PseudoRandomSerde.of pseudo) := by
  subst hs
  unfold combine
  rw [he, hg]
  cases skip with
  | true => rfl
  | false =>
    cases hv : vf.mapM PointSerde.toG1 with
    | error f => rfl
    | ok vks =>
      cases hl : verifyLoop keccak h2c cfg input vks evals with
      | error f => simp [lift, bind, Except.bind, hl]
      | ok v => simp [lift, bind, Except.bind, hl]

theorem tail_ok {E : BnPairing} {keccak : Keccak} {h2c : List Byte → G1} {cfg : DkgConfig}
    {input : List Byte} {gpk : G2} {verified : List PartialEval} {out : PseudoRandomSerde} :
    (if verified.length < cfg.threshold then .error .notEnough
      else do
        let pseudo ← lift (combinePartialEvaluations keccak cfg (verified.take cfg.threshold))
        lift (pseudo.verify E keccak h2c input gpk)
        return PseudoRandomSerde.of pseudo : Except CliFail PseudoRandomSerde) = .ok out ↔
      cfg.threshold ≤ verified.length ∧ ∃ p, combinePartialEvaluations keccak cfg
        (verified.take cfg.threshold) = .ok p ∧ p.verify E keccak h2c input gpk = .ok () ∧
        out = PseudoRandomSerde.of p := by
  by_cases hl : verified.length < cfg.threshold
  · rw [if_pos hl]
    exact ⟨fun h => (by cases h), fun h => absurd h.1 (by omega)⟩
  · rw [if_neg hl]
    cases hc : combinePartialEvaluations keccak cfg (verified.take cfg.threshold) with
    | error f =>
      constructor
      · intro h; cases h
      · rintro ⟨_, p, h, _⟩; cases h
    | ok p =>
      change (do
        lift (p.verify E keccak h2c input gpk)
        return PseudoRandomSerde.of p : Except CliFail PseudoRandomSerde) = _ ↔ _
      cases hv : p.verify E keccak h2c input gpk with
      | error f =>
        constructor
        · intro h; cases h
        · rintro ⟨_, p', h, h2, _⟩
          cases h
          rw [hv] at h2
          cases h2
      | ok u =>
        cases u
        constructor
        · intro h
          cases h
          exact ⟨by omega, p, rfl, hv, rfl⟩
        · rintro ⟨_, p', h, h2, rfl⟩
          cases h
          rfl

end Verif.Client
