import Verif.Lemmas.HonestGk

/-! The honest prover in the bit decomposition of the main gate. -/

namespace Verif.Layout
open Verif MainGate

variable {X : Setting} {α β : Type} {s : Known}

/-- In the current row at most the fifth cell is filled, with the value `v`. -/
def CurAcc (s : Known) (c : Ctx) (v : Fr) : Prop :=
  Upto s c ∧ ∀ j, (⟨c.region, c.offset, j⟩ : Cell) ∈ s.cells → j = 4 ∧ s.val ⟨c.region, c.offset, j⟩ = v

theorem Fresh.curAcc {c : Ctx} (h : Fresh s c) (v : Fr) : CurAcc s c v :=
  ⟨h.upto, fun j hj => absurd hj (h.not_mem j)⟩

theorem tail_gate {k b v : Fr} {c d : Cell} {f : Input → (Cell → Fr) → Fr} :
    MainGate.apply (valTerms [.assigned c k, aa d, us f] [b, v, k * b + v]) 0 .oneLinerAdd 0 := by
  unfold MainGate.apply valTerms
  simp [Arg.coeff, aa, us, Comb.ab, Comb.cd, Comb.next]

theorem row_gate {k0 k1 k2 k3 b0 b1 b2 b3 v : Fr} {c0 c1 c2 c3 d : Cell} : MainGate.apply (valTerms [.assigned c0 k0, .assigned c1 k1,
    .assigned c2 k2, .assigned c3 k3, aa d] [b0, b1, b2, b3, v]) 0
    (.combineToNextScaleMul (-1) 0) (k0 * b0 + k1 * b1 + k2 * b2 + k3 * b3 + v) := by
  unfold MainGate.apply valTerms
  simp [Arg.coeff, aa, Comb.ab, Comb.cd, Comb.next]
  ring

theorem runsAt_tailRow {k x v : Fr} {b acc : Cell} {c : Ctx} (hc : CurAcc s c v) (h0 : Has s b x) (ha : Has s acc v) :
    RunsAt X (apply [.assigned b k, aa acc, us fun _ w => k * w b + w acc] 0 .oneLinerAdd) c s fun l c' s' =>
      Fresh s' c' ∧ List.Forall₂ (Has s') l [x, v, k * x + v] := by
  have hv : List.Forall₂ (ArgIs X s) [.assigned b k, aa acc, us fun _ w => k * w b + w acc] [x, v, k * x + v] := by
    refine .cons h0 (.cons ha (.cons (fun w hw => ?_) .nil))
    beta_reduce
    rw [ha.keep hw, h0.keep hw]
  refine runsAt_mono ((runsIf_apply 0 (Nat.le_of_ble_eq_true rfl) (.inr (Nat.le_of_ble_eq_true rfl)) (.inl rfl)
      hv ?_ tail_gate).strong fun _ => .inl rfl) ?_
  · intro p hp hm
    have := (hc.2 _ hm).1
    rw [show List.finRange 5 = [0, 1, 2, 3, 4] from rfl] at hp
    simp only [List.zip_cons_cons, List.zip_nil_right, List.mem_cons, List.not_mem_nil, or_false] at hp
    rcases hp with rfl | rfl | rfl
    · exact absurd this (show ¬(0 : Fin 5) = 4 by decide)
    · exact absurd this (show ¬(1 : Fin 5) = 4 by decide)
    · exact absurd this (show ¬(2 : Fin 5) = 4 by decide)
  · rintro l c' s' hs ⟨rfl, h2, h3, h4⟩
    exact ⟨(hc.1.union h3 h4).next, h2⟩

theorem runsIf_sumRow {k0 k1 k2 k3 x0 x1 x2 x3 v : Fr} {b0 b1 b2 b3 acc : Cell} {c : Ctx} (hc : CurAcc s c v) (h0 : Has s b0 x0)
    (h1 : Has s b1 x1) (h2 : Has s b2 x2) (h3 : Has s b3 x3) (ha : Has s acc v) :
    RunsIf X (fun w => (-1 : Fr) = 0 ∨ w ⟨c.region, c.offset + 1, 4⟩ = k0 * x0 + k1 * x1 + k2 * x2 + k3 * x3 + v)
      (apply [.assigned b0 k0, .assigned b1 k1, .assigned b2 k2, .assigned b3 k3, aa acc] 0 (.combineToNextScaleMul (-1) 0)) c s
      fun _ c' s' => c' = ⟨c.region, c.offset + 1⟩ ∧ Fresh s' c' := by
  have hv : List.Forall₂ (ArgIs X s) [.assigned b0 k0, .assigned b1 k1, .assigned b2 k2, .assigned b3 k3, aa acc] [x0, x1, x2, x3, v] :=
    .cons h0 (.cons h1 (.cons h2 (.cons h3 (.cons ha .nil))))
  have hr : RowFree s c (List.finRange 5) [x0, x1, x2, x3, v] := by
    intro p hp hm
    have hm' := hc.2 _ hm
    rw [show List.finRange 5 = [0, 1, 2, 3, 4] from rfl] at hp
    simp only [List.zip_cons_cons, List.zip_nil_right, List.mem_cons, List.not_mem_nil, or_false] at hp
    rcases hp with rfl | rfl | rfl | rfl | rfl
    · exact absurd hm'.1 (show ¬(0 : Fin 5) = 4 by decide)
    · exact absurd hm'.1 (show ¬(1 : Fin 5) = 4 by decide)
    · exact absurd hm'.1 (show ¬(2 : Fin 5) = 4 by decide)
    · exact absurd hm'.1 (show ¬(3 : Fin 5) = 4 by decide)
    · exact hm'.2
  obtain ⟨o, s', e1, e2, e3, ⟨e4, -, e5, e6⟩, e7⟩ := runsIf_apply (X := X) _ (Nat.le_of_ble_eq_true rfl) (.inl rfl) (.inl rfl) hv
    hr (row_gate (k0 := k0) (k1 := k1) (k2 := k2) (k3 := k3))
  refine ⟨o, s', e1, e2, e3, ⟨e4, ?_⟩, e7⟩
  rw [e4]
  exact (hc.1.union e5 e6).next

theorem runsAt_composeTail : ∀ (bits : List Cell) (vs : List Fr) (i : ℕ) (acc : Cell) (v : Fr) (c : Ctx) (s : Known),
    CurAcc s c v → (bits = [] → Fresh s c) → List.Forall₂ (Has s) bits vs → Has s acc v →
    RunsAt X (composeTail bits (i, acc)) c s fun p c' s' => Fresh s' c' ∧ Has s' p.2 (v + wsum i vs)
  | [], vs, i, acc, v, c, s, _, hf, hb, ha => by
    rw [List.forall₂_nil_left_iff] at hb
    subst hb
    refine runsAt_pure ⟨hf rfl, ?_⟩
    rw [wsum, add_zero]
    exact ha
  | b :: bits, vs, i, acc, v, c, s, hc, _, hb, ha => by
    obtain ⟨x, vs, h0, hb', rfl⟩ := List.forall₂_cons_left_iff.1 hb
    unfold composeTail wsum
    dsimp only
    generalize (2 : Fr) ^ i = k
    refine runsAt_bind (runsAt_tailRow hc h0 ha) ?_
    rintro l c' s' hs ⟨hfr, h2⟩
    refine runsAt_bind (runs_nth_of (s := s') h2 rfl (i := 2) (v := k * x + v) _ hfr) ?_
    rintro a c'' s'' - ⟨hf, rfl, ha'⟩
    refine runsAt_mono (runsAt_composeTail bits vs (i + 1) a (k * x + v) c'' s'' (hf.curAcc _) (fun _ => hf)
      (hb'.imp fun _ _ h => h.mono hs) ha') ?_
    rintro p c1 s1 - ⟨h5, h6⟩
    refine ⟨h5, ?_⟩
    rw [show v + (k * x + wsum (i + 1) vs) = k * x + v + wsum (i + 1) vs by ring]
    exact h6

theorem runsAt_composeRows (fuel : ℕ) : ∀ (i : ℕ) (bits : List Cell) (vs : List Fr) (acc : Cell) (v : Fr) (c : Ctx) (s : Known),
    bits.length ≤ fuel → 0 < fuel → CurAcc s c v → List.Forall₂ (Has s) bits vs → Has s acc v →
    RunsAt X (composeRows fuel i bits acc) c s fun a c' s' => (Fresh s' c' ∧ Has s' a (v + wsum i vs)) ∧ s.Before s' := by
  induction fuel with
  | zero => exact fun _ _ _ _ _ _ _ _ h => absurd h (lt_irrefl 0)
  | succ fuel ih =>
    intro i bits vs acc v c s hl _ hc hb ha
    have tail : bits ≠ [] → RunsAt X (do
        let p ← composeTail bits (i, acc)
        pure p.2) c s fun a c' s' => (Fresh s' c' ∧ Has s' a (v + wsum i vs)) ∧ s.Before s' := by
      intro hne
      refine runsAt_bind (Q := fun p c' s' => (Fresh s' c' ∧ Has s' p.2 (v + wsum i vs)) ∧ s.Before s')
        (runsAt_mono (runsAt_composeTail bits vs i acc v c s hc (fun h => absurd h hne) hb ha) fun a c' s' hs h => ⟨h, hs⟩) ?_
      rintro p c' s' - h
      exact runsAt_pure h
    rcases bits with _ | ⟨b0, _ | ⟨b1, _ | ⟨b2, _ | ⟨b3, rest⟩⟩⟩⟩
    · rw [List.forall₂_nil_left_iff] at hb
      subst hb
      unfold composeRows
      dsimp only
      refine runsAt_bind (Q := fun _ c' s' => Fresh s' c' ∧ s' = s) (runsAt_next ⟨hc.1.next, rfl⟩) ?_
      rintro _ c' s' - ⟨h, rfl⟩
      refine runsAt_pure ⟨⟨h, ?_⟩, .refl _⟩
      rw [wsum, add_zero]
      exact ha
    · unfold composeRows
      exact tail (by simp)
    · unfold composeRows
      exact tail (by simp)
    · unfold composeRows
      exact tail (by simp)
    · obtain ⟨x0, vs0, h0, hb0, rfl⟩ := List.forall₂_cons_left_iff.1 hb
      obtain ⟨x1, vs1, h1, hb1, rfl⟩ := List.forall₂_cons_left_iff.1 hb0
      obtain ⟨x2, vs2, h2, hb2, rfl⟩ := List.forall₂_cons_left_iff.1 hb1
      obtain ⟨x3, vs3, h3, hb3, rfl⟩ := List.forall₂_cons_left_iff.1 hb2
      unfold composeRows
      dsimp only
      simp only [wsum]
      clear tail
      rw [show i + 1 + 1 = i + 2 from rfl, show i + 2 + 1 = i + 3 from rfl, show i + 3 + 1 = i + 4 from rfl]
      generalize (2 : Fr) ^ i = k0
      generalize (2 : Fr) ^ (i + 1) = k1
      generalize (2 : Fr) ^ (i + 2) = k2
      generalize (2 : Fr) ^ (i + 3) = k3
      rw [show v + (k0 * x0 + (k1 * x1 + (k2 * x2 + (k3 * x3 + wsum (i + 4) vs3)))) =
        k0 * x0 + k1 * x1 + k2 * x2 + k3 * x3 + v + wsum (i + 4) vs3 by ring]
      have hnx : ∃ nx, nx = k0 * x0 + k1 * x1 + k2 * x2 + k3 * x3 + v := ⟨_, rfl⟩
      obtain ⟨nx, hnx⟩ := hnx
      rw [← hnx]
      rw [hnx]
      refine runsAt_later _ (runsIf_sumRow hc h0 h1 h2 h3 ha) ?_
      rintro l c' s' hs ⟨rfl, hfr⟩
      rw [← hnx]
      refine runsAt_bind (Q := fun a c1 s1 => a = ⟨c.region, c.offset + 1, 4⟩ ∧ c1 = ⟨c.region, c.offset + 1⟩ ∧ s'.Before s1 ∧
        s1.cells = insert ⟨c.region, c.offset + 1, 4⟩ s'.cells ∧ Has s1 a nx)
        (runsAt_assignAdvice nx ?_ (fun u hm => absurd hm (hfr.not_mem 4)) fun s1 g1 g2 g3 => ⟨rfl, rfl, g1, g2, g3⟩) ?_
      · rw [(h0.mono hs).2, (h1.mono hs).2, (h2.mono hs).2, (h3.mono hs).2, (ha.mono hs).2, hnx]
      rintro a c1 s1 hs1 ⟨rfl, rfl, -, g2, g3⟩
      refine runsAt_mono (ih (i + 4) rest vs3 _ nx _ s1 ?_ ?_ ?_ (hb3.imp fun _ _ h => h.mono (hs.trans hs1)) g3) ?_
      · simp only [List.length_cons] at hl
        omega
      · simp only [List.length_cons] at hl
        omega
      · refine ⟨hfr.upto.insert g2, fun j hj => ?_⟩
        rw [g2] at hj
        rcases hj with hj | hj
        · have e : j = 4 := by injection hj
          subst e
          exact ⟨rfl, g3.2⟩
        · exact absurd hj (hfr.not_mem j)
      · rintro a c2 s2 - ⟨⟨k1, k2⟩, k3⟩
        exact ⟨⟨⟨k1, k2⟩, (hs.trans hs1).trans k3⟩, fun w hw => .inr ((g3.mono k3).keep hw)⟩

theorem binary_testBits (n : ℕ) : ∀ v, v < 2 ^ n → Spec.binary ((List.range n).map v.testBit) = v := by
  induction n with
  | zero =>
    intro v h
    have : v = 0 := by simpa using h
    subst this
    rfl
  | succ n ih =>
    intro v h
    rw [List.range_succ_eq_map, List.map_cons, List.map_map]
    have e : (v.testBit ∘ Nat.succ) = (v / 2).testBit := by
      funext i
      exact Nat.testBit_succ v i
    rw [e, Spec.binary, ih (v / 2) (by rw [pow_succ] at h; omega), Nat.testBit_zero]
    rcases Nat.mod_two_eq_zero_or_one v with h | h <;> simp [h] <;> omega

/-- The bits of the canonical representative of a field element. -/
def canonBits (v : Fr) : List Bool := (List.range 254).map v.val.testBit

theorem canonBits_length (v : Fr) : (canonBits v).length = 254 := by
  unfold canonBits
  rw [List.length_map, List.length_range]

theorem canonBits_binary (v : Fr) : Spec.binary (canonBits v) = v.val := by
  refine binary_testBits 254 _ (lt_trans (ZMod.val_lt v) ?_)
  decide +kernel

theorem runs_toBits {a : Cell} {v : Fr} (ha : Has s a v) :
    Runs X (toBits a 254) s fun bits s' => List.Forall₂ (fun c b => Has s' c (Spec.bitCell b)) bits (canonBits v) := by
  have hn : ∃ n, n = 254 := ⟨254, rfl⟩
  obtain ⟨n, hn⟩ := hn
  have hb : Runs X (mapS (fun i => assignBit fun _ w => bitOf (w a) i) (List.range 254)) s fun bits s' =>
    List.Forall₂ (fun c b => Has s' c (Spec.bitCell b)) bits (canonBits v) :=
    runs_bitsOf (f := fun _ w => w a) (fun w hw => ha.keep hw) 254
  have hl := canonBits_length v
  have hv : (0 : Fr) + wsum 0 ((canonBits v).map Spec.bitCell) = v := by
    rw [zero_add, wsum_eq, GrumpkinChip.foldr_bitCell, canonBits_binary, pow_zero, one_mul, ZMod.natCast_zmod_val]
  unfold toBits
  rw [← hn] at hb hl ⊢
  have h0 : 0 < n := by omega
  clear hn
  generalize canonBits v = bs at *
  refine runs_bind hb fun bits s1 b1 h1 => ?_
  refine runs_bind (runs_assignConstant 0) fun z s2 b2 h2 => ?_
  refine runs_bind (R := fun a' s' => Has s' a' v ∧ s2.Before s') ?_ fun sum s3 b3 h3 => ?_
  · intro c hc
    have h1' : List.Forall₂ (Has s2) bits (bs.map Spec.bitCell) :=
      List.forall₂_map_right_iff.2 (h1.imp fun _ _ h => h.mono b2)
    refine runsAt_mono (runsAt_composeRows n 0 bits _ z 0 c s2 (h1.length_eq.trans hl).le h0 (hc.curAcc _) h1' h2) ?_
    rintro a' c' s' - ⟨⟨k1, k2⟩, k3⟩
    rw [hv] at k2
    exact ⟨k1, k2, k3⟩
  · refine runs_bind (R := fun _ s1 => s1 = s3) (runs_constrainEqual h3.1 (ha.mono ((b1.trans b2).trans b3)) rfl) ?_
    rintro _ s4 - rfl
    exact runs_pure (h1.imp fun _ _ h => h.mono (b2.trans b3))

end Verif.Layout
