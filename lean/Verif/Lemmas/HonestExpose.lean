import Verif.Lemmas.HonestFixed
import Verif.Lemmas.HonestPoseidon
import Verif.Lemmas.LayoutDkg
import Verif.Lemmas.DkgCircuitParams

/-! The honest prover in the regions with public inputs of points. -/

namespace Verif.Layout
open Verif Spec

variable {X : Setting} {s : Known} {α β : Type}

/-- The public inputs from `o` on. -/
def InstAt (X : Setting) (o : ℕ) (vs : List Fr) : Prop := ∀ j v, vs[j]? = some v → X.inst (o + j) = v

theorem instAt_cons {o : ℕ} {v : Fr} {vs : List Fr} : InstAt X o (v :: vs) ↔ X.inst o = v ∧ InstAt X (o + 1) vs := by
  constructor
  · intro h
    refine ⟨h 0 v rfl, fun j u hu => ?_⟩
    have := h (j + 1) u hu
    rwa [show o + (j + 1) = o + 1 + j by omega] at this
  · rintro ⟨h0, h⟩ j u hu
    cases j with
    | zero => exact h0.trans (Option.some.inj hu)
    | succ j =>
      have := h j u hu
      rwa [show o + 1 + j = o + (j + 1) by omega] at this

theorem instAt_append {o : ℕ} {us vs : List Fr} : InstAt X o (us ++ vs) ↔ InstAt X o us ∧ InstAt X (o + us.length) vs := by
  induction us generalizing o with
  | nil => exact ⟨fun h => ⟨fun j v hv => absurd hv (by simp), h⟩, fun h => h.2⟩
  | cons u us ih =>
    rw [List.cons_append, instAt_cons, instAt_cons, ih, List.length_cons, show o + 1 + us.length = o + (us.length + 1) by omega, and_assoc]

theorem instAt_flatMap {f : α → List Fr} {k : ℕ} (hf : ∀ a, (f a).length = k) : ∀ (l : List α) (o : ℕ),
    InstAt X o (l.flatMap f) → ∀ i a, l[i]? = some a → InstAt X (o + k * i) (f a)
  | [], _, _, i, a, h => absurd h (by simp)
  | x :: l, o, h, i, a, ha => by
    rw [List.flatMap_cons, instAt_append, hf] at h
    cases i with
    | zero => cases ha; exact h.1
    | succ i =>
      have := instAt_flatMap hf l (o + k) h.2 i a ha
      rwa [show o + k + k * i = o + k * (i + 1) by ring] at this

theorem runsR_exposeAll : ∀ (cells : List Cell) (vs : List Fr) (o : ℕ) (s : Known), List.Forall₂ (Has s) cells vs → InstAt X o vs →
    RunsR X (exposeAll cells o) s fun o' s' => s' = s ∧ o' = o + vs.length
  | [], vs, o, s, h, _ => by
    cases h
    exact runsR_pure ⟨rfl, rfl⟩
  | c :: cells, vs, o, s, h, hi => by
    obtain ⟨v, vs, h0, h', rfl⟩ := List.forall₂_cons_left_iff.1 h
    rw [instAt_cons] at hi
    refine runsR_bind (R := fun o' s' => o' = o + 1 ∧ s' = s) ?_ ?_
    · refine runsR_bind (R := fun _ s' => s' = s) (runsR_exposePublic ⟨h0.1, h0.2.trans hi.1.symm⟩ rfl) ?_
      rintro _ s' - rfl
      exact runsR_pure ⟨rfl, rfl⟩
    · rintro o' s' - ⟨rfl, rfl⟩
      refine runsR_mono (runsR_exposeAll cells vs (o + 1) s' h' hi.2) ?_
      rintro o' s'' - ⟨rfl, rfl⟩
      exact ⟨rfl, by rw [List.length_cons]; omega⟩

theorem forall₂_has_mono {s s' : Known} {cells : List Cell} {vs : List Fr} (h : List.Forall₂ (Has s) cells vs) (hs : s.Before s') :
    List.Forall₂ (Has s') cells vs := h.imp fun _ _ h => h.mono hs

theorem getElem?_getD {vs : List Fr} {i : ℕ} (h : i < vs.length) : vs[i]? = some (vs.getD i 0) := by
  rw [List.getD_eq_getElem?_getD, List.getElem?_eq_getElem h]
  rfl

theorem runs_horner {cells : List Cell} {vs : List Fr} {x : Cell} {xv : Fr} (g : ℕ → ℕ) : ∀ (js : List ℕ) (a : Cell) (v : Fr) (s : Known),
    List.Forall₂ (Has s) cells vs → Has s x xv → Has s a v → (∀ j ∈ js, g j < vs.length) →
    Runs X (foldS (fun s j => do
      let c ← nth cells (g j)
      mulAdd s x c) js a) s fun c s' => Has s' c ((js.map fun j => vs.getD (g j) 0).foldl (fun a c => a * xv + c) v)
  | [], a, v, s, _, _, ha, _ => runs_pure ha
  | j :: js, a, v, s, hc, hx, ha, hj => by
    refine runs_bind (R := fun c s' => Has s' c (v * xv + vs.getD (g j) 0)) ?_ ?_
    · refine runs_bind (runs_nth_of hc (getElem?_getD (hj j List.mem_cons_self))) ?_
      rintro c s' - ⟨rfl, h⟩
      exact runs_mulAdd ha hx h
    · intro c s' b h
      exact runs_horner g js c _ s' (forall₂_has_mono hc b) (hx.mono b) h fun j hj' => hj j (List.mem_cons_of_mem _ hj')

theorem runs_addLoop {cells : List Cell} {vs : List Fr} : ∀ (js : List ℕ) (a : Cell) (v : Fr) (s : Known),
    List.Forall₂ (Has s) cells vs → Has s a v → (∀ j ∈ js, j < vs.length) →
    Runs X (foldS (fun s j => do
      let c ← nth cells j
      add s c) js a) s fun c s' => Has s' c (v + (js.map fun j => vs.getD j 0).sum)
  | [], a, v, s, _, ha, _ => runs_pure (by rw [List.map_nil, List.sum_nil, add_zero]; exact ha)
  | j :: js, a, v, s, hc, ha, hj => by
    refine runs_bind (R := fun c s' => Has s' c (v + vs.getD j 0)) ?_ ?_
    · refine runs_bind (runs_nth_of hc (getElem?_getD (hj j List.mem_cons_self))) ?_
      rintro c s' - ⟨rfl, h⟩
      exact runs_add ha h
    · intro c s' b h
      rw [List.map_cons, List.sum_cons, ← add_assoc]
      exact runs_addLoop js c _ s' (forall₂_has_mono hc b) h fun j hj' => hj j (List.mem_cons_of_mem _ hj')

theorem runs_wrapCell {base : Cell} {b : Fr} {limbs : List Cell} {vs : List Fr} {i : ℕ} (hb : Has s base b)
    (hl : List.Forall₂ (Has s) limbs vs) (hi : 2 * i + 1 < vs.length) :
    Runs X (wrapCell base limbs i) s fun c s' => Has s' c (vs.getD (2 * i + 1) 0 * b + vs.getD (2 * i) 0) := by
  have e1 : i * wrapLen + wrapLen - 1 = 2 * i + 1 := by unfold wrapLen; omega
  have e2 : i * wrapLen + 0 = 2 * i := by unfold wrapLen; omega
  unfold wrapCell
  rw [e1]
  refine runs_bind (runs_nth_of hl (getElem?_getD hi)) ?_
  rintro a s' - ⟨rfl, ha⟩
  have := runs_horner (X := X) (fun j => i * wrapLen + j) [0] a _ s' hl hb ha (by
    intro j hj
    rw [List.mem_singleton] at hj
    subst hj
    rw [e2]
    omega)
  rw [List.map_cons, List.map_nil, List.foldl_cons, List.foldl_nil, e2] at this
  exact this

/-- The limbs of a reduced coordinate. -/
def limbVals (x : Fq) : List Fr := (List.range numberOfLimbs).map fun i => ((x.val / 2 ^ (68 * i) % 2 ^ 68 : ℕ) : Fr)

theorem limbVals_eq (x : Fq) : limbVals x = [((x.val % 2 ^ 68 : ℕ) : Fr), ((x.val / 2 ^ 68 % 2 ^ 68 : ℕ) : Fr),
    ((x.val / 2 ^ 136 % 2 ^ 68 : ℕ) : Fr), ((x.val / 2 ^ 204 % 2 ^ 68 : ℕ) : Fr)] := by
  unfold limbVals
  rw [show List.range numberOfLimbs = [0, 1, 2, 3] from rfl]
  simp only [List.map_cons, List.map_nil, Nat.mul_zero, Nat.mul_one, pow_zero, Nat.div_one]

theorem wrap_enc (x : Fq) : [(limbVals x).getD 1 0 * ((2 ^ bitLenLimb : ℕ) : Fr) + (limbVals x).getD 0 0,
    (limbVals x).getD 3 0 * ((2 ^ bitLenLimb : ℕ) : Fr) + (limbVals x).getD 2 0] = encCoord x := by
  have hx : x.val / 2 ^ 136 < 2 ^ 136 := Nat.div_lt_of_lt_mul (lt_trans (ZMod.val_lt x) q_lt_272)
  have e1 := limb_pair x.val
  have e2 := limb_pair (x.val / 2 ^ 136)
  rw [Nat.div_div_eq_div_mul, ← pow_add, Nat.mod_eq_of_lt hx] at e2
  rw [limbVals_eq]
  unfold encCoord bitLenLimb
  rw [← e1]
  conv_rhs => rw [← e2]
  show [_ * _ + _, _ * _ + _] = _
  generalize (2 : ℕ) ^ 68 = B
  generalize x.val % B = a0
  generalize x.val / B % B = a1
  generalize x.val / 2 ^ 136 % B = a2
  generalize x.val / 2 ^ (136 + 68) % B = a3
  rw [Nat.cast_add, Nat.cast_mul, Nat.cast_add, Nat.cast_mul]
  rfl

theorem runs_wrapInt {base : Cell} {limbs : List Cell} {x : Fq} (hb : Has s base ((2 ^ bitLenLimb : ℕ) : Fr))
    (hl : List.Forall₂ (Has s) limbs (limbVals x)) :
    Runs X (mapS (wrapCell base limbs) (List.range (numberOfLimbs / wrapLen))) s fun cells s' =>
      List.Forall₂ (Has s') cells (encCoord x) := by
  have hlen : (limbVals x).length = 4 := by rw [limbVals_eq]; rfl
  rw [← wrap_enc, show List.range (numberOfLimbs / wrapLen) = [0, 1] from rfl]
  generalize ((2 ^ bitLenLimb : ℕ) : Fr) = b at *
  generalize limbVals x = vs at *
  refine runs_bind (runs_wrapCell (i := 0) hb hl (by omega)) fun c0 s0 b0 h0 => ?_
  refine runs_bind (R := fun cs s' => ∃ c, cs = [c] ∧ Has s' c0 (vs.getD 1 0 * b + vs.getD 0 0) ∧ Has s' c (vs.getD 3 0 * b + vs.getD 2 0)) ?_ ?_
  · refine runs_bind (runs_wrapCell (i := 1) (hb.mono b0) (forall₂_has_mono hl b0) (by omega)) fun c1 s1 b1 h1 => ?_
    refine runs_bind (R := fun cs s' => cs = [] ∧ s' = s1) (runs_pure ⟨rfl, rfl⟩) ?_
    rintro _ s2 - ⟨rfl, rfl⟩
    exact runs_pure ⟨_, rfl, h0.mono b1, h1⟩
  · rintro _ s2 - ⟨c, rfl, h0', h1⟩
    exact runs_pure (.cons h0' (.cons h1 .nil))

theorem runs_baseCell {b : Option Cell} (hb : ∀ c, b = some c → Has s c ((2 ^ bitLenLimb : ℕ) : Fr)) :
    Runs X (baseCell b) s fun c s' => Has s' c ((2 ^ bitLenLimb : ℕ) : Fr) := by
  cases b with
  | none => exact runs_assignConstant _
  | some c => exact runs_pure (hb c rfl)

theorem runs_wrapAll {base : Cell} : ∀ (ints : List (List Cell)) (xs : List Fq) (s : Known),
    Has s base ((2 ^ bitLenLimb : ℕ) : Fr) → List.Forall₂ (fun limbs x => List.Forall₂ (Has s) limbs (limbVals x)) ints xs →
    Runs X (mapS (fun limbs => mapS (wrapCell base limbs) (List.range (numberOfLimbs / wrapLen))) ints) s fun wrapped s' =>
      List.Forall₂ (Has s') wrapped.flatten (xs.flatMap encCoord)
  | [], xs, s, hb, h => by
    cases h
    exact runs_pure .nil
  | limbs :: ints, xs, s, hb, h => by
    obtain ⟨x, xs, h0, h', rfl⟩ := List.forall₂_cons_left_iff.1 h
    refine runs_bind (runs_wrapInt hb h0) fun cells s1 b1 h1 => ?_
    refine runs_bind (runs_wrapAll ints xs s1 (hb.mono b1) (h'.imp fun _ _ h => forall₂_has_mono h b1)) fun rest s2 b2 h2 => ?_
    refine runs_pure ?_
    rw [List.flatten_cons, List.flatMap_cons]
    exact List.rel_append (forall₂_has_mono h1 b2) h2

theorem runsR_exposeOptimal {b : Option Cell} (hb : ∀ c, b = some c → Has s c ((2 ^ bitLenLimb : ℕ) : Fr)) {ints : List (List Cell)}
    {xs : List Fq} (hi : List.Forall₂ (fun limbs x => List.Forall₂ (Has s) limbs (limbVals x)) ints xs) {o : ℕ}
    (ho : InstAt X o (xs.flatMap encCoord)) :
    RunsR X (exposeOptimal b ints o) s fun e s' => Has s' e.1 ((2 ^ bitLenLimb : ℕ) : Fr) ∧ e.2 = o + (xs.flatMap encCoord).length := by
  refine runsR_bind (R := fun _ s' => s' = s) (runsR_check (by decide) rfl) ?_
  rintro _ s1 - rfl
  refine runsR_bind (R := fun _ s' => s' = s1) (runsR_check (by decide) rfl) ?_
  rintro _ s2 - rfl
  refine runsR_bind (R := fun _ s' => s' = s2) (runsR_check (by decide) rfl) ?_
  rintro _ s3 - rfl
  refine runsR_bind (R := fun (p : Cell × List Cell) s' => Has s' p.1 ((2 ^ bitLenLimb : ℕ) : Fr) ∧
    List.Forall₂ (Has s') p.2 (xs.flatMap encCoord)) (runsR_region ?_) ?_
  · refine runs_bind (runs_baseCell hb) fun base s4 b4 h4 => ?_
    refine runs_bind (runs_wrapAll ints xs s4 h4 (hi.imp fun _ _ h => forall₂_has_mono h b4)) ?_
    rintro wrapped s5 b5 h5
    exact runs_pure ⟨h4.mono b5, h5⟩
  · rintro p s4 b4 ⟨h1, h2⟩
    refine runsR_bind (runsR_exposeAll _ _ o s4 h2 ho) ?_
    rintro o' s5 - ⟨rfl, rfl⟩
    exact runsR_pure ⟨h1, rfl⟩

end Verif.Layout
