import Verif.Lemmas.LayoutFixed

/-! The whole circuit as a layout. -/

namespace Verif.Layout
open Verif MainGate

variable {T : Table} {α β : Type}

/-- The public inputs from `o` to `o'` are these values. -/
def Exposed (T : Table) (o o' : ℕ) (cells : List Fr) : Prop :=
  o' = o + cells.length ∧ (List.range' o cells.length).map T.inst = cells

theorem exposed_nil (o : ℕ) : Exposed T o o [] := ⟨rfl, rfl⟩

theorem exposed_append {o o' o'' : ℕ} {cs ds : List Fr} (h : Exposed T o o' cs) (h' : Exposed T o' o'' ds) :
    Exposed T o o'' (cs ++ ds) := by
  obtain ⟨rfl, h2⟩ := h
  obtain ⟨rfl, h4⟩ := h'
  refine ⟨by rw [List.length_append, Nat.add_assoc], ?_⟩
  rw [List.length_append, ← List.range'_append_1, List.map_append, h2, h4]

theorem exposed_one {o : ℕ} {x : Fr} (h : x = T.inst o) : Exposed T o (o + 1) [x] := by
  refine ⟨rfl, ?_⟩
  rw [h]
  rfl

/-- A loop over `0..n` with an invariant. -/
theorem ens_foldS_range {f : β → ℕ → Synth β} (I : ℕ → β → Prop)
    (hstep : ∀ i b, I i b → Ensures T (f b i) (I (i + 1))) (n : ℕ) : ∀ (s : ℕ) (b : β), I s b →
      Ensures T (foldS f (List.range' s n) b) (I (s + n)) := by
  induction n with
  | zero => intro s b h; exact ens_pure h
  | succ n ih =>
    intro s b h
    refine ens_bind (hstep s b h) fun b' h' => ?_
    refine ens_mono (ih (s + 1) b' h') fun b'' h'' => ?_
    rw [Nat.add_assoc, Nat.add_comm 1 n] at h''
    exact h''

/-! ### Public inputs of points -/

theorem ens_exposeAll : ∀ (cells : List Cell) (o : ℕ), Ensures T (exposeAll cells o) fun o' =>
    Exposed T o o' (cells.map T.cell)
  | [], o => ens_pure (exposed_nil o)
  | c :: cells, o => by
    refine ens_bind (R := fun o' => o' = o + 1 ∧ T.cell c = T.inst o) ?_ ?_
    · exact ens_bind ens_exposePublic fun _ h => ens_pure ⟨rfl, h⟩
    · rintro o' ⟨rfl, h⟩
      exact ens_mono (ens_exposeAll cells (o + 1)) fun o'' h' => exposed_append (exposed_one h) h'

theorem getD_map_nth {cells : List Cell} {i : ℕ} {c : Cell} (h : cells[i]? = some c) :
    (cells.map T.cell).getD i 0 = T.cell c := by
  rw [List.getD_eq_getElem?_getD, List.getElem?_map, h]
  rfl

theorem ens_horner (cells : List Cell) (x : Cell) (g : ℕ → ℕ) : ∀ (js : List ℕ) (s : Cell),
    Ensures T (foldS (fun s j => do
      let c ← nth cells (g j)
      mulAdd s x c) js s) fun s' =>
      DkgCircuit.hornerChain (T.cell x) (js.map fun j => (cells.map T.cell).getD (g j) 0) (T.cell s) (T.cell s')
  | [], s => ens_pure rfl
  | j :: js, s => by
    refine ens_bind (R := fun s' => MainGate.mulAdd (T.cell s) (T.cell x) ((cells.map T.cell).getD (g j) 0) (T.cell s')) ?_ ?_
    · refine ens_bind ens_nth fun c hc => ?_
      rw [getD_map_nth hc]
      exact ens_mulAdd s x c
    · intro s' h
      exact ens_mono (ens_horner cells x g js s') fun s'' h' => ⟨_, h, h'⟩

theorem ens_addLoop (cells : List Cell) : ∀ (js : List ℕ) (s : Cell),
    Ensures T (foldS (fun s j => do
      let c ← nth cells j
      add s c) js s) fun s' =>
      DkgCircuit.addChain (js.map fun j => (cells.map T.cell).getD j 0) (T.cell s) (T.cell s')
  | [], s => ens_pure rfl
  | j :: js, s => by
    refine ens_bind (R := fun s' => MainGate.add (T.cell s) ((cells.map T.cell).getD j 0) (T.cell s')) ?_ ?_
    · refine ens_bind ens_nth fun c hc => ?_
      rw [getD_map_nth hc]
      exact ens_add s c
    · intro s' h
      exact ens_mono (ens_addLoop cells js s') fun s'' h' => ⟨_, h, h'⟩

theorem take_getD (xs : List Fr) (n s : ℕ) (h : s + n ≤ xs.length) :
    (List.range' s n).map (fun j => xs.getD j 0) = (xs.drop s).take n := by
  refine List.ext_getElem? fun i => ?_
  rw [List.getElem?_map, List.getElem?_take]
  by_cases hi : i < n
  · rw [if_pos hi, List.getElem?_range' hi, List.getElem?_drop]
    simp only [Option.map_some, Nat.one_mul]
    rw [List.getD_eq_getElem?_getD, List.getElem?_eq_getElem (by omega)]
    rfl
  · rw [if_neg hi, List.getElem?_eq_none (by simp; omega)]
    rfl

theorem ens_wrapCell (base : Cell) (limbs : List Cell) (i : ℕ) : Ensures T (wrapCell base limbs i) fun s =>
    DkgCircuit.hornerChain (T.cell base) (((limbs.map T.cell).drop (i * wrapLen)).take (wrapLen - 1)).reverse
      ((limbs.map T.cell).getD (i * wrapLen + wrapLen - 1) 0) (T.cell s) := by
  refine ens_bind ens_nth fun s hs => ?_
  rw [getD_map_nth hs]
  refine ens_mono (ens_horner limbs base (fun j => i * wrapLen + j) (List.range (wrapLen - 1)).reverse s) fun s' h => ?_
  have hlen := (List.getElem?_eq_some_iff.1 hs).1
  have hw : wrapLen = 2 := rfl
  have e := take_getD (limbs.map T.cell) (wrapLen - 1) (i * wrapLen) (by rw [List.length_map]; omega)
  rw [← e, ← List.map_reverse]
  rw [show List.range' (i * wrapLen) (wrapLen - 1) = (List.range (wrapLen - 1)).map fun j => i * wrapLen + j by
    rw [List.range'_eq_map_range]]
  rw [← List.map_reverse, List.map_map]
  exact h

theorem exposeOptimal_of_forall₂ {base : Fr} {ints cells : List (List Fr)}
    (h : List.Forall₂ (DkgCircuit.wrapCells base) ints cells) : DkgCircuit.exposeOptimal base ints cells.flatten := by
  induction h with
  | nil => rfl
  | cons h1 h2 ih => exact ⟨_, _, h1, ih, rfl⟩

theorem ens_wrapAll (base : Cell) (ints : List (List Cell)) :
    Ensures T (mapS (fun limbs => mapS (wrapCell base limbs) (List.range (numberOfLimbs / wrapLen))) ints) fun wrapped =>
      DkgCircuit.exposeOptimal (T.cell base) (ints.map (List.map T.cell)) (wrapped.flatten.map T.cell) := by
  refine ens_mono (ens_mapS (R := fun limbs cells => DkgCircuit.wrapCells (T.cell base) (limbs.map T.cell) (cells.map T.cell))
    ints fun limbs _ => ?_) ?_
  · refine ens_mono (ens_mapS (R := fun i s => DkgCircuit.hornerChain (T.cell base)
      (((limbs.map T.cell).drop (i * wrapLen)).take (wrapLen - 1)).reverse
      ((limbs.map T.cell).getD (i * wrapLen + wrapLen - 1) 0) (T.cell s)) _ fun i _ => ens_wrapCell base limbs i) ?_
    intro cells h
    unfold DkgCircuit.wrapCells
    rw [List.forall₂_map_right_iff]
    exact h
  · intro wrapped h
    rw [List.map_flatten]
    refine exposeOptimal_of_forall₂ ?_
    rw [List.forall₂_map_right_iff, List.forall₂_map_left_iff]
    exact h

theorem ens_exposeOptimal (b : Option Cell) (ints : List (List Cell)) (o : ℕ) : Ensures T (exposeOptimal b ints o) fun out =>
    (∀ x, b = some x → out.1 = x) ∧ (b = none → MainGate.assignConstant ((2 ^ bitLenLimb : ℕ) : Fr) (T.cell out.1)) ∧
      ∃ cells, Exposed T o out.2 cells ∧ DkgCircuit.exposeOptimal (T.cell out.1) (ints.map (List.map T.cell)) cells := by
  refine ens_bind ens_check fun _ _ => ens_bind ens_check fun _ _ => ens_bind ens_check fun _ _ => ?_
  refine ens_bind (R := fun out => (∀ x, b = some x → out.1 = x) ∧
    (b = none → MainGate.assignConstant ((2 ^ bitLenLimb : ℕ) : Fr) (T.cell out.1)) ∧
    DkgCircuit.exposeOptimal (T.cell out.1) (ints.map (List.map T.cell)) (out.2.map T.cell)) ?_ ?_
  · refine ens_region ?_
    refine ens_bind (R := fun base => (∀ x, b = some x → base = x) ∧
      (b = none → MainGate.assignConstant ((2 ^ bitLenLimb : ℕ) : Fr) (T.cell base))) ?_ ?_
    · unfold baseCell
      cases b with
      | none => exact ens_mono (ens_assignConstant _) fun c h => ⟨(fun x hx => nomatch hx), fun _ => h⟩
      | some x => exact ens_pure ⟨fun y hy => Option.some.inj hy, fun h => nomatch h⟩
    · intro base hb
      exact ens_bind (ens_wrapAll base ints) fun w hw => ens_pure ⟨hb.1, hb.2, hw⟩
  · intro out h
    exact ens_bind (ens_exposeAll out.2 o) fun o' h' => ens_pure ⟨h.1, h.2.1, _, h', h.2.2⟩

section integers
variable {J : IntegerImpl} {good : J.I → Prop} {val : J.I → Fq} (hJ : J.Correct T good val)
include hJ

theorem ens_exposeG1 (tab : List (List (P1 J))) (htab : ∀ row ∈ tab, ∀ p ∈ row, good2 good p) (b : Option Cell) (s : Cell)
    (o : ℕ) : Ensures T (exposeG1 tab b s o) fun out =>
      (∀ x, b = some x → out.1 = x) ∧ (b = none → MainGate.assignConstant ((2 ^ bitLenLimb : ℕ) : Fr) (T.cell out.1)) ∧
      ∃ cells, Exposed T o out.2 cells ∧
        DkgCircuit.exposeG1 (tab.map (List.map (val2 val))) (T.cell out.1) (T.cell s) cells := by
  refine ens_bind (R := fun c => ∃ p : P1 J, FixedPoint.mul FixedPoint.ops1 DkgCircuit.windowSize
      (tab.map (List.map (val2 val))) (T.cell s) (val2 val p) ∧
    DkgCircuit.normalize (val p.1) ((J.limbs c.1).map T.cell) ∧
    DkgCircuit.normalize (val p.2) ((J.limbs c.2).map T.cell)) ?_ ?_
  · exact ens_region (ens_bind (ens_mulFixed (ops1_correct hJ) _ tab s htab) fun p hp =>
      ens_bind (hJ.reduce _ hp.1.1) fun _ hx => ens_bind (hJ.reduce _ hp.1.2) fun _ hy =>
      ens_pure ⟨p, hp.2, hx.2.2, hy.2.2⟩)
  · rintro c ⟨p, hp, hx, hy⟩
    refine ens_mono (ens_exposeOptimal b _ o) fun out h => ⟨h.1, h.2.1, ?_⟩
    obtain ⟨cells, h1, h2⟩ := h.2.2
    exact ⟨cells, h1, val2 val p, _, _, hp, hx, hy, h2⟩

theorem ens_exposeG2 (tab : List (List (P2 J))) (htab : ∀ row ∈ tab, ∀ p ∈ row, goodP good p) (b : Option Cell) (s : Cell)
    (o : ℕ) : Ensures T (exposeG2 tab b s o) fun out =>
      (∀ x, b = some x → out.1 = x) ∧ ∃ cells, Exposed T o out.2 cells ∧
        DkgCircuit.exposeG2 (tab.map (List.map (valP val))) (T.cell out.1) (T.cell s) cells := by
  refine ens_bind (R := fun c => ∃ p : P2 J, FixedPoint.mul FixedPoint.ops2 DkgCircuit.windowSize
      (tab.map (List.map (valP val))) (T.cell s) (valP val p) ∧
    DkgCircuit.normalize (val p.1.1) ((J.limbs c.1.1).map T.cell) ∧
    DkgCircuit.normalize (val p.1.2) ((J.limbs c.1.2).map T.cell) ∧
    DkgCircuit.normalize (val p.2.1) ((J.limbs c.2.1).map T.cell) ∧
    DkgCircuit.normalize (val p.2.2) ((J.limbs c.2.2).map T.cell)) ?_ ?_
  · exact ens_region (ens_bind (ens_mulFixed (ops2_correct hJ) _ tab s htab) fun p hp =>
      ens_bind (ens_reduce2 hJ hp.1.1) fun _ hx => ens_bind (ens_reduce2 hJ hp.1.2) fun _ hy =>
      ens_pure ⟨p, hp.2, hx.1, hx.2, hy.1, hy.2⟩)
  · rintro c ⟨p, hp, hx0, hx1, hy0, hy1⟩
    refine ens_mono (ens_exposeOptimal b _ o) fun out h => ⟨h.1, ?_⟩
    obtain ⟨cells, h1, h2⟩ := h.2.2
    exact ⟨cells, h1, valP val p, _, _, _, _, hp, hx0, hx1, hy0, hy1, h2⟩

theorem ens_tablesRegion (auxG1 : G1) (auxG2 : G2) : Ensures T (tablesRegion (J := J) auxG1 auxG2) fun t =>
    ((∀ row ∈ t.1, ∀ p ∈ row, good2 good p) ∧
      FixedPoint.assignTable FixedPoint.ops1 DkgCircuit.windowSize g1 auxG1 (t.1.map (List.map (val2 val)))) ∧
    ((∀ row ∈ t.2, ∀ p ∈ row, goodP good p) ∧
      FixedPoint.assignTable FixedPoint.ops2 DkgCircuit.windowSize g2 auxG2 (t.2.map (List.map (valP val)))) :=
  ens_region (ens_bind (ens_assignTable (ops1_correct hJ) _ _ _) fun _ h1 =>
    ens_bind ((ops1_correct hJ).assignConstant g1) fun _ _ =>
    ens_bind (ens_assignTable (ops2_correct hJ) _ _ _) fun _ h2 => ens_pure ⟨h1, h2⟩)

end integers

/-! ### The other regions -/

theorem ens_sharesRegion (cfg : DkgConfig) : Ensures T (sharesRegion cfg) fun sh => ∃ coeffs : List Fr,
    coeffs.length = cfg.threshold ∧ T.cell sh.2 = coeffs.getD 0 0 ∧
    DkgCircuit.sharesRegion cfg coeffs (sh.1.map T.cell) := by
  refine ens_region ?_
  refine ens_bind (ens_mapS (R := fun _ _ => True) _ fun i _ => ens_assignValue) fun coeffs hc => ?_
  have hlen : coeffs.length = cfg.threshold := by rw [← hc.length_eq, List.length_range]
  refine ens_bind ens_nth fun a ha => ?_
  have ht : 0 < coeffs.length := (List.getElem?_eq_some_iff.1 ha).1
  refine ens_bind (ens_addLoop coeffs (List.range' 1 (cfg.threshold - 1)) a) fun s0 h0 => ?_
  rw [take_getD _ _ _ (by rw [List.length_map]; omega)] at h0
  refine ens_bind (ens_mapS (R := fun (i : ℕ) s => ∃ x, MainGate.assignConstant (i : Fr) x ∧
    DkgCircuit.hornerChain x ((coeffs.map T.cell).take (cfg.threshold - 1)).reverse
      ((coeffs.map T.cell).getD (cfg.threshold - 1) 0) (T.cell s)) _ fun i _ => ?_) fun rest hrest => ?_
  · refine ens_bind (ens_assignConstant _) fun x hx => ens_bind ens_nth fun top htop => ?_
    rw [getD_map_nth htop]
    refine ens_mono (ens_horner coeffs x (fun j => j) (List.range (cfg.threshold - 1)).reverse top) fun s hs => ⟨_, hx, ?_⟩
    have e := take_getD (coeffs.map T.cell) (cfg.threshold - 1) 0 (by rw [List.length_map]; omega)
    rw [List.drop_zero, ← List.range_eq_range'] at e
    rw [← e, ← List.map_reverse]
    exact hs
  · refine ens_pure ⟨coeffs.map T.cell, by rw [List.length_map, hlen], (getD_map_nth ha).symm, T.cell s0, rest.map T.cell,
      ?_, ?_, rfl⟩
    · rw [getD_map_nth ha]
      exact h0
    · rw [List.forall₂_map_right_iff]
      exact hrest

theorem ens_auxRegion : Ensures T auxRegion fun a =>
    GrumpkinChip.assignPoint (ptVal T a.1) ∧ GrumpkinChip.neg (ptVal T a.1) (ptVal T a.2) :=
  ens_region (ens_bind (ens_assignPoint _) fun _ h1 => ens_bind (ens_negGk _) fun _ h2 => ens_pure ⟨h1, h2⟩)

theorem ens_grRegion (aux auxNeg : PtCell) : Ensures T (grRegion aux auxNeg) fun o => ∃ g,
    GrumpkinChip.assignConstant (coords gk) g ∧ GrumpkinChip.toBitsUnsafe (o.1.map T.cell) ∧
    GrumpkinChip.mulBits (ptVal T aux) (ptVal T auxNeg) g (o.1.map T.cell) (ptVal T o.2) :=
  ens_region (ens_bind (ens_assignConstantGk _) fun _ h1 => ens_bind (ens_toBitsUnsafe _) fun _ h2 =>
    ens_bind (ens_mulBits _ _ _ _) fun _ h3 => ens_pure ⟨_, h1, h2, h3⟩)

theorem ens_exposePoint (p : PtCell) (o : ℕ) : Ensures T (exposePoint p o) fun o' =>
    Exposed T o o' [(ptVal T p).1, (ptVal T p).2] :=
  ens_bind ens_exposePublic fun _ h1 => ens_bind ens_exposePublic fun _ h2 =>
    ens_pure (exposed_append (exposed_one h1) (exposed_one h2))

theorem ens_memberRegion (aux auxNeg : PtCell) (bits shares : List Cell) (i o : ℕ) :
    Ensures T (memberRegion aux auxNeg bits shares i o) fun m => ∃ cipher, Exposed T o m.2 [cipher] ∧
      DkgCircuit.memberRegion (ptVal T aux) (ptVal T auxNeg) (bits.map T.cell) ((shares.map T.cell).getD i 0)
        (ptVal T m.1) cipher := by
  refine ens_bind (R := fun p => GrumpkinChip.assignPoint (ptVal T p.2) ∧
    GrumpkinChip.mulBits (ptVal T aux) (ptVal T auxNeg) (ptVal T p.2) (bits.map T.cell) (ptVal T p.1)) ?_ ?_
  · exact ens_region (ens_bind (ens_assignPoint _) fun _ h1 => ens_bind (ens_mulBits _ _ _ _) fun _ h2 => ens_pure ⟨h1, h2⟩)
  rintro p ⟨h1, h2⟩
  refine ens_bind (ens_poseidonHash _ _) fun key h3 => ?_
  refine ens_bind (R := fun c => MainGate.add ((shares.map T.cell).getD i 0) (T.cell key) (T.cell c)) ?_ ?_
  · refine ens_region (ens_bind ens_nth fun s hs => ?_)
    rw [getD_map_nth hs]
    exact ens_add _ _
  · intro c h4
    refine ens_bind ens_exposePublic fun _ h5 => ens_pure ⟨T.cell c, exposed_one h5, h1, ptVal T p.1, T.cell key, h2, h3, h4⟩

/-! ### The circuit -/

theorem ens_sharesLoop {J : IntegerImpl} {good : J.I → Prop} {val : J.I → Fq} (hJ : J.Correct T good val)
    (tab : List (List (P1 J))) (htab : ∀ row ∈ tab, ∀ p ∈ row, good2 good p) (base : Cell) (shares : List Cell) (n o : ℕ) :
    Ensures T (sharesLoop tab base shares n o) fun o' => ∃ cgs : List (List Fr), Exposed T o o' cgs.flatten ∧
      List.Forall₂ (DkgCircuit.exposeG1 (tab.map (List.map (val2 val))) (T.cell base)) ((shares.map T.cell).take n) cgs := by
  unfold sharesLoop
  rw [List.range_eq_range']
  refine ens_mono (ens_foldS_range (I := fun k o' => ∃ cgs : List (List Fr), Exposed T o o' cgs.flatten ∧
      List.Forall₂ (DkgCircuit.exposeG1 (tab.map (List.map (val2 val))) (T.cell base)) ((shares.map T.cell).take k) cgs)
      ?_ n 0 o ?_) ?_
  · rintro i o' ⟨cgs, h1, h2⟩
    refine ens_bind ens_nth fun s hs => ?_
    refine ens_bind (ens_exposeG1 hJ tab htab (some base) s o') fun e he => ens_pure ?_
    obtain ⟨cells, h3, h4⟩ := he.2.2
    rw [he.1 base rfl] at h4
    refine ⟨cgs ++ [cells], ?_, ?_⟩
    · rw [List.flatten_append, List.flatten_singleton]
      exact exposed_append h1 h3
    · rw [List.take_add_one, List.getElem?_map, hs]
      exact List.rel_append h2 (.cons h4 .nil)
  · exact ⟨[], exposed_nil o, by rw [List.take_zero]; exact .nil⟩
  · intro o' h
    rw [Nat.zero_add] at h
    exact h

theorem getD_append_left {xs ys : List α} {i : ℕ} {d : α} (h : i < xs.length) : (xs ++ ys).getD i d = xs.getD i d := by
  rw [List.getD_eq_getElem?_getD, List.getD_eq_getElem?_getD, List.getElem?_append_left h]

theorem getD_append_len {xs : List α} {x d : α} {i : ℕ} (h : i = xs.length) : (xs ++ [x]).getD i d = x := by
  rw [h, List.getD_eq_getElem?_getD, List.getElem?_append_right (Nat.le_refl _), Nat.sub_self]
  rfl

theorem ens_membersLoop (aux auxNeg : PtCell) (bits shares : List Cell) (n o : ℕ) :
    Ensures T (membersLoop aux auxNeg bits shares n o) fun st => ∃ ciphers : List Fr, Exposed T o st.2 ciphers ∧
      st.1.length = n ∧ ciphers.length = n ∧ ∀ i < n, DkgCircuit.memberRegion (ptVal T aux) (ptVal T auxNeg)
        (bits.map T.cell) ((shares.map T.cell).getD i 0) ((st.1.map (ptVal T)).getD i (0, 0)) (ciphers.getD i 0) := by
  unfold membersLoop
  rw [List.range_eq_range']
  refine ens_mono (ens_foldS_range (I := fun k st => ∃ ciphers : List Fr, Exposed T o st.2 ciphers ∧
      st.1.length = k ∧ ciphers.length = k ∧ ∀ i < k, DkgCircuit.memberRegion (ptVal T aux) (ptVal T auxNeg)
        (bits.map T.cell) ((shares.map T.cell).getD i 0) ((st.1.map (ptVal T)).getD i (0, 0)) (ciphers.getD i 0))
      ?_ n 0 ([], o) ?_) ?_
  · rintro k ⟨pks, o'⟩ ⟨ciphers, h1, h2, h3, h4⟩
    refine ens_bind (ens_memberRegion aux auxNeg bits shares k o') fun m hm => ens_pure ?_
    obtain ⟨c, h5, h6⟩ := hm
    dsimp only at h2 h4
    refine ⟨ciphers ++ [c], exposed_append h1 h5, by rw [List.length_append, h2]; rfl,
      by rw [List.length_append, h3]; rfl, ?_⟩
    intro i hi
    rw [List.map_append]
    rcases Nat.lt_succ_iff_lt_or_eq.1 hi with hi | rfl
    · rw [getD_append_left (by rw [List.length_map, h2]; exact hi), getD_append_left (by rw [h3]; exact hi)]
      exact h4 i hi
    · rw [List.map_singleton, getD_append_len (by rw [List.length_map, h2]), getD_append_len h3.symm]
      exact h6
  · exact ⟨[], exposed_nil o, rfl, rfl, fun i hi => absurd hi (Nat.not_lt_zero i)⟩
  · intro st h
    rw [Nat.zero_add] at h
    exact h

theorem ens_exposePoints : ∀ (pks : List PtCell) (o : ℕ), Ensures T (foldS (fun o pk => exposePoint pk o) pks o) fun o' =>
    Exposed T o o' ((pks.map (ptVal T)).flatMap fun pk => [pk.1, pk.2])
  | [], o => ens_pure (exposed_nil o)
  | pk :: pks, o => by
    refine ens_bind (ens_exposePoint pk o) fun o' h => ?_
    exact ens_mono (ens_exposePoints pks o') fun o'' h' => exposed_append h h'

theorem ens_synthesize {J : IntegerImpl} {good : J.I → Prop} {val : J.I → Fq} (hJ : J.Correct T good val) (cfg : DkgConfig)
    (auxG1 : G1) (auxG2 : G2) : Ensures T (synthesize J cfg auxG1 auxG2) fun o =>
      DkgCircuit.synthesize cfg auxG1 auxG2 ((List.range o).map T.inst) := by
  refine ens_bind (ens_sharesRegion cfg) fun sh hsh => ?_
  obtain ⟨coeffs, hlen, ha, hshares⟩ := hsh
  refine ens_bind (ens_tablesRegion hJ auxG1 auxG2) fun tabs ht => ?_
  refine ens_bind ens_auxRegion fun aux haux => ?_
  refine ens_bind (ens_exposeG1 hJ tabs.1 ht.1.1 none sh.2 0) fun e0 h0 => ?_
  refine ens_bind (ens_sharesLoop hJ tabs.1 ht.1.1 e0.1 sh.1 cfg.numberOfMembers e0.2) fun o1 h1 => ?_
  refine ens_bind (ens_exposeG2 hJ tabs.2 ht.2.1 (some e0.1) sh.2 o1) fun e2 h2 => ?_
  refine ens_bind (ens_grRegion aux.1 aux.2) fun gr hgr => ?_
  refine ens_bind (ens_exposePoint gr.2 e2.2) fun o3 h3 => ?_
  refine ens_bind (ens_membersLoop aux.1 aux.2 gr.1 sh.1 cfg.numberOfMembers o3) fun ms hms => ?_
  refine ens_mono (ens_exposePoints ms.1 ms.2) fun o h5 => ?_
  obtain ⟨cga, x0, x1⟩ := h0.2.2
  obtain ⟨cgs, y0, y1⟩ := h1
  obtain ⟨hb, cg2a, z0, z1⟩ := h2
  obtain ⟨g, g0, g1', g2'⟩ := hgr
  obtain ⟨ciphers, m0, m1, m2, m3⟩ := hms
  rw [ha] at x1 z1
  rw [hb e0.1 rfl] at z1
  have hall := exposed_append (exposed_append (exposed_append (exposed_append (exposed_append x0 y0) z0) h3) m0) h5
  refine ⟨coeffs, sh.1.map T.cell, _, _, ptVal T aux.1, ptVal T aux.2, T.cell e0.1, cga, cgs, cg2a, g, ptVal T gr.2,
    gr.1.map T.cell, ms.1.map (ptVal T), ciphers, hlen, hshares, ht.1.2, ht.2.2, haux.1, haux.2, h0.2.1 rfl, x1, y1, z1,
    g0, g1', g2', by rw [List.length_map, m1], m2, m3, ?_⟩
  obtain ⟨q1, q2⟩ := hall
  rw [Nat.zero_add] at q1
  rw [q1, List.range_eq_range']
  exact q2

end Verif.Layout
