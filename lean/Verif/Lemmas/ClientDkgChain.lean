import Verif.Lemmas.ClientDkg

/-! The dealings stored by the contract, and the client's view of them. -/

namespace Verif.Client
open Verif Zkdvrf

/-- A DKG that has finished has at least one member. -/
theorem late_pos {env : Env} {s : State} (h : Reachable env s) :
    (s.contractPhase = .NidkgComplete ∨ s.contractPhase = .Ready) → 1 ≤ s.memberCount := by
  refine reach_induct (fun s => (s.contractPhase = .NidkgComplete ∨ s.contractPhase = .Ready) →
    1 ≤ s.memberCount) ?_ ?_ ?_ h
  · intro m t n a b c d s hm hc
    rw [constructor_some] at hc
    obtain ⟨_, _, _, _, _, _, hb, rfl⟩ := hc
    rintro (h | h) <;> cases h
  · intro s m c s' hreach ih hm he
    cases c with
    | addPermissionedNodes a =>
      obtain ⟨_, _, _, _, _, _, rfl⟩ := addPermissionedNodes_some.1 he
      exact ih
    | registerNode pk =>
      obtain ⟨_, _, _, _, _, _, _, rfl⟩ := registerNode_some.1 he
      exact ih
    | startNidkg =>
      obtain ⟨_, _, _, _, rfl⟩ := startNidkg_some.1 he
      rintro (h | h) <;> cases h
    | submitPublicParams pp pr =>
      obtain ⟨_, _, h3, _, _, _, _, rfl⟩ := submitPublicParams_some.1 he
      intro h
      change 1 ≤ s.memberCount
      by_cases hl : s.ppSubmissionCount + 1 = s.memberCount
      · omega
      · simp only [if_neg hl] at h
        exact ih h
    | computeVk g =>
      obtain ⟨_, h2, _, _, rfl⟩ := computeVk_some.1 he
      intro _
      exact ih (Or.inl h2)
    | initiateRandom =>
      obtain ⟨_, _, _, _, _, rfl⟩ := initiateRandom_some.1 he
      exact ih
    | submitPartialEval pe =>
      obtain ⟨_, _, _, _, _, _, _, _, rfl⟩ := submitPartialEval_some.1 he
      exact ih
    | submitRandom pr =>
      obtain ⟨_, _, _, _, _, rfl⟩ := submitRandom_some.1 he
      exact ih
    | transferOwnership a =>
      obtain ⟨_, _, _, rfl⟩ := transferOwnership_some.1 he
      exact ih
    | renounceOwnership =>
      obtain ⟨_, _, rfl⟩ := renounceOwnership_some.1 he
      exact ih
  · intro s a ih
    exact ih

theorem keyWords_inj {P Q : Gk} (h : keyWords P = keyWords Q) : P = Q := by
  have hx : wordOf (coords P).1 = wordOf (coords Q).1 := congrArg GrumpkinSol.Point.x h
  have hy : wordOf (coords P).2 = wordOf (coords Q).2 := congrArg GrumpkinSol.Point.y h
  have e : ∀ a b : Fr, wordOf a = wordOf b → a = b := by
    intro a b hab
    have := congrArg BitVec.toNat hab
    rw [word_val, word_val] at this
    exact ZMod.val_injective _ this
  have h1 := gkFromXY_coords P
  rw [e _ _ hx, e _ _ hy, gkFromXY_coords Q] at h1
  exact (Option.some.inj h1).symm

theorem length_cells_flatten : ∀ {l : List ℕ} {cgs : List (List Fr)} {f : ℕ → G1},
    List.Forall₂ (fun i d => Spec.PointCells (f i) d) l cgs → cgs.flatten.length = 4 * l.length
  | _, _, _, .nil => rfl
  | _, _, _, .cons h1 h2 => by
    rw [List.flatten_cons, List.length_append, length_cells_flatten h2, List.length_cons]
    obtain ⟨_, dx, dy, ⟨_, _, _, rfl⟩, ⟨_, _, _, rfl⟩, rfl⟩ := h1
    simp only [List.length_append, List.length_cons, List.length_nil]
    omega

/-- The keys at the end of the words of a dealing. -/
theorem dealing_keys {n : ℕ} {coeffs : List Fr} {R : ℕ} {pks : List Gk} {ins : List Fr}
    (h : Spec.DealingCells n coeffs R pks ins) :
    (wordsOf ins).drop (5 * n + 14) = (pks.map keyWords).flatMap (fun k => [k.x, k.y]) := by
  obtain ⟨cga, cgs, cg2a, h1, h2, h3, rfl⟩ := h
  have l2 := length_cells_flatten h2
  rw [List.length_range'] at l2
  have l1 : cga.length = 4 := by
    obtain ⟨_, dx, dy, ⟨_, _, _, rfl⟩, ⟨_, _, _, rfl⟩, rfl⟩ := h1
    rfl
  have l3 : cg2a.length = 8 := by
    obtain ⟨_, d0, d1, d2, d3, ⟨_, _, _, rfl⟩, ⟨_, _, _, rfl⟩, ⟨_, _, _, rfl⟩, ⟨_, _, _, rfl⟩, rfl⟩ := h3
    rfl
  rw [← words_keys, show pks.flatMap (fun pk => [(coords pk).1, (coords pk).2]) =
    pks.flatMap encGk from rfl]
  generalize Poseidon.hash2 = H
  have e : ∀ (a b : List Fr) (k : ℕ), a.length = k → (wordsOf (a ++ b)).drop k = wordsOf b := by
    intro a b k hk
    rw [wordsOf, List.map_append, ← hk, ← List.length_map (f := wordOf), List.drop_left]
    rfl
  apply e
  simp only [List.length_append, l1, l2, l3, List.length_map, List.length_range, List.length_cons,
    List.length_nil]
  omega

theorem forall₂_exists_right {α β : Type} {R : α → β → Prop} : ∀ {l : List α} {l' : List β},
    List.Forall₂ R l l' → ∀ {b}, b ∈ l' → ∃ a ∈ l, R a b
  | _, _, .cons h1 h2, b, hb => by
    rcases List.mem_cons.1 hb with rfl | hb
    · exact ⟨_, List.mem_cons_self, h1⟩
    · obtain ⟨a, ha, hab⟩ := forall₂_exists_right h2 hb
      exact ⟨a, List.mem_cons_of_mem _ ha, hab⟩

/-- The stored parameters are dealings to the registered keys. -/
theorem chain_dealings {env : Env} {s : State} (hr : Reachable env s)
    (hs : Spec.SnarkSound env s.threshold s.memberCount)
    (hp : s.contractPhase = .NidkgComplete ∨ s.contractPhase = .Ready) :
    ∃ (pks : List Gk) (ds : List (List Fr × ℕ)), pks.length = s.memberCount ∧
      (∀ P ∈ pks, P ≠ 0) ∧ pks.map keyWords = s.pkList ∧ ds ≠ [] ∧
      List.Forall₂ (Dealt s.threshold s.memberCount pks) s.ppList ds := by
  have hreg := regInv hr
  have hdkg := dkgInv hr
  have hpos := late_pos hr hp
  have hkl : s.pkList.length = s.memberCount := by
    have h1 := hreg.started (by rcases hp with h | h <;> rw [h] <;> exact Phase.noConfusion)
    have h2 := hreg.pkLen
    omega
  have hpl : s.ppList.length = s.memberCount := by rw [hdkg.ppLen, hdkg.late hp]
  -- every stored vector deals to some keys
  have hone : ∀ w ∈ s.ppList, ∃ (pks : List Gk) (d : List Fr × ℕ), pks.length = s.memberCount ∧
      (∀ P ∈ pks, P ≠ 0) ∧ pks.map keyWords = s.pkList ∧
      Dealt s.threshold s.memberCount pks w d := by
    intro w hw
    obtain ⟨coeffs, R, pks, ins, h1, h2, h3, h4, rfl⟩ := ppList_dealings hr hs w hw
    obtain ⟨_, _, _, hd⟩ := hdkg.ppOk _ hw
    rw [dealing_keys h4] at hd
    have hk := key_list_inj (pks.map keyWords) s.pkList (by rw [List.length_map, h2, hkl]) hd
    exact ⟨pks, (coeffs, R), h2, h3, hk, h1, ins, h4, rfl⟩
  obtain ⟨w0, hw0⟩ : ∃ w, w ∈ s.ppList := by
    apply List.exists_mem_of_length_pos
    omega
  obtain ⟨pks, _, hl, hnz, hk, _⟩ := hone w0 hw0
  have hall : ∀ w ∈ s.ppList, ∃ d, Dealt s.threshold s.memberCount pks w d := by
    intro w hw
    obtain ⟨pks', d, _, _, hk', hd⟩ := hone w hw
    have hinj : Function.Injective keyWords := fun P Q h => keyWords_inj h
    have : pks' = pks := List.map_injective_iff.2 hinj (hk'.trans hk.symm)
    subst this
    exact ⟨d, hd⟩
  have hF : ∀ l : List (List Word), (∀ w ∈ l, ∃ d, Dealt s.threshold s.memberCount pks w d) →
      ∃ ds, List.Forall₂ (Dealt s.threshold s.memberCount pks) l ds := by
    intro l
    induction l with
    | nil => exact fun _ => ⟨[], .nil⟩
    | cons w l ih =>
      intro h
      obtain ⟨d, hd⟩ := h w List.mem_cons_self
      obtain ⟨ds, hds⟩ := ih (fun w hw => h w (List.mem_cons_of_mem _ hw))
      exact ⟨d :: ds, .cons hd hds⟩
  obtain ⟨ds, hds⟩ := hF _ hall
  refine ⟨pks, ds, hl, hnz, hk, ?_, hds⟩
  rintro rfl
  have := hds.length_eq
  rw [hpl] at this
  simp only [List.length_nil] at this
  omega

theorem dealt_points {t n : ℕ} {pks : List Gk} (hl : pks.length = n) (hnz : ∀ P ∈ pks, P ≠ 0) :
    ∀ {pl : List (List Word)} {ds : List (List Fr × ℕ)}, List.Forall₂ (Dealt t n pks) pl ds →
      (∀ w ∈ pl, Spec.Reduced n w) →
      ∃ es : List ((G1 × List G1) × List Word), pl = es.map pointWords ∧
        (∀ d ∈ es, d.1.2.length = n) ∧
        (es.map (fun e => e.1.1)).sum = (ds.map (fun d => Spec.poly d.1 0)).sum • g1 ∧
        ∀ j, j < n → (es.map (fun e => e.1.2.getD j 0)).sum =
          (ds.map (fun d => Spec.poly d.1 ((j + 1 : ℕ) : Fr))).sum • g1
  | _, _, .nil, _ => ⟨[], rfl, by simp, by
      rw [List.map_nil, List.sum_nil, List.map_nil, List.sum_nil]; exact (zero_smul Fr g1).symm, by
      intro j _
      rw [List.map_nil, List.sum_nil, List.map_nil, List.sum_nil]; exact (zero_smul Fr g1).symm⟩
  | _, _, .cons (a := w) (b := d) (l₁ := pl) (l₂ := ds) h1 h2, hr => by
    obtain ⟨es, e1, e2, e3, e4⟩ := dealt_points hl hnz h2 (fun w hw => hr w (List.mem_cons_of_mem _ hw))
    obtain ⟨hc, ins, hd, rfl⟩ := h1
    obtain ⟨e, f1, f2, f3⟩ := dealing_words (t := t) (n := n) (coeffs := d.1)
      ⟨d.2, pks, ins, hc, hl, hnz, hd, rfl⟩ (hr _ List.mem_cons_self)
    refine ⟨e :: es, ?_, ?_, ?_, ?_⟩
    · rw [List.map_cons, ← f1, ← e1]
    · intro d' hd'
      rcases List.mem_cons.1 hd' with rfl | hd'
      · rw [f3]; simp
      · exact e2 d' hd'
    · rw [List.map_cons, List.sum_cons, e3, f2, List.map_cons, List.sum_cons, add_smul]
    · intro j hj
      rw [List.map_cons, List.sum_cons, e4 j hj, f3, List.map_cons, List.sum_cons, add_smul,
        List.getD_eq_getElem?_getD, List.getElem?_map, List.getElem?_range' hj]
      simp only [Option.map_some, Option.getD_some, one_mul, Nat.add_comm 1 j]

/-- The stored dealings with their group polynomial, as the contract and the client see them. -/
structure View (env : Env) (s : State) (pks : List Gk) (ds : List (List Fr × ℕ)) (F : List Fr) :
    Prop where
  len : pks.length = s.memberCount
  nz : ∀ P ∈ pks, P ≠ 0
  keys : pks.map keyWords = s.pkList
  ne : ds ≠ []
  dealt : List.Forall₂ (Dealt s.threshold s.memberCount pks) s.ppList ds
  deg : F.length = s.threshold
  sum : ∀ x, (ds.map (fun d => Spec.poly d.1 x)).sum = Spec.poly F x
  chain : (∀ w ∈ s.ppList, Spec.Reduced s.memberCount w) → ∀ gpk out,
    Gpp.createGpp env.E s.memberCount gpk s.ppList = some out ↔
      gpk = encodeG2 (smul2 (Spec.poly F 0) g2) ∧ out = (gpk, (List.range s.memberCount).map
        (fun j => encodeG1 (Spec.poly F ((j + 1 : ℕ) : Fr) • g1)))

theorem view {env : Env} {s : State} (hr : Reachable env s)
    (hs : Spec.SnarkSound env s.threshold s.memberCount)
    (hp : s.contractPhase = .NidkgComplete ∨ s.contractPhase = .Ready) :
    ∃ pks ds F, View env s pks ds F := by
  obtain ⟨pks, ds, h1, h2, h3, h4, h5⟩ := chain_dealings hr hs hp
  obtain ⟨F, h6, h7⟩ := sum_poly s.threshold (ds.map Prod.fst) (by
    intro c hc
    obtain ⟨d, hd, rfl⟩ := List.mem_map.1 hc
    obtain ⟨w, _, hw⟩ := forall₂_exists_right h5 hd
    exact hw.1)
  have h8 : ∀ x, (ds.map (fun d => Spec.poly d.1 x)).sum = Spec.poly F x := by
    intro x
    rw [← h7 x, List.map_map]
    rfl
  refine ⟨pks, ds, F, h1, h2, h3, h4, h5, h6, h8, ?_⟩
  intro hred gpk out
  have hdkg := dkgInv hr
  have hb := (regInv hr).bound
  obtain ⟨es, e1, e2, e3, e4⟩ := dealt_points h1 h2 h5 hred
  have hlen : es.length ≤ s.memberCount := by
    have := congrArg List.length e1
    rw [List.length_map, hdkg.ppLen, hdkg.late hp] at this
    omega
  rw [h8] at e3
  rw [e1, createGpp_eq env.E s.memberCount es hlen e2 (by omega) _ e3]
  have : (List.range s.memberCount).map (fun j => encodeG1 (es.map (fun d => d.1.2.getD j 0)).sum) =
      (List.range s.memberCount).map
        (fun j => encodeG1 (Spec.poly F ((j + 1 : ℕ) : Fr) • g1)) := by
    apply List.map_congr_left
    intro j hj
    rw [e4 j (List.mem_range.1 hj), h8]
  rw [this]

end Verif.Client
