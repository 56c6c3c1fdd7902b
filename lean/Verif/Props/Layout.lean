import Verif.Lemmas.LayoutKey
import Verif.Lemmas.LayoutCount
import Verif.Props.DkgCircuit
import Verif.Props.Halo2Sound
import Verif.Props.Contract

/-!
Properties C78 and C79: the layout of the DKG circuit (gates, copy constraints, public inputs) enforces a dealing, and
with it an accepted on-chain proof.
-/

namespace Verif.Props
open Verif Verif.Spec Verif.Layout Polynomial

/-- C78. If a table of cells satisfies the gates, copy constraints, constants and public inputs that `synthesize` lays
out (and the external integer chip is correct on it), then the public inputs of the table are those of a dealing: a
polynomial with `t` coefficients, the points `f(0)·g1`, `f(i)·g1`, `f(0)·g2`, `R·gg`, and the shares encrypted to the
keys. -/
theorem C78_layout_enforces_dealing (J : IntegerImpl) (t n : ℕ) (ht : 0 < t) (hn : n < 2 ^ 64) (auxG1 : G1) (auxG2 : G2)
    (S : Shape) (N : ℕ) (hL : layout J ⟨t, n⟩ auxG1 auxG2 = some (S, N)) (T : Table) (good : J.I → Prop) (val : J.I → Fq)
    (hJ : J.Correct T good val) (hT : Layout.Holds S T) :
    ∃ (coeffs : List Fr) (R : ℕ) (pks : List Gk),
      coeffs.length = t ∧ pks.length = n ∧ (∀ pk ∈ pks, pk ≠ 0) ∧ R < 2 ^ 254 ∧ ¬ q ∣ R ∧
      DealingCells n coeffs R pks ((List.range N).map T.inst) := by
  obtain ⟨o, ho, he⟩ := Option.map_eq_some_iff.1 hL
  obtain ⟨rfl, rfl⟩ := Prod.mk.inj he
  have h := ens_synthesize hJ ⟨t, n⟩ auxG1 auxG2 _ o ho hT
  obtain ⟨-, -, -, coeffs, R, pks, h1, h2, h3, h4, h5, -, -, -, h6⟩ :=
    (C28_circuit_exact t n ht hn auxG1 auxG2 _).1 h
  exact ⟨coeffs, R, pks, h1, h2, h3, h4, h5, h6⟩

/-- C78. The layout has `7 n + 14` public inputs, as many as the contract asks for. -/
theorem C78_public_inputs (J : IntegerImpl) (t n : ℕ) (auxG1 : G1) (auxG2 : G2) (S : Shape) (N : ℕ)
    (hL : layout J ⟨t, n⟩ auxG1 auxG2 = some (S, N)) : N = 7 * n + 14 := by
  obtain ⟨o, ho, he⟩ := Option.map_eq_some_iff.1 hL
  obtain ⟨-, rfl⟩ := Prod.mk.inj he
  exact yields_synthesize ⟨t, n⟩ auxG1 auxG2 _ o ho

/-- C78. If a key belongs to a layout, columns that satisfy the constraint system of the key are a table that satisfies
the layout. -/
theorem C78_satisfied_layout (V : Spec.Halo2.Key) (hV : V.Valid) (K : Spec.Halo2.KeyPolys) (S : Shape) (start : ℕ → ℕ)
    (hR : Realizes V K S start) (advice : Fin 5 → Fr[X]) (inst : List Fr) (h : Spec.Halo2.Satisfied V K advice inst) :
    Layout.Holds S (tableOf V K start advice inst) :=
  holds_of_satisfied (hV.root.ne_zero (pow_ne_zero _ two_ne_zero)) hR h

/-- The gate of a multiplication in a row. -/
noncomputable def mulRow : MainRow := ⟨fun j => if j = 2 then -1 else 0, 1, 0, 0, 0⟩

/-- The key with one multiplication gate belongs to the layout with two regions of one such row. -/
example (s : Fr) : Realizes (mulKey s) mulPolys ⟨[(0, 0, .main mulRow), (1, 0, .main mulRow)], [(⟨1, 0, 2⟩, ⟨1, 0, 2⟩)], [], []⟩
    (fun k => k) ∧ Spec.Halo2.Satisfied (mulKey s) mulPolys ![X, X, X ^ 2, 0, 0] [3] := by
  constructor
  · have hu : (mulKey s).usable = 2 := rfl
    have hf : ∀ (j : Fin 23) (i : ℕ), fixedAt (mulKey s) mulPolys j i = if j = 5 then 1 else if j = 2 then -1 else 0 := by
      intro j i
      unfold fixedAt mulPolys
      dsimp only
      split
      · exact eval_one
      · split
        · rw [eval_neg, eval_one]
        · exact eval_zero
    have key : ∀ i, (Gate.main mulRow).placed (mulKey s) mulPolys i := by
      intro i
      unfold Gate.placed
      dsimp only
      simp only [hf]
      exact ⟨⟨rfl, rfl, rfl, rfl, rfl⟩, rfl, rfl, rfl, rfl⟩
    refine ⟨?_, ?_, ?_, ?_⟩
    · intro k i g hg
      simp only [List.mem_cons, List.not_mem_nil, or_false, Prod.mk.injEq] at hg
      rcases hg with ⟨rfl, rfl, rfl⟩ | ⟨rfl, rfl, rfl⟩
      · exact ⟨by rw [hu]; omega, key _⟩
      · exact ⟨by rw [hu]; omega, key _⟩
    · intro c c' h
      simp only [List.mem_cons, List.not_mem_nil, or_false, Prod.mk.injEq] at h
      rw [h.1, h.2]
      exact Relation.EqvGen.refl _
    · intro c x h
      exact absurd h List.not_mem_nil
    · intro c x h
      exact absurd h List.not_mem_nil
  · rw [mul_satisfied]
    intro i _
    rw [eval_X, eval_pow, eval_X, pow_two]

theorem range_inst (V : Spec.Halo2.Key) (K : Spec.Halo2.KeyPolys) (start : ℕ → ℕ) (advice : Fin 5 → Fr[X]) (inst : List Fr) :
    (List.range inst.length).map (tableOf V K start advice inst).inst = inst := by
  refine List.ext_getElem (by rw [List.length_map, List.length_range]) fun i h1 h2 => ?_
  rw [List.getElem_map, List.getElem_range]
  exact List.getD_eq_getElem _ _ h2

/-- C79. The on-chain verifier with the key of the layout: if the verifier contract accepts a proof made of the
commitments of some polynomials, then a challenge is one of few exceptions, or the prover knows a nonzero polynomial that
vanishes at the secret of the setup, or the public inputs are those of a dealing. -/
theorem C79_on_chain_dealing (E : BnPairing) (V : Spec.Halo2.Key) (hV : V.Valid) (s : Fr) (K : Spec.Halo2.KeyPolys)
    (hK : Spec.Halo2.KeyFor V s K) (D : ℕ) (hD : V.n ≤ D + 1) (hKD : K.Bound D) (hi : V.instances ≤ V.n)
    (J : IntegerImpl) (t n : ℕ) (ht : 0 < t) (hn : n < 2 ^ 64) (auxG1 : G1) (auxG2 : G2) (S : Shape)
    (hL : layout J ⟨t, n⟩ auxG1 auxG2 = some (S, V.instances)) (start : ℕ → ℕ) (hR : Realizes V K S start)
    (hJ : ∀ advice inst, ∃ good val, J.Correct (tableOf V K start advice inst) good val) (inst : List Fr) :
    ∃ B : Spec.Halo2.Exceptions, B.Small V D ∧ ∀ (keccak : Keccak) (sel : List Byte) (addr : Word)
      (P : Spec.Halo2.Polys) (e : Spec.Halo2.Evals) (w w' : Fr[X]), sel.length = 4 → P.Bound D → w.natDegree ≤ D →
      Halo2.verifyProof E keccak V.words sel addr (Spec.Halo2.proofOf s P e w w').bytes (wordsOf inst) = some true →
      B.Hit (Spec.Halo2.challengesOf keccak V inst (Spec.Halo2.proofOf s P e w w').words) P e w ∨
      (∃ f : Fr[X], f ≠ 0 ∧ f.eval s = 0 ∧ f = Spec.Halo2.openPoly V K
        (Spec.Halo2.challengesOf keccak V inst (Spec.Halo2.proofOf s P e w w').words) inst P e w w') ∨
      ∃ (coeffs : List Fr) (R : ℕ) (pks : List Gk),
        coeffs.length = t ∧ pks.length = n ∧ (∀ pk ∈ pks, pk ≠ 0) ∧ R < 2 ^ 254 ∧ ¬ q ∣ R ∧
        DealingCells n coeffs R pks inst := by
  obtain ⟨B, hB, h⟩ := C64_on_chain E V hV s K hK D hD hKD inst hi
  refine ⟨B, hB, fun keccak sel addr P e w w' hs hP hw hacc => ?_⟩
  rcases h keccak sel addr P e w w' hs hP hw hacc with h1 | h1 | h1
  · exact Or.inl h1
  · refine Or.inr (Or.inr ?_)
    have hlen : inst.length = V.instances := by
      have := (C59_accepted_format E keccak V hV sel hs addr _ _ hacc).2.2.1
      rw [wordsOf, List.length_map] at this
      exact this
    obtain ⟨good, val, hc⟩ := hJ P.advice inst
    have h2 := C78_layout_enforces_dealing J t n ht hn auxG1 auxG2 S V.instances hL _ good val hc
      (C78_satisfied_layout V hV K S start hR P.advice inst h1)
    rw [← hlen, range_inst] at h2
    exact h2
  · exact Or.inr (Or.inl h1)

theorem dealing_keys {n : ℕ} {coeffs : List Fr} {R : ℕ} {pks : List Gk} {ins : List Fr}
    (h : DealingCells n coeffs R pks ins) (hp : pks.length = n) (hl : ins.length = 7 * n + 14) :
    (wordsOf ins).drop (5 * n + 14) = (pks.map Zkdvrf.keyWords).flatMap fun k => [k.x, k.y] := by
  obtain ⟨cga, cgs, cg2a, -, -, -, rfl⟩ := h
  have e : (pks.flatMap fun pk => [(coords pk).1, (coords pk).2]).length = 2 * n := by
    rw [List.length_flatMap, ← hp]
    clear hl hp
    induction pks with
    | nil => rfl
    | cons pk pks ih => rw [List.map_cons, List.sum_cons, ih, List.length_cons]; simp only [List.length_cons, List.length_nil]; omega
  rw [List.length_append, e] at hl
  rw [wordsOf, List.map_append, List.drop_left' (by rw [List.length_map]; omega), List.map_flatMap, List.flatMap_map]
  rfl

/-- C79. The contract with this verifier: if a submission of public parameters with such a proof is accepted in a
reachable state, then a challenge is an exception, or the prover knows a polynomial that vanishes at the secret, or the
parameters are those of a dealing to exactly the registered keys, in their order. -/
theorem C79_contract_submission (E : BnPairing) (V : Spec.Halo2.Key) (hV : V.Valid)
    (s : Fr) (K : Spec.Halo2.KeyPolys) (hK : Spec.Halo2.KeyFor V s K) (D : ℕ) (hD : V.n ≤ D + 1) (hKD : K.Bound D)
    (hi : V.instances ≤ V.n) (J : IntegerImpl) (t n : ℕ) (ht : 0 < t) (hn : n < 2 ^ 64) (auxG1 : G1) (auxG2 : G2)
    (S : Shape) (hL : layout J ⟨t, n⟩ auxG1 auxG2 = some (S, V.instances)) (start : ℕ → ℕ) (hR : Realizes V K S start)
    (hJ : ∀ advice inst, ∃ good val, J.Correct (tableOf V K start advice inst) good val) (inst : List Fr) :
    ∃ B : Spec.Halo2.Exceptions, B.Small V D ∧ ∀ (env : Env) (sel : List Byte) (addr : Word) (st st' : Zkdvrf.State) (m : Msg)
      (P : Spec.Halo2.Polys) (e : Spec.Halo2.Evals) (w w' : Fr[X]), env.E = E → sel.length = 4 →
      env.verifyProof = Halo2.verifyProof E env.keccak V.words sel addr →
      Zkdvrf.Reachable env st → P.Bound D → w.natDegree ≤ D →
      Zkdvrf.exec env st m (.submitPublicParams (wordsOf inst) (Spec.Halo2.proofOf s P e w w').bytes) = some st' →
      B.Hit (Spec.Halo2.challengesOf env.keccak V inst (Spec.Halo2.proofOf s P e w w').words) P e w ∨
      (∃ f : Fr[X], f ≠ 0 ∧ f.eval s = 0 ∧ f = Spec.Halo2.openPoly V K
        (Spec.Halo2.challengesOf env.keccak V inst (Spec.Halo2.proofOf s P e w w').words) inst P e w w') ∨
      st.memberCount = n ∧ ∃ (coeffs : List Fr) (R : ℕ) (pks : List Gk),
        coeffs.length = t ∧ st.pkList = pks.map Zkdvrf.keyWords ∧ (∀ pk ∈ pks, pk ≠ 0) ∧ R < 2 ^ 254 ∧ ¬ q ∣ R ∧
        DealingCells n coeffs R pks inst := by
  obtain ⟨B, hB, h⟩ := C79_on_chain_dealing E V hV s K hK D hD hKD hi J t n ht hn auxG1 auxG2 S hL start hR hJ inst
  refine ⟨B, hB, fun env sel addr st st' m P e w w' hE hs henv hr hP hw hex => ?_⟩
  subst hE
  obtain ⟨-, -, -, -, hchk, hver, -⟩ := Zkdvrf.submitPublicParams_some.1 hex
  rw [henv] at hver
  rcases h env.keccak sel addr P e w w' hs hP hw hver with h1 | h1 | ⟨coeffs, R, pks, a1, a2, a3, a4, a5, a6⟩
  · exact Or.inl h1
  · exact Or.inr (Or.inl h1)
  · have hreg := Zkdvrf.regInv hr
    obtain ⟨b1, b2, b3⟩ := (Zkdvrf.checkPublicParams_true hreg.len hreg.bound _).1 hchk
    have hN := C78_public_inputs J t n auxG1 auxG2 S _ hL
    have hlen := (C59_accepted_format env.E env.keccak V hV sel hs addr _ _ hver).2.2.1
    have hm : st.memberCount = n := by omega
    rw [hm] at b1 b3
    rw [wordsOf, List.length_map] at hlen
    rw [dealing_keys a6 a2 (by omega)] at b3
    refine Or.inr (Or.inr ⟨hm, coeffs, R, pks, a1, ?_, a3, a4, a5, a6⟩)
    exact (Zkdvrf.key_list_inj _ _ (by rw [List.length_map, a2, b1]) b3).symm

end Verif.Props
