import Verif.Lemmas.Halo2Sound

/-! The exceptional challenges. -/

namespace Verif.Spec.Halo2
open Polynomial

/-- All but `b` elements satisfy `p`. -/
def Most (b : ℕ) (p : Fr → Prop) : Prop := ∃ B : Finset Fr, B.card ≤ b ∧ ∀ t ∉ B, p t

open Classical in
/-- The exceptions. -/
noncomputable def pick (b : ℕ) (p : Fr → Prop) : Finset Fr := if h : Most b p then h.choose else ∅

theorem pick_card (b : ℕ) (p : Fr → Prop) : (pick b p).card ≤ b := by
  unfold pick
  split
  · rename_i h
    exact h.choose_spec.1
  · exact Nat.zero_le _

theorem pick_spec {b : ℕ} {p : Fr → Prop} (h : Most b p) {t : Fr} (ht : t ∉ pick b p) : p t := by
  unfold pick at ht
  rw [dif_pos h] at ht
  exact h.choose_spec.2 t ht

section levels
variable (V : Key) (K : KeyPolys) (inst : List Fr) (D : ℕ)

/-- The opening fails (as polynomials). -/
def FailMu (t b g y x z n : Fr) (P : Polys) (e : Evals) (w : Fr[X]) (m : Fr) : Prop :=
  (⟨t, b, g, y, x, z, n, m⟩ : Challenges).Good V ∧
    ∀ w' : Fr[X], openPoly V K ⟨t, b, g, y, x, z, n, m⟩ inst P e w w' ≠ 0
/-- The same before the last challenge. -/
def FailNu (t b g y x z : Fr) (P : Polys) (e : Evals) (n : Fr) : Prop :=
  ∀ w : Fr[X], w.natDegree ≤ D → Most (D + 8) (FailMu V K inst t b g y x z n P e w)
/-- The same one challenge earlier. -/
def FailZeta (t b g y x : Fr) (P : Polys) (e : Evals) (z : Fr) : Prop := Most 4 (FailNu V K inst D t b g y x z P e)
/-- The same one challenge earlier. -/
def FailX (t b g y : Fr) (P : Polys) (x : Fr) : Prop := ∀ e, Most 39 (FailZeta V K inst D t b g y x P e)
/-- The same one challenge earlier. -/
def FailY (t b g : Fr) (P : Polys) (y : Fr) : Prop := ∀ quot : Fin 5 → Fr[X], (∀ i, (quot i).natDegree ≤ D) →
  Most (6 * D + V.n + 6) (FailX V K inst D t b g y { P with quotient := quot })
/-- The same one challenge earlier. -/
def FailGamma (a : Fin 5 → Fr[X]) (t : Fr) (li lt : Fin 5 → Fr[X]) (b g : Fr) : Prop :=
  ∀ z lz ra, (⟨a, li, lt, z, lz, ra, 0⟩ : Polys).Bound D → Most 42 (FailY V K inst D t b g ⟨a, li, lt, z, lz, ra, 0⟩)
/-- The same one challenge earlier. -/
def FailBeta (a : Fin 5 → Fr[X]) (t : Fr) (li lt : Fin 5 → Fr[X]) (b : Fr) : Prop :=
  Most (18 * V.usable) (FailGamma V K inst D a t li lt b)
/-- The same one challenge earlier. -/
def FailTheta (a : Fin 5 → Fr[X]) (t : Fr) : Prop :=
  ∀ li lt, Most (9 * V.usable) (FailBeta V K inst D a t li lt)

/-- The exceptions of each level. -/
noncomputable def exceptions : Exceptions where
  theta a := pick V.usable (FailTheta V K inst D a)
  beta a t li lt := pick (9 * V.usable) (FailBeta V K inst D a t li lt)
  gamma a t li lt b := pick (18 * V.usable) (FailGamma V K inst D a t li lt b)
  y a t li lt b g z lz ra := pick 42 (FailY V K inst D t b g ⟨a, li, lt, z, lz, ra, 0⟩)
  x t b g y P := pick (6 * D + V.n + 6) (FailX V K inst D t b g y P)
  zeta t b g y x P e := pick 39 (FailZeta V K inst D t b g y x P e)
  nu t b g y x z P e := pick 4 (FailNu V K inst D t b g y x z P e)
  mu t b g y x z n P e w := pick (D + 8) (FailMu V K inst t b g y x z n P e w)

theorem exceptions_small : (exceptions V K inst D).Small V D where
  theta _ := pick_card _ _
  beta _ _ _ _ := pick_card _ _
  gamma _ _ _ _ _ := pick_card _ _
  y _ _ _ _ _ _ _ _ _ := pick_card _ _
  x _ _ _ _ _ := pick_card _ _
  zeta _ _ _ _ _ _ _ := pick_card _ _
  nu _ _ _ _ _ _ _ _ := pick_card _ _
  mu _ _ _ _ _ _ _ _ _ _ := pick_card _ _

variable {V K inst D}

theorem fail_of_not_satisfied (hV : V.Valid) (hD : V.n ≤ D + 1) (hK : K.Bound D) (hi : inst.length ≤ V.n)
    {a : Fin 5 → Fr[X]} (h : ¬ Satisfied V K a inst) : Most V.usable (FailTheta V K inst D a) := by
  obtain ⟨Bt, h1, h2⟩ := rows_sound V hV K inst hi a h
  refine ⟨Bt, h1, fun t ht li lt => ?_⟩
  obtain ⟨Bb, h3, h4⟩ := h2 t ht li lt
  refine ⟨Bb, h3, fun b hb => ?_⟩
  obtain ⟨Bg, h5, h6⟩ := h4 b hb
  refine ⟨Bg, h5, fun g hg z lz ra hP => ?_⟩
  obtain ⟨i, _, c, hc, h0⟩ := h6 g hg z lz ra
  exact quotient_sound V hV K D hD hK inst hi t b g _ hP hc h0

/-- Outside the exceptions, a false statement fails. -/
theorem exceptions_spec (hV : V.Valid) (hD : V.n ≤ D + 1) (hK : K.Bound D) (hi : inst.length ≤ V.n)
    {P : Polys} (hP : P.Bound D) (h : ¬ Satisfied V K P.advice inst) {Ch : Challenges} {e : Evals} {w : Fr[X]}
    (hw : w.natDegree ≤ D) (hhit : ¬ (exceptions V K inst D).Hit Ch P e w) :
    Ch.Good V ∧ ∀ w' : Fr[X], openPoly V K Ch inst P e w w' ≠ 0 := by
  obtain ⟨t, b, g, y, x, z, n, m⟩ := Ch
  obtain ⟨a, li, lt, pz, lz, ra, qu⟩ := P
  unfold Exceptions.Hit at hhit
  simp only [not_or] at hhit
  obtain ⟨k1, k2, k3, k4, k5, k6, k7, k8⟩ := hhit
  have hP0 : (⟨a, li, lt, pz, lz, ra, 0⟩ : Polys).Bound D :=
    ⟨hP.advice, hP.lookupInput, hP.lookupTable, hP.permProduct, hP.lookupProduct, hP.random,
      fun i => by
        change (0 : Fr[X]).natDegree ≤ D
        rw [natDegree_zero]
        exact Nat.zero_le _⟩
  have f1 : FailTheta V K inst D a t := pick_spec (fail_of_not_satisfied hV hD hK hi h) k1
  have f2 : FailBeta V K inst D a t li lt b := pick_spec (f1 li lt) k2
  have f3 : FailGamma V K inst D a t li lt b g := pick_spec f2 k3
  have f4 : FailY V K inst D t b g ⟨a, li, lt, pz, lz, ra, 0⟩ y := pick_spec (f3 pz lz ra hP0) k4
  have f5 : FailX V K inst D t b g y ⟨a, li, lt, pz, lz, ra, qu⟩ x := pick_spec (f4 qu hP.quotient) k5
  have f6 := pick_spec (f5 e) k6
  have f7 := pick_spec f6 k7
  exact pick_spec (f7 w hw) k8

end levels

/-! ### Counting -/

/-- Number of tuples of which component `k` is in a small set depending on the components before it. -/
theorem count_prefix {N k : ℕ} (hk : k < N) (S : Finset (Fin N → Fr)) (b : ℕ) (B : (Fin N → Fr) → Finset Fr)
    (R : ℕ) (hR : R = r ^ (N - 1)) (hB : ∀ t, (B t).card ≤ b)
    (hS : ∀ t ∈ S, t ⟨k, hk⟩ ∈ B t)
    (hpre : ∀ t t', (∀ i : Fin N, (i : ℕ) < k → t i = t' i) → B t = B t') : S.card ≤ b * R := by
  classical
  have h1 : S.card ≤ ((Finset.univ : Finset ({i : Fin N // i ≠ ⟨k, hk⟩} → Fr)).sigma fun u =>
      B fun i => if h : i ≠ ⟨k, hk⟩ then u ⟨i, h⟩ else 0).card := by
    refine Finset.card_le_card_of_injOn (fun t => ⟨fun i => t i.1, t ⟨k, hk⟩⟩) ?_ ?_
    · intro t ht
      refine Finset.mem_coe.2 (Finset.mem_sigma.2 ⟨Finset.mem_univ _, ?_⟩)
      have h2 := hS t ht
      rw [hpre t (fun i => if h : i ≠ ⟨k, hk⟩ then t i else 0) (fun i hi => by
        rw [dif_pos]
        intro h
        rw [h] at hi
        exact lt_irrefl _ hi)] at h2
      exact h2
    · intro t _ t' _ h
      have h2 := Sigma.mk.inj h
      funext i
      by_cases hi : i = ⟨k, hk⟩
      · rw [hi]
        exact eq_of_heq h2.2
      · exact congrFun h2.1 ⟨i, hi⟩
  refine h1.trans ?_
  rw [Finset.card_sigma]
  refine (Finset.sum_le_card_nsmul _ _ b fun t _ => hB _).trans ?_
  rw [Finset.card_univ, Fintype.card_fun, smul_eq_mul, show Fintype.card Fr = r from ZMod.card r, mul_comm]
  have h3 : Fintype.card {i : Fin N // i ≠ ⟨k, hk⟩} = N - 1 := by
    rw [Fintype.card_subtype_compl, Fintype.card_fin, Fintype.card_subtype_eq]
  rw [h3, hR]

/-- Number of tuples with a property. -/
noncomputable def count {N : ℕ} (p : (Fin N → Fr) → Prop) : ℕ := {t | p t}.ncard

theorem count_le {N : ℕ} (p : (Fin N → Fr) → Prop) (k : ℕ) (hk : k < N) (b R : ℕ) (hR : R = r ^ (N - 1))
    (B : (Fin N → Fr) → Finset Fr) (h1 : ∀ t, p t → t ⟨k, hk⟩ ∈ B t) (h2 : ∀ t, (B t).card ≤ b)
    (h3 : ∀ t t', (∀ i : Fin N, (i : ℕ) < k → t i = t' i) → B t = B t') : count p ≤ b * R := by
  unfold count
  have hf : {t | p t}.Finite := Set.toFinite _
  rw [Set.ncard_eq_toFinset_card _ hf]
  refine count_prefix hk _ b B R hR h2 (fun t ht => h1 t ?_) h3
  exact (hf.mem_toFinset.1 ht)

theorem count_or {N : ℕ} (p q : (Fin N → Fr) → Prop) : count (fun t => p t ∨ q t) ≤ count p + count q :=
  Set.ncard_union_le _ _

/-- The challenges that hit an exception, for an interactive prover. -/
theorem hit_count (B : Exceptions) (V : Key) (D : ℕ) (hB : B.Small V D) (A : Prover) :
    {t : Fin 8 → Fr | B.Hit (.ofTuple t) (A.polys (.ofTuple t)) (A.claims (.ofTuple t))
      (A.opening (.ofTuple t))}.ncard ≤ (28 * V.usable + V.n + 7 * D + 99) * r ^ 7 := by
  obtain ⟨R, hR⟩ : ∃ R, R = r ^ 7 := ⟨_, rfl⟩
  rw [← hR]
  change count _ ≤ _
  let C (t : Fin 8 → Fr) : Challenges := .ofTuple t
  have c0 := count_le (fun t => (C t).theta ∈ B.theta A.advice) 0 (by decide) _ R hR
    (fun _ => B.theta A.advice) (fun t h => h) (fun t => hB.theta _) (fun _ _ _ => rfl)
  have c1 := count_le (fun t => (C t).beta ∈ B.beta A.advice (C t).theta (A.lookupInput (C t).theta) (A.lookupTable (C t).theta))
    1 (by decide) _ R hR (fun t => B.beta A.advice (t 0) (A.lookupInput (t 0)) (A.lookupTable (t 0)))
    (fun t h => h) (fun t => hB.beta _ _ _ _) (fun t t' h => by simp only [h 0 (by decide)])
  have c2 := count_le (fun t => (C t).gamma ∈ B.gamma A.advice (C t).theta (A.lookupInput (C t).theta)
      (A.lookupTable (C t).theta) (C t).beta)
    2 (by decide) _ R hR (fun t => B.gamma A.advice (t 0) (A.lookupInput (t 0)) (A.lookupTable (t 0)) (t 1))
    (fun t h => h) (fun t => hB.gamma _ _ _ _ _) (fun t t' h => by simp only [h 0 (by decide), h 1 (by decide)])
  have c3 := count_le (fun t => (C t).y ∈ B.y A.advice (C t).theta (A.lookupInput (C t).theta)
      (A.lookupTable (C t).theta) (C t).beta (C t).gamma (A.permProduct (C t).theta (C t).beta (C t).gamma)
      (A.lookupProduct (C t).theta (C t).beta (C t).gamma) (A.random (C t).theta (C t).beta (C t).gamma))
    3 (by decide) _ R hR (fun t => B.y A.advice (t 0) (A.lookupInput (t 0)) (A.lookupTable (t 0)) (t 1) (t 2)
      (A.permProduct (t 0) (t 1) (t 2)) (A.lookupProduct (t 0) (t 1) (t 2)) (A.random (t 0) (t 1) (t 2)))
    (fun t h => h) (fun t => hB.y _ _ _ _ _ _ _ _ _)
    (fun t t' h => by simp only [h 0 (by decide), h 1 (by decide), h 2 (by decide)])
  let P (a b g y : Fr) : Polys := ⟨A.advice, A.lookupInput a, A.lookupTable a, A.permProduct a b g,
    A.lookupProduct a b g, A.random a b g, A.quotient a b g y⟩
  have c4 := count_le (fun t => (C t).x ∈ B.x (C t).theta (C t).beta (C t).gamma (C t).y (A.polys (C t)))
    4 (by decide) _ R hR (fun t => B.x (t 0) (t 1) (t 2) (t 3) (P (t 0) (t 1) (t 2) (t 3)))
    (fun t h => h) (fun t => hB.x _ _ _ _ _)
    (fun t t' h => by simp only [h 0 (by decide), h 1 (by decide), h 2 (by decide), h 3 (by decide)])
  have c5 := count_le (fun t => (C t).zeta ∈ B.zeta (C t).theta (C t).beta (C t).gamma (C t).y (C t).x (A.polys (C t))
      (A.claims (C t)))
    5 (by decide) _ R hR (fun t => B.zeta (t 0) (t 1) (t 2) (t 3) (t 4) (P (t 0) (t 1) (t 2) (t 3))
      (A.evals (t 0) (t 1) (t 2) (t 3) (t 4)))
    (fun t h => h) (fun t => hB.zeta _ _ _ _ _ _ _)
    (fun t t' h => by
      simp only [h 0 (by decide), h 1 (by decide), h 2 (by decide), h 3 (by decide), h 4 (by decide)])
  have c6 := count_le (fun t => (C t).nu ∈ B.nu (C t).theta (C t).beta (C t).gamma (C t).y (C t).x (C t).zeta (A.polys (C t))
      (A.claims (C t)))
    6 (by decide) _ R hR (fun t => B.nu (t 0) (t 1) (t 2) (t 3) (t 4) (t 5) (P (t 0) (t 1) (t 2) (t 3))
      (A.evals (t 0) (t 1) (t 2) (t 3) (t 4)))
    (fun t h => h) (fun t => hB.nu _ _ _ _ _ _ _ _)
    (fun t t' h => by
      simp only [h 0 (by decide), h 1 (by decide), h 2 (by decide), h 3 (by decide), h 4 (by decide), h 5 (by decide)])
  have c7 := count_le (fun t => (C t).mu ∈ B.mu (C t).theta (C t).beta (C t).gamma (C t).y (C t).x (C t).zeta (C t).nu
      (A.polys (C t)) (A.claims (C t)) (A.opening (C t)))
    7 (by decide) _ R hR (fun t => B.mu (t 0) (t 1) (t 2) (t 3) (t 4) (t 5) (t 6) (P (t 0) (t 1) (t 2) (t 3))
      (A.evals (t 0) (t 1) (t 2) (t 3) (t 4)) (A.w (t 0) (t 1) (t 2) (t 3) (t 4) (t 5) (t 6)))
    (fun t h => h) (fun t => hB.mu _ _ _ _ _ _ _ _ _ _)
    (fun t t' h => by
      simp only [h 0 (by decide), h 1 (by decide), h 2 (by decide), h 3 (by decide), h 4 (by decide), h 5 (by decide),
        h 6 (by decide)])
  have s6 := (count_or _ _).trans (add_le_add c6 c7)
  have s5 := (count_or _ _).trans (add_le_add c5 s6)
  have s4 := (count_or _ _).trans (add_le_add c4 s5)
  have s3 := (count_or _ _).trans (add_le_add c3 s4)
  have s2 := (count_or _ _).trans (add_le_add c2 s3)
  have s1 := (count_or _ _).trans (add_le_add c1 s2)
  have s0 := (count_or _ _).trans (add_le_add c0 s1)
  refine le_trans s0 (le_of_eq ?_)
  ring

end Verif.Spec.Halo2
