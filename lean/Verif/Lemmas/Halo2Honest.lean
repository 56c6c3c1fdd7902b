import Verif.Lemmas.Halo2Sound

/-! An honest prover: quotient and opening. -/

namespace Verif.Spec.Halo2
open Polynomial

/-! ### Division -/

theorem dvd_of_rows {V : Key} (hV : V.Valid) {A : Fr[X]} (h : ∀ i < V.n, A.eval (V.omega ^ i) = 0) :
    ∃ Q : Fr[X], A = (X ^ V.n - 1) * Q ∧ Q.natDegree ≤ A.natDegree - V.n := by
  have hn : V.n ≠ 0 := pow_ne_zero _ two_ne_zero
  have hm : (X ^ V.n - 1 : Fr[X]).Monic := by
    have := monic_X_pow_sub_C (1 : Fr) hn
    rwa [C_1] at this
  have hd : (X ^ V.n - 1 : Fr[X]).natDegree = V.n := by
    have := natDegree_X_pow_sub_C (n := V.n) (r := (1 : Fr))
    rwa [C_1] at this
  have hA := modByMonic_add_div A (X ^ V.n - 1 : Fr[X])
  have hR : A %ₘ (X ^ V.n - 1) = 0 := by
    refine eq_zero_of_degree_lt_of_eval_index_eq_zero (Finset.range V.n) (pow_injOn hV.root) ?_ ?_
    · rw [Finset.card_range]
      refine (degree_modByMonic_lt A hm).trans_le ?_
      rw [degree_eq_natDegree hm.ne_zero, hd]
    · intro i hi
      have h1 := congrArg (eval (V.omega ^ i)) hA
      rw [eval_add, eval_mul, eval_sub, eval_pow, eval_X, eval_one, row_pow hV.root, sub_self, zero_mul, add_zero,
        h i (Finset.mem_range.1 hi)] at h1
      exact h1
  refine ⟨A /ₘ (X ^ V.n - 1), ?_, ?_⟩
  · rw [hR, zero_add] at hA
    exact hA.symm
  · rw [natDegree_divByMonic A hm, hd]

/-- Pieces of a polynomial. -/
theorem pieces (n : ℕ) (hn : 0 < n) (k : ℕ) : ∀ Q : Fr[X], Q.natDegree < k * n ∨ Q = 0 → ∃ p : ℕ → Fr[X],
    (∀ i, (p i).natDegree ≤ n - 1) ∧ Q = ∑ i ∈ Finset.range k, (X ^ n) ^ i * p i := by
  induction k with
  | zero =>
    intro Q h
    have : Q = 0 := h.resolve_left (by omega)
    exact ⟨fun _ => 0, fun _ => by rw [natDegree_zero]; exact Nat.zero_le _, by rw [this, Finset.sum_range_zero]⟩
  | succ k ih =>
    intro Q h
    have hm : (X ^ n : Fr[X]).Monic := monic_X_pow n
    have hlt : (Q /ₘ X ^ n).natDegree < k * n ∨ Q /ₘ X ^ n = 0 := by
      rcases h with h | h
      · by_cases hq : Q.natDegree < n
        · refine Or.inr ((divByMonic_eq_zero_iff hm).2 ?_)
          by_cases h0 : Q = 0
          · rw [h0, degree_zero]
            exact bot_lt_iff_ne_bot.2 (by rw [degree_X_pow]; exact WithBot.coe_ne_bot)
          · rw [degree_eq_natDegree h0, degree_X_pow]
            exact_mod_cast hq
        · left
          rw [natDegree_divByMonic Q hm, natDegree_X_pow]
          have : (k + 1) * n = k * n + n := Nat.succ_mul k n
          omega
      · right
        rw [h, zero_divByMonic]
    obtain ⟨p, hp, hQ⟩ := ih _ hlt
    refine ⟨fun i => if i = 0 then Q %ₘ X ^ n else p (i - 1), ?_, ?_⟩
    · intro i
      simp only
      split
      · have h1 : (X ^ n : Fr[X]) ≠ 1 := by
          intro h1
          have := congrArg natDegree h1
          rw [natDegree_X_pow, natDegree_one] at this
          omega
        have h2 := natDegree_modByMonic_lt Q hm h1
        rw [natDegree_X_pow] at h2
        omega
      · exact hp _
    · rw [Finset.sum_range_succ']
      simp only [Nat.add_sub_cancel, if_true, pow_zero, one_mul, Nat.succ_ne_zero, if_false]
      have h2 : ∑ i ∈ Finset.range k, (X ^ n : Fr[X]) ^ (i + 1) * p i = X ^ n * (Q /ₘ X ^ n) := by
        conv_rhs => rw [hQ, Finset.mul_sum]
        exact Finset.sum_congr rfl fun i _ => by rw [pow_succ]; ring
      rw [h2, add_comm]
      exact (modByMonic_add_div Q (X ^ n : Fr[X])).symm

/-! ### The quotient -/

/-- If all constraints hold in all rows, there is a quotient. -/
theorem quotient_exists {V : Key} (hV : V.Valid) {K : KeyPolys} (hK : K.Bound (V.n - 1)) {inst : List Fr}
    (hi : inst.length ≤ V.n) {P : Polys} (hP : P.Bound (V.n - 1)) {theta beta gamma : Fr}
    (hz : ∀ i < V.n, ∀ c ∈ rowConstraints V K inst P theta beta gamma (V.omega ^ i), c = 0) (y : Fr) :
    ∃ quot : Fin 5 → Fr[X], (∀ i, (quot i).natDegree ≤ V.n - 1) ∧ ∀ x,
      combine y (rowConstraints V K inst P theta beta gamma x) =
        (x ^ V.n - 1) * ∑ i : Fin 5, (x ^ V.n) ^ (i : ℕ) * (quot i).eval x := by
  have h8 := eight_le V hV
  obtain ⟨A, hA, hAe⟩ := combine_poly (poly_constraints hV (by omega) hi hK hP ⟨theta, beta, gamma, 0, 0, 0, 0, 0⟩) y
  have hAe : ∀ x, A.eval x = combine y (rowConstraints V K inst P theta beta gamma x) := hAe
  have hrow : ∀ i < V.n, A.eval (V.omega ^ i) = 0 := by
    intro i hi
    rw [hAe, combine_sum]
    refine Finset.sum_eq_zero fun j hj => ?_
    rw [List.getD_eq_getElem _ _ (by rw [List.length_reverse]; exact Finset.mem_range.1 hj),
      hz i hi _ (List.mem_reverse.1 (List.getElem_mem _)), mul_zero]
  obtain ⟨Q, hQ, hQd⟩ := dvd_of_rows hV hrow
  obtain ⟨p, hp, hQp⟩ := pieces V.n (by omega) 5 Q (Or.inl (by omega))
  refine ⟨fun i => p i, fun i => hp i, fun x => ?_⟩
  have h1 := hAe x
  rw [hQ, hQp, eval_mul, eval_sub, eval_pow, eval_X, eval_one, eval_finsetSum] at h1
  rw [← h1, Finset.sum_range (fun i => eval x ((X ^ V.n) ^ i * p i))]
  refine congrArg _ (Finset.sum_congr rfl fun i _ => ?_)
  rw [eval_mul, eval_pow, eval_pow, eval_X]

/-! ### The opening -/

theorem evals_opened {V : Key} (hV : V.Valid) {K : KeyPolys} {Ch : Challenges} {inst : List Fr}
    (hi : inst.length ≤ V.n) {P : Polys} (hx : Ch.x ^ V.n ≠ 1)
    (hq : combine Ch.y (rowConstraints V K inst P Ch.theta Ch.beta Ch.gamma Ch.x) =
      (Ch.x ^ V.n - 1) * ∑ i : Fin 5, (Ch.x ^ V.n) ^ (i : ℕ) * (P.quotient i).eval Ch.x) :
    ∀ S ∈ polySets V K Ch inst P (evalsAt V K P Ch.x), S.Opened := by
  have hx' : Ch.x ^ V.n - 1 ≠ 0 := sub_ne_zero.2 hx
  have one : ∀ (p : Fr[X]) (a v : Fr), p.eval a = v → ∀ i : Fin 1, p.eval ((![a] : Fin 1 → Fr) i) = (![v] : Fin 1 → Fr) i := by
    intro p a v h i
    fin_cases i
    exact h
  have two : ∀ (p : Fr[X]) (a b v w : Fr), p.eval a = v → p.eval b = w → ∀ i : Fin 2, p.eval ((![a, b] : Fin 2 → Fr) i) =
      (![v, w] : Fin 2 → Fr) i := by
    intro p a b v w h h' i
    fin_cases i
    exacts [h, h']
  have three : ∀ (p : Fr[X]) (a b c v w t : Fr), p.eval a = v → p.eval b = w → p.eval c = t → ∀ i : Fin 3,
      p.eval ((![a, b, c] : Fin 3 → Fr) i) = (![v, w, t] : Fin 3 → Fr) i := by
    intro p a b c v w t h h' h'' i
    fin_cases i
    exacts [h, h', h'']
  rw [polySets_forall]
  refine ⟨?_, ?_, ?_, ?_, ?_⟩
  · refine List.forall_mem_cons.2 ⟨three _ _ _ _ _ _ _ rfl rfl rfl, List.forall_mem_cons.2 ⟨three _ _ _ _ _ _ _ rfl rfl rfl,
      List.forall_mem_cons.2 ⟨three _ _ _ _ _ _ _ rfl rfl rfl, fun _ h => (by cases h)⟩⟩⟩
  · refine List.forall_mem_cons.2 ⟨one _ _ _ rfl, ?_⟩
    iterate 37 refine List.forall_mem_cons.2 ⟨one _ _ _ rfl, ?_⟩
    refine List.forall_mem_cons.2 ⟨one _ _ _ ?_, ?_⟩
    · unfold quotientEval
      rw [← rowAt_eq V hV K inst hi P hx, eval_finsetSum, eq_div_iff hx', mul_comm]
      simp only [eval_smul, smul_eq_mul]
      exact hq.symm
    · exact List.forall_mem_cons.2 ⟨one _ _ _ rfl, fun _ h => (by cases h)⟩
  · iterate 7 refine List.forall_mem_cons.2 ⟨two _ _ _ _ _ rfl rfl, ?_⟩
    exact fun _ h => (by cases h)
  · iterate 2 refine List.forall_mem_cons.2 ⟨three _ _ _ _ _ _ _ rfl rfl rfl, ?_⟩
    exact fun _ h => (by cases h)
  · iterate 5 refine List.forall_mem_cons.2 ⟨two _ _ _ _ _ rfl rfl, ?_⟩
    exact fun _ h => (by cases h)

/-- The polynomial with the points of a set as roots. -/
noncomputable def PolySet.nodal (S : PolySet) : Fr[X] := Lagrange.nodal Finset.univ S.points

theorem nodal_eval (S : PolySet) (t : Fr) : S.nodal.eval t = S.vanish t := Lagrange.eval_nodal ..

theorem diff_dvd (S : PolySet) (hinj : Function.Injective S.points) (hO : S.Opened) (zeta : Fr) :
    S.nodal * (S.diff zeta /ₘ S.nodal) = S.diff zeta := by
  have hm : S.nodal.Monic := Lagrange.nodal_monic
  have hA := modByMonic_add_div (S.diff zeta) S.nodal
  have hR : S.diff zeta %ₘ S.nodal = 0 := by
    refine eq_zero_of_degree_lt_of_eval_index_eq_zero Finset.univ hinj.injOn ?_ ?_
    · refine (degree_modByMonic_lt _ hm).trans_le ?_
      rw [PolySet.nodal, Lagrange.degree_nodal]
    · intro i _
      have h1 := congrArg (eval (S.points i)) hA
      rw [eval_add, eval_mul, nodal_eval, show S.vanish (S.points i) = 0 from
        Finset.prod_eq_zero (Finset.mem_univ i) (sub_self _), zero_mul, add_zero, diff_eval S hinj] at h1
      rw [h1]
      refine Finset.sum_eq_zero fun j hj => ?_
      have hj := Finset.mem_range.1 hj
      rw [List.getD_eq_getElem _ _ hj, hO _ (List.getElem_mem hj) i, sub_self, mul_zero]
  rw [hR, zero_add] at hA
  exact hA

/-- The first polynomial of the opening. -/
noncomputable def openW (sets : List PolySet) (zeta nu : Fr) : Fr[X] :=
  ∑ i ∈ Finset.range sets.length,
    nu ^ i • ((sets.getD i ⟨0, 0, []⟩).diff zeta /ₘ (sets.getD i ⟨0, 0, []⟩).nodal)

theorem openW_eval (sets : List PolySet) (hinj : ∀ S ∈ sets, Function.Injective S.points)
    (hO : ∀ S ∈ sets, S.Opened) (zeta nu mu : Fr) (hv : ∀ S ∈ sets, S.vanish mu ≠ 0) :
    (totalPoly sets zeta nu mu).eval mu = (openW sets zeta nu).eval mu := by
  rw [total_eval, openW, eval_finsetSum]
  refine Finset.sum_congr rfl fun i hi => ?_
  have hi := Finset.mem_range.1 hi
  have hmem : sets.getD i ⟨0, 0, []⟩ ∈ sets := by
    rw [List.getD_eq_getElem _ _ hi]
    exact List.getElem_mem hi
  generalize sets.getD i ⟨0, 0, []⟩ = S at hmem
  have h1 := congrArg (eval mu) (diff_dvd S (hinj S hmem) (hO S hmem) zeta)
  rw [eval_mul, nodal_eval] at h1
  rw [eval_smul, smul_eq_mul, ← h1]
  have := hv S hmem
  field_simp

theorem openW_natDegree (sets : List PolySet) (hinj : ∀ S ∈ sets, Function.Injective S.points) {D : ℕ}
    (hD : ∀ S ∈ sets, ∀ q ∈ S.queries, q.1.natDegree ≤ D) (hs : ∀ S ∈ sets, S.size ≤ D + 1) (zeta nu : Fr) :
    (openW sets zeta nu).natDegree ≤ D := by
  refine natDegree_sum_le_of_forall_le _ _ fun i hi => (natDegree_smul_le _ _).trans ?_
  have hi := Finset.mem_range.1 hi
  have hmem : sets.getD i ⟨0, 0, []⟩ ∈ sets := by
    rw [List.getD_eq_getElem _ _ hi]
    exact List.getElem_mem hi
  generalize sets.getD i ⟨0, 0, []⟩ = S at hmem
  have hm : S.nodal.Monic := Lagrange.nodal_monic
  rw [natDegree_divByMonic _ hm]
  exact (Nat.sub_le _ _).trans (diff_natDegree S (hinj S hmem) zeta (hD S hmem) (hs S hmem))

theorem total_natDegree (sets : List PolySet) {D : ℕ}
    (hD : ∀ S ∈ sets, ∀ q ∈ S.queries, q.1.natDegree ≤ D) (zeta nu mu : Fr) :
    (totalPoly sets zeta nu mu).natDegree ≤ D := by
  unfold totalPoly
  rw [sum_range_list]
  refine natDegree_sum_le_of_forall_le _ _ fun i hi => (natDegree_smul_le _ _).trans ?_
  have hi := Finset.mem_range.1 hi
  have hmem : sets.getD i ⟨0, 0, []⟩ ∈ sets := by
    rw [List.getD_eq_getElem _ _ hi]
    exact List.getElem_mem hi
  generalize sets.getD i ⟨0, 0, []⟩ = S at hmem
  unfold PolySet.claim
  rw [sum_range_list]
  refine natDegree_sum_le_of_forall_le _ _ fun j hj => (natDegree_smul_le _ _).trans ?_
  have hj := Finset.mem_range.1 hj
  refine (natDegree_sub_le _ _).trans (max_le ?_ ?_)
  · rw [List.getD_eq_getElem _ _ hj]
    exact hD S hmem _ (List.getElem_mem hj)
  · rw [natDegree_C]
    exact Nat.zero_le _

/-- The points of the opening depend on the challenges before it only. -/
theorem polySets_tail (V : Key) (K : KeyPolys) (theta beta gamma y x zeta nu mu : Fr) (inst : List Fr) (P : Polys)
    (e : Evals) : polySets V K ⟨theta, beta, gamma, y, x, zeta, nu, mu⟩ inst P e =
      polySets V K ⟨theta, beta, gamma, y, x, 0, 0, 0⟩ inst P e := by
  unfold polySets
  rfl

theorem openPoly_of_sets (V : Key) (K : KeyPolys) (Ch : Challenges) (inst : List Fr) (P : Polys) (e : Evals)
    (w g : Fr[X]) {sets : List PolySet} (h : polySets V K Ch inst P e = sets) : openPoly V K Ch inst P e w g =
      ((sets.getD 0 ⟨0, 0, []⟩).vanish Ch.mu) • (totalPoly sets Ch.zeta Ch.nu Ch.mu - w) + (C Ch.mu - X) * g := by
  subst h
  rfl

/-- The opening polynomials of true values. -/
theorem opening_exists {V : Key} (hV : V.Valid) {K : KeyPolys} {D : ℕ} (hD : V.n ≤ D + 1) (hK : K.Bound D)
    {inst : List Fr} {P : Polys} (hP : P.Bound D) (theta beta gamma y x : Fr) (hx : x ≠ 0) {e : Evals}
    (hO : ∀ S ∈ polySets V K ⟨theta, beta, gamma, y, x, 0, 0, 0⟩ inst P e, S.Opened) (zeta nu : Fr) :
    ∃ w : Fr[X], w.natDegree ≤ D ∧ ∀ mu, mu ∉ allPoints V x → ∃ w' : Fr[X], w'.natDegree ≤ D ∧
      openPoly V K ⟨theta, beta, gamma, y, x, zeta, nu, mu⟩ inst P e w w' = 0 := by
  have h8 := eight_le V hV
  obtain ⟨C0, hC0⟩ : ∃ C0 : Challenges, C0 = ⟨theta, beta, gamma, y, x, 0, 0, 0⟩ := ⟨_, rfl⟩
  have hC0x : C0.x = x := by rw [hC0]
  rw [← hC0] at hO
  have htail : ∀ mu, polySets V K ⟨theta, beta, gamma, y, x, zeta, nu, mu⟩ inst P e = polySets V K C0 inst P e :=
    fun mu => by rw [hC0]; exact polySets_tail V K theta beta gamma y x zeta nu mu inst P e
  have hinj := polySets_inj V K C0 inst P e hV (hC0x ▸ hx)
  have hdeg := polySets_degree V K C0 inst P e hK hP
  have hsz0 : ∀ S ∈ polySets V K C0 inst P e, S.size ≤ 3 := fun S hS => (polySets_size V K C0 inst P e S hS).1
  have hvan : ∀ mu, mu ∉ allPoints V x → ∀ S ∈ polySets V K C0 inst P e, S.vanish mu ≠ 0 :=
    fun mu hmu => polySets_vanish V K C0 inst P e (hC0x ▸ hmu)
  generalize polySets V K C0 inst P e = sets at *
  have hsz : ∀ S ∈ sets, S.size ≤ D + 1 := fun S hS => (hsz0 S hS).trans (by omega)
  refine ⟨openW sets zeta nu, openW_natDegree sets hinj hdeg hsz zeta nu, fun mu hmu => ?_⟩
  have hv := hvan mu hmu
  have he := openW_eval sets hinj hO zeta nu mu hv
  let f : Fr[X] := ((sets.getD 0 ⟨0, 0, []⟩).vanish mu) • (totalPoly sets zeta nu mu - openW sets zeta nu)
  have hf : f.IsRoot mu := by
    simp only [f, IsRoot.def, eval_smul, eval_sub, he, sub_self, smul_zero]
  refine ⟨f /ₘ (X - C mu), ?_, ?_⟩
  · rw [natDegree_divByMonic _ (monic_X_sub_C mu)]
    refine (Nat.sub_le _ _).trans ((natDegree_smul_le _ _).trans ((natDegree_sub_le _ _).trans (max_le ?_ ?_)))
    · exact total_natDegree sets hdeg zeta nu mu
    · exact openW_natDegree sets hinj hdeg hsz zeta nu
  · have h1 := mul_divByMonic_eq_iff_isRoot.2 hf
    have h2 : ∀ w g, openPoly V K ⟨theta, beta, gamma, y, x, zeta, nu, mu⟩ inst P e w g =
        ((sets.getD 0 ⟨0, 0, []⟩).vanish mu) • (totalPoly sets zeta nu mu - w) + (C mu - X) * g := fun w g =>
      openPoly_of_sets V K _ inst P e w g (htail mu)
    rw [h2]
    change f + (C mu - X) * _ = 0
    linear_combination -h1

end Verif.Spec.Halo2
