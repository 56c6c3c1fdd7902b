import Verif.Lemmas.HonestExpose

/-! The honest prover in the whole circuit. -/

namespace Verif.Layout
open Verif Spec FixedPoint

variable {X : Setting} {s : Known} {α β : Type}

theorem valid3 : validWindow DkgCircuit.windowSize := ⟨by decide, by decide⟩

section
variable {J : IntegerImpl} {Is : Known → J.I → Fq → Prop} (hJ : J.Complete X Is)
include hJ

theorem runsR_exposeG1 {tab : List (List (P1 J))} {aux : G1} (ht : TabIs (IsP1 Is) s tab DkgCircuit.windowSize g1 aux)
    {b : Option Cell} (hb : ∀ c, b = some c → Has s c ((2 ^ bitLenLimb : ℕ) : Fr)) {a : Cell} {v : Fr} (ha : Has s a v)
    (hfit : AuxFits DkgCircuit.windowSize v.val g1 aux) {o : ℕ} (ho : InstAt X o (enc1 (v • g1))) :
    RunsR X (exposeG1 tab b a o) s fun e s' => Has s' e.1 ((2 ^ bitLenLimb : ℕ) : Fr) ∧ e.2 = o + 4 := by
  have hv : v.val • g1 = v • g1 := val_smul_G1 v g1
  refine runsR_bind (R := fun (p : P1 J) s' => List.Forall₂ (Has s') (J.limbs p.1) (limbVals (coords (v • g1)).1) ∧
    List.Forall₂ (Has s') (J.limbs p.2) (limbVals (coords (v • g1)).2)) (runsR_region ?_) ?_
  · refine runs_bind (runs_mulFixed (lops1_complete hJ) valid3 addOrderOf_g1 ht ha hfit) fun p s1 b1 h1 => ?_
    rw [hv] at h1
    refine runs_bind (hJ.reduce _ _ _ h1.2.1) fun x s2 b2 h2 => ?_
    refine runs_bind (hJ.reduce _ _ _ (hJ.mono _ _ _ _ b2 h1.2.2)) fun y s3 b3 h3 => ?_
    exact runs_pure ⟨forall₂_has_mono h2.2 b3, h3.2⟩
  · rintro p s1 b1 ⟨h1, h2⟩
    refine runsR_mono (runsR_exposeOptimal (xs := [(coords (v • g1)).1, (coords (v • g1)).2]) (fun c hc => (hb c hc).mono b1)
      (.cons h1 (.cons h2 .nil)) (o := o) ?_) fun e s' _ h => h
    exact ho

theorem runsR_exposeG2 {tab : List (List (P2 J))} {aux : G2} (ht : TabIs (IsP2 Is) s tab DkgCircuit.windowSize g2 aux)
    {b : Option Cell} (hb : ∀ c, b = some c → Has s c ((2 ^ bitLenLimb : ℕ) : Fr)) {a : Cell} {v : Fr} (ha : Has s a v)
    (hfit : AuxFits DkgCircuit.windowSize v.val g2 aux) {o : ℕ} (ho : InstAt X o (enc2 (smul2 v g2))) :
    RunsR X (exposeG2 tab b a o) s fun e s' => Has s' e.1 ((2 ^ bitLenLimb : ℕ) : Fr) ∧ e.2 = o + 8 := by
  have hv : v.val • g2 = smul2 v g2 := rfl
  generalize smul2 v g2 = Q at *
  refine runsR_bind (R := fun (p : P2 J) s' => List.Forall₂ (Has s') (J.limbs p.1.1) (limbVals (coords Q).1.re) ∧
    List.Forall₂ (Has s') (J.limbs p.1.2) (limbVals (coords Q).1.im) ∧
    List.Forall₂ (Has s') (J.limbs p.2.1) (limbVals (coords Q).2.re) ∧
    List.Forall₂ (Has s') (J.limbs p.2.2) (limbVals (coords Q).2.im)) (runsR_region ?_) ?_
  · refine runs_bind (runs_mulFixed (lops2_complete hJ) valid3 addOrderOf_g2 ht ha hfit) fun p s1 b1 h1 => ?_
    rw [hv] at h1
    refine runs_bind (R := fun (x : I2 J) s' => List.Forall₂ (Has s') (J.limbs x.1) (limbVals (coords Q).1.re) ∧
      List.Forall₂ (Has s') (J.limbs x.2) (limbVals (coords Q).1.im)) ?_ ?_
    · refine runs_bind (hJ.reduce _ _ _ h1.2.1.1) fun x s2 b2 h2 => ?_
      refine runs_bind (hJ.reduce _ _ _ (hJ.mono _ _ _ _ b2 h1.2.1.2)) fun y s3 b3 h3 => ?_
      exact runs_pure ⟨forall₂_has_mono h2.2 b3, h3.2⟩
    rintro x s4 b4 ⟨h4, h5⟩
    have h6 := h1.mono hJ b4
    refine runs_bind (R := fun (y : I2 J) s' => s4.Before s' ∧ List.Forall₂ (Has s') (J.limbs y.1) (limbVals (coords Q).2.re) ∧
      List.Forall₂ (Has s') (J.limbs y.2) (limbVals (coords Q).2.im)) ?_ ?_
    · refine runs_bind (hJ.reduce _ _ _ h6.2.2.1) fun x s2 b2 h2 => ?_
      refine runs_bind (hJ.reduce _ _ _ (hJ.mono _ _ _ _ b2 h6.2.2.2)) fun y s3 b3 h3 => ?_
      exact runs_pure ⟨b2.trans b3, forall₂_has_mono h2.2 b3, h3.2⟩
    rintro y s5 - ⟨b5, h7, h8⟩
    exact runs_pure ⟨forall₂_has_mono h4 b5, forall₂_has_mono h5 b5, h7, h8⟩
  · rintro p s1 b1 ⟨h1, h2, h3, h4⟩
    refine runsR_mono (runsR_exposeOptimal (xs := [(coords Q).1.re, (coords Q).1.im, (coords Q).2.re, (coords Q).2.im])
      (fun c hc => (hb c hc).mono b1) (.cons h1 (.cons h2 (.cons h3 (.cons h4 .nil)))) (o := o) ?_) fun e s' _ h => h
    exact ho

theorem runsR_tablesRegion {auxG1 : G1} {auxG2 : G2} (h1 : TableFits 3 g1 auxG1) (hr : r • auxG2 = 0) (h2 : TableFits 3 g2 auxG2) :
    RunsR X (tablesRegion (J := J) auxG1 auxG2) s fun tabs s' =>
      TabIs (IsP1 Is) s' tabs.1 DkgCircuit.windowSize g1 auxG1 ∧ TabIs (IsP2 Is) s' tabs.2 DkgCircuit.windowSize g2 auxG2 := by
  refine runsR_region ?_
  refine runs_bind (runs_assignTable (lops1_complete hJ) valid3 ((tableFits_iff valid3 addOrderOf_g1).2 h1)) fun t1 s1 b1 ht1 => ?_
  refine runs_bind ((lops1_complete hJ).assignConstant _ g1 g1_ne_zero) fun _ s2 b2 _ => ?_
  refine runs_bind (runs_assignTable (lops2_complete hJ) valid3 ((tableFits2_iff valid3 g2_ne_zero r_nsmul_g2).2 ⟨hr, h2⟩))
    fun t2 s3 b3 ht2 => ?_
  exact runs_pure ⟨ht1.mono (lops1_complete hJ) (b2.trans b3), ht2⟩

end

theorem runsR_foldS_range {f : β → ℕ → Synth β} {I : ℕ → β → Known → Prop} : ∀ (n i : ℕ) (b : β) (s : Known),
    (∀ j b s', i ≤ j → j < i + n → s.Before s' → I j b s' → RunsR X (f b j) s' (I (j + 1))) → I i b s →
    RunsR X (foldS f (List.range' i n) b) s (I (i + n))
  | 0, i, b, s, _, h => runsR_pure h
  | n + 1, i, b, s, hf, h => by
    rw [List.range'_succ]
    refine runsR_bind (hf i b s le_rfl (by omega) (.refl s) h) fun b' s1 b1 h1 => ?_
    rw [show i + (n + 1) = i + 1 + n by omega]
    exact runsR_foldS_range n (i + 1) b' s1 (fun j b s' h2 h3 h4 => hf j b s' (by omega) (by omega) (b1.trans h4)) h1

theorem runsR_sharesRegion {t n : ℕ} (ht : 0 < t) {cs : List Fr} (hcs : cs = (List.range t).map X.inp.coeffs) :
    RunsR X (sharesRegion ⟨t, n⟩) s fun sh s' => Has s' sh.2 (poly cs 0) ∧
      List.Forall₂ (Has s') sh.1 (poly cs 1 :: (List.range' 2 (n - 1)).map fun i : ℕ => poly cs (i : Fr)) := by
  have hl : cs.length = t := by rw [hcs, List.length_map, List.length_range]
  refine runsR_region ?_
  refine runs_bind (R := fun l s' => List.Forall₂ (Has s') l cs) ?_ ?_
  · refine runs_mono (runs_mapS (R := fun i c s' => Has s' c (X.inp.coeffs i)) (fun _ _ _ _ hs h => h.mono hs) _ _
      fun i _ s' _ => runs_assignValue) fun l s' _ h => ?_
    rw [hcs, List.forall₂_map_right_iff]
    exact h.flip
  intro cells s1 b1 h1
  clear hcs
  refine runs_bind (runs_nth_of h1 (getElem?_getD (i := 0) (by omega))) ?_
  rintro a s1' - ⟨rfl, ha⟩
  refine runs_bind (runs_addLoop (List.range' 1 (t - 1)) a _ s1' h1 ha ?_) fun s0 s2 b2 h2 => ?_
  · intro j hj
    rw [List.mem_range'_1] at hj
    omega
  have e1 : cs.getD 0 0 + ((List.range' 1 (t - 1)).map fun j => cs.getD j 0).sum = poly cs 1 := by
    rw [take_getD cs (t - 1) 1 (by omega), poly_one, List.take_of_length_le (by rw [List.length_drop]; omega)]
    cases cs with
    | nil => simp at hl; omega
    | cons c cs => simp
  rw [e1] at h2
  have h1 := forall₂_has_mono h1 b2
  refine runs_bind (runs_mapS (R := fun (i : ℕ) c s' => Has s' c (poly cs (i : Fr))) (fun _ _ _ _ hs h => h.mono hs) _ _
    fun i _ s3 b3 => ?_) fun rest s3 b3 h3 => ?_
  · refine runs_bind (runs_assignConstant _) fun x s4 b4 hx => ?_
    have h1 := forall₂_has_mono h1 (b3.trans b4)
    refine runs_bind (runs_nth_of h1 (getElem?_getD (i := t - 1) (by omega))) ?_
    rintro top s5 - ⟨rfl, htop⟩
    refine runs_mono (runs_horner (fun j => j) (List.range (t - 1)).reverse top _ s5 h1 hx htop ?_) fun c s6 _ h => ?_
    · intro j hj
      rw [List.mem_reverse, List.mem_range] at hj
      omega
    · have e := take_getD cs (t - 1) 0 (by omega)
      rw [List.drop_zero, ← List.range_eq_range'] at e
      rw [List.map_reverse, e, DkgCircuit.foldl_reverse_horner] at h
      have hsplit : cs.take (t - 1) ++ [cs.getD (t - 1) 0] = cs := by
        rw [getD_lt _ _ (by omega), List.take_append_getElem, List.take_of_length_le (by omega)]
      rw [hsplit] at h
      exact h
  · refine runs_pure ⟨?_, .cons (h2.mono b3) ?_⟩
    · rw [← DkgCircuit.poly_zero_getD (by omega)]
      exact ha.mono (b2.trans b3)
    · rw [List.forall₂_map_right_iff]
      exact h3.flip

theorem runsR_auxRegion {A : Gk} (hA : A ≠ 0) (he : X.inp.aux = coords A) :
    RunsR X auxRegion s fun a s' => HasPt s' a.1 A ∧ HasPt s' a.2 (-A) :=
  runsR_region (runs_bind (runs_assignPoint hA he) fun _ _ _ h1 => runs_bind (runs_negGk h1) fun _ _ b2 h2 =>
    runs_pure ⟨h1.mono b2, h2⟩)

/-- The auxiliary point lets the multiplication of `P` by these bits succeed. -/
def GoodAux (bs : List Bool) (A P : Gk) : Prop :=
  GrumpkinChip.good bs A P ∧ A + binary bs • P ≠ -A ∧ binary bs • P ≠ 0

theorem runsR_grRegion {aux auxNeg : PtCell} {A : Gk} (ha : HasPt s aux A) (hn : HasPt s auxNeg (-A))
    (hg : GoodAux (canonBits X.inp.random) A gk) :
    RunsR X (grRegion aux auxNeg) s fun o s' => BitsAre s' o.1 (canonBits X.inp.random) ∧ HasPt s' o.2 (X.inp.random.val • gk) := by
  refine runsR_region ?_
  refine runs_bind (runs_assignConstantGk gk_ne_zero) fun g s1 b1 h1 => ?_
  refine runs_bind (runs_bitsOf (f := fun inp _ => inp.random) (fun _ _ => rfl) 254) fun bits s2 b2 h2 => ?_
  have h2 : BitsAre s2 bits (canonBits X.inp.random) := h2
  refine runs_bind (runs_mulBits h2 (ha.mono (b1.trans b2)) (hn.mono (b1.trans b2)) (h1.mono b2) hg.1 hg.2.1 hg.2.2) fun p s3 b3 h3 => ?_
  rw [canonBits_binary] at h3
  exact runs_pure ⟨h2.mono b3, h3⟩

theorem runsR_exposePoint {p : PtCell} {P : Gk} (hp : HasPt s p P) {o : ℕ} (ho : InstAt X o (encGk P)) :
    RunsR X (exposePoint p o) s fun o' s' => s' = s ∧ o' = o + 2 := by
  unfold encGk at ho
  rw [instAt_cons, instAt_cons] at ho
  refine runsR_bind (R := fun _ s' => s' = s) (runsR_exposePublic ⟨hp.2.1.1, hp.2.1.2.trans ho.1.symm⟩ rfl) ?_
  rintro _ s1 - rfl
  refine runsR_bind (R := fun _ s' => s' = s1) (runsR_exposePublic ⟨hp.2.2.1, hp.2.2.2.trans ho.2.1.symm⟩ rfl) ?_
  rintro _ s2 - rfl
  exact runsR_pure ⟨rfl, rfl⟩

theorem runsR_exposePoints : ∀ (cells : List PtCell) (pks : List Gk) (o : ℕ) (s : Known), List.Forall₂ (HasPt s) cells pks →
    InstAt X o (pks.flatMap encGk) →
    RunsR X (foldS (fun o pk => exposePoint pk o) cells o) s fun o' s' => s' = s ∧ o' = o + 2 * pks.length
  | [], pks, o, s, h, _ => by
    cases h
    exact runsR_pure ⟨rfl, rfl⟩
  | c :: cells, pks, o, s, h, ho => by
    obtain ⟨P, pks, h0, h', rfl⟩ := List.forall₂_cons_left_iff.1 h
    rw [List.flatMap_cons, instAt_append] at ho
    refine runsR_bind (runsR_exposePoint h0 ho.1) ?_
    rintro o' s' - ⟨rfl, rfl⟩
    refine runsR_mono (runsR_exposePoints cells pks (o + 2) s' h' ho.2) ?_
    rintro o' s'' - ⟨rfl, rfl⟩
    exact ⟨rfl, by rw [List.length_cons]; omega⟩

theorem runsR_memberRegion {aux auxNeg : PtCell} {A P : Gk} (ha : HasPt s aux A) (hn : HasPt s auxNeg (-A)) (hP : P ≠ 0)
    {bits shares : List Cell} {v : Fr} (hb : BitsAre s bits (canonBits v)) (hg : GoodAux (canonBits v) A P) {i o : ℕ}
    (hi : X.inp.publicKeys i = coords P) {vs : List Fr} (hs : List.Forall₂ (Has s) shares vs) {sv : Fr} (hv : vs[i]? = some sv)
    (ho : X.inst o = sv + Poseidon.hash2 (coords (v.val • P)).1 (coords (v.val • P)).2) :
    RunsR X (memberRegion aux auxNeg bits shares i o) s fun m s' => HasPt s' m.1 P ∧ m.2 = o + 1 := by
  refine runsR_bind (R := fun (p : PtCell × PtCell) s' => HasPt s' p.1 (v.val • P) ∧ HasPt s' p.2 P) (runsR_region ?_) ?_
  · refine runs_bind (runs_assignPoint hP hi) fun pk s1 b1 h1 => ?_
    refine runs_bind (runs_mulBits (hb.mono b1) (ha.mono b1) (hn.mono b1) h1 hg.1 hg.2.1 hg.2.2) fun p s2 b2 h2 => ?_
    rw [canonBits_binary] at h2
    exact runs_pure ⟨h2, h1.mono b2⟩
  rintro p s1 b1 ⟨h1, h2⟩
  refine runsR_bind (runsR_poseidonHash h1.2.1 h1.2.2) fun key s2 b2 h3 => ?_
  generalize Poseidon.hash2 (coords (v.val • P)).1 (coords (v.val • P)).2 = k at *
  refine runsR_bind (R := fun c s' => Has s' c (sv + k)) (runsR_region ?_) fun c s3 b3 h4 => ?_
  · refine runs_bind (runs_nth_of (forall₂_has_mono hs (b1.trans b2)) hv) ?_
    rintro a s3 - ⟨rfl, h4⟩
    exact runs_add h4 h3
  · refine runsR_bind (R := fun _ s' => s' = s3) (runsR_exposePublic ⟨h4.1, h4.2.trans ho.symm⟩ rfl) ?_
    rintro _ s4 - rfl
    exact runsR_pure ⟨h2.mono (b2.trans b3), rfl⟩

theorem runsR_sharesLoop {J : IntegerImpl} {Is : Known → J.I → Fq → Prop} (hJ : J.Complete X Is) {tab : List (List (P1 J))} {aux : G1}
    (ht : TabIs (IsP1 Is) s tab DkgCircuit.windowSize g1 aux) {base : Cell} (hb : Has s base ((2 ^ bitLenLimb : ℕ) : Fr))
    {shares : List Cell} {vs : List Fr} (hs : List.Forall₂ (Has s) shares vs) {n o : ℕ} (hn : n = vs.length)
    (hfit : ∀ v ∈ vs, AuxFits DkgCircuit.windowSize v.val g1 aux) (ho : InstAt X o (vs.flatMap fun v => enc1 (v • g1))) :
    RunsR X (sharesLoop tab base shares n o) s fun o' _ => o' = o + 4 * n := by
  unfold sharesLoop
  rw [List.range_eq_range']
  have := runsR_foldS_range (X := X) (f := fun o i => do
    let s ← nth shares i
    let e ← exposeG1 tab (some base) s o
    pure e.2) (I := fun k o' _ => o' = o + 4 * k) n 0 o s ?_ rfl
  · rw [Nat.zero_add] at this
    exact this
  intro i o' s' _ hi b ho'
  rw [Nat.zero_add] at hi
  subst ho'
  have hv := getElem?_getD (vs := vs) (i := i) (by omega)
  have hm := List.mem_of_getElem? hv
  have hI := instAt_flatMap (fun _ => length_enc1 _) _ _ ho i _ hv
  generalize vs.getD i 0 = v at *
  have hs' : Has s' (shares.getD i ⟨0, 0, 0⟩) v ∧ shares[i]? = some (shares.getD i ⟨0, 0, 0⟩) := by
    have hl : i < shares.length := by rw [hs.length_eq]; omega
    obtain ⟨h1, h2⟩ := List.getElem?_eq_some_iff.1 hv
    have := hs.get hl h1
    rw [getD_lt _ _ hl]
    refine ⟨?_, List.getElem?_eq_getElem hl⟩
    rw [← h2]
    exact Has.mono this b
  refine runsR_bind (R := fun c s1 => c = shares.getD i ⟨0, 0, 0⟩ ∧ s1 = s') (runsR_nth hs'.2 ⟨rfl, rfl⟩) ?_
  rintro _ s1 - ⟨rfl, rfl⟩
  refine runsR_bind (runsR_exposeG1 hJ (ht.mono (lops1_complete hJ) b) (b := some base) ?_ hs'.1 (hfit v hm) hI) ?_
  · rintro c hc
    cases hc
    exact hb.mono b
  · rintro e s2 - ⟨-, he⟩
    exact runsR_pure (by rw [he]; ring)

theorem runsR_membersLoop {aux auxNeg : PtCell} {A : Gk} (ha : HasPt s aux A) (hn : HasPt s auxNeg (-A))
    {bits shares : List Cell} {v : Fr} (hb : BitsAre s bits (canonBits v)) {pks : List Gk} (hpk : ∀ pk ∈ pks, pk ≠ 0)
    (hg : ∀ pk ∈ pks, GoodAux (canonBits v) A pk) (hi : ∀ i < pks.length, X.inp.publicKeys i = coords (pks.getD i 0))
    {vs : List Fr} (hs : List.Forall₂ (Has s) shares vs) (hl : vs.length = pks.length) {n o : ℕ} (hpn : n = pks.length)
    (ho : ∀ i < n, X.inst (o + i) =
      vs.getD i 0 + Poseidon.hash2 (coords (v.val • pks.getD i 0)).1 (coords (v.val • pks.getD i 0)).2) :
    RunsR X (membersLoop aux auxNeg bits shares n o) s fun st s' => List.Forall₂ (HasPt s') st.1 pks ∧ st.2 = o + n := by
  unfold membersLoop
  rw [List.range_eq_range']
  have := runsR_foldS_range (X := X) (f := fun st i => do
    let m ← memberRegion aux auxNeg bits shares i st.2
    pure (st.1 ++ [m.1], m.2)) (I := fun k (st : List PtCell × ℕ) s' => List.Forall₂ (HasPt s') st.1 (pks.take k) ∧ st.2 = o + k)
    n 0 ([], o) s ?_ ⟨by rw [List.take_zero]; exact .nil, rfl⟩
  · rw [Nat.zero_add, hpn, List.take_length] at this
    rw [hpn]
    exact this
  rintro i ⟨cells, o'⟩ s' - hin b ⟨h1, h2⟩
  rw [Nat.zero_add] at hin
  dsimp only at h1 h2 ⊢
  subst h2
  have hip : i < pks.length := by omega
  have hP : pks[i]? = some (pks.getD i 0) := by rw [getD_lt _ _ hip]; exact List.getElem?_eq_getElem hip
  have hm := List.mem_of_getElem? hP
  refine runsR_bind (runsR_memberRegion (ha.mono b) (hn.mono b) (hpk _ hm) (hb.mono b) (hg _ hm) (hi i hip) (forall₂_has_mono hs b)
    (getElem?_getD (by omega)) (ho i hin)) ?_
  rintro m s1 b1 ⟨h3, h4⟩
  refine runsR_pure ⟨?_, h4⟩
  rw [List.take_add_one, hP]
  exact List.rel_append (h1.imp fun _ _ h => h.mono b1) (.cons h3 .nil)

theorem length_flatMap_const {f : α → List β} {k : ℕ} (hf : ∀ a, (f a).length = k) : ∀ l : List α, (l.flatMap f).length = k * l.length
  | [] => rfl
  | a :: l => by
    rw [List.flatMap_cons, List.length_append, hf, length_flatMap_const hf l, List.length_cons]
    ring

/-- The whole circuit. -/
theorem runsR_synthesize {J : IntegerImpl} {Is : Known → J.I → Fq → Prop} (hJ : J.Complete X Is) {t n : ℕ} (ht : 0 < t) (hn : 1 ≤ n)
    {auxG1 : G1} {auxG2 : G2} (h1 : TableFits 3 g1 auxG1) (hr : r • auxG2 = 0) (h2 : TableFits 3 g2 auxG2) {cs : List Fr}
    (hcs : cs = (List.range t).map X.inp.coeffs) {pks : List Gk} (hl : pks.length = n) (hpk : ∀ pk ∈ pks, pk ≠ 0)
    (hi : ∀ i < pks.length, X.inp.publicKeys i = coords (pks.getD i 0)) {A : Gk} (hA : A ≠ 0) (he : X.inp.aux = coords A)
    (hg : ∀ P ∈ gk :: pks, GoodAux (canonBits X.inp.random) A P)
    (hf1 : AuxFits 3 (poly cs 0).val g1 auxG1) (hf2 : AuxFits 3 (poly cs 0).val g2 auxG2)
    (hfs : ∀ i, 1 ≤ i → i ≤ n → AuxFits 3 (poly cs (i : Fr)).val g1 auxG1)
    (ho : InstAt X 0 (encParams (DkgCircuit.dealtParams n cs X.inp.random.val pks) pks)) :
    RunsR X (synthesize J ⟨t, n⟩ auxG1 auxG2) s fun N _ => N = 7 * n + 14 := by
  have htake := DkgCircuit.shares_take cs n
  have hget : ∀ i < n, _ := fun i hi => DkgCircuit.shares_getD cs (n := n) (i := i) hi
  rw [List.take_of_length_le (by simp; omega)] at htake
  rw [htake] at hget
  unfold encParams DkgCircuit.dealtParams at ho
  dsimp only at ho
  rw [instAt_append, instAt_append, instAt_append, instAt_append, instAt_append] at ho
  obtain ⟨o1, o2, o3, o4, o5, o6⟩ := ho
  have l2 : (((List.range' 1 n).map fun i : ℕ => poly cs (i : Fr) • g1).flatMap enc1).length = 4 * n := by
    rw [length_flatMap_const fun _ => length_enc1 _, List.length_map, List.length_range']
  have l3 : (enc2 (smul2 (poly cs 0) g2)).length = 8 := rfl
  rw [length_enc1] at o2 o3 o4 o5 o6
  rw [l2] at o3 o4 o5 o6
  rw [l3] at o4 o5 o6
  rw [show (encGk (X.inp.random.val • gk)).length = 2 from rfl] at o5 o6
  rw [List.length_map, List.length_range] at o6
  rw [Nat.zero_add] at o2 o3 o4 o5 o6
  refine runsR_bind (runsR_sharesRegion ht hcs) fun sh s1 b1 hsh => ?_
  rw [htake] at hsh
  refine runsR_bind (runsR_tablesRegion hJ h1 hr h2) fun tabs s2 b2 htab => ?_
  refine runsR_bind (runsR_auxRegion hA he) fun aux s3 b3 haux => ?_
  have ht1 := htab.1.mono (lops1_complete hJ) b3
  have ht2 := htab.2.mono (lops2_complete hJ) b3
  have hs1 := hsh.1.mono (b2.trans b3)
  have hs2 := forall₂_has_mono hsh.2 (b2.trans b3)
  refine runsR_bind (runsR_exposeG1 hJ ht1 (b := none) (fun c hc => by cases hc) hs1 hf1 o1) fun e0 s4 b4 he0 => ?_
  have ht1 := ht1.mono (lops1_complete hJ) b4
  have ht2 := ht2.mono (lops2_complete hJ) b4
  have hs1 := hs1.mono b4
  have hs2 := forall₂_has_mono hs2 b4
  have ha1 := haux.1.mono b4
  have ha2 := haux.2.mono b4
  refine runsR_bind (runsR_sharesLoop hJ ht1 he0.1 hs2 (by simp) ?_ (o := e0.2) ?_) fun p1 s5 b5 hp1 => ?_
  · intro v hv
    obtain ⟨i, hi, rfl⟩ := List.mem_map.1 hv
    rw [List.mem_range'_1] at hi
    exact hfs i hi.1 (by omega)
  · rw [he0.2, Nat.zero_add, List.flatMap_map]
    rw [List.flatMap_map] at o2
    exact o2
  have ht2 := ht2.mono (lops2_complete hJ) b5
  have hs1 := hs1.mono b5
  have hs2 := forall₂_has_mono hs2 b5
  have hbase := he0.1.mono b5
  refine runsR_bind (runsR_exposeG2 hJ ht2 (b := some e0.1) (fun c hc => by cases hc; exact hbase) hs1 hf2 (o := p1) ?_) fun e2 s6 b6 he2 => ?_
  · rw [hp1, he0.2, Nat.zero_add]
    exact o3
  have ha1 := ha1.mono (b5.trans b6)
  have ha2 := ha2.mono (b5.trans b6)
  refine runsR_bind (runsR_grRegion ha1 ha2 (hg gk List.mem_cons_self)) fun gr s7 b7 hgr => ?_
  refine runsR_bind (runsR_exposePoint hgr.2 (o := e2.2) ?_) ?_
  · rw [he2.2, hp1, he0.2, Nat.zero_add]
    exact o4
  rintro p3 s8 - ⟨rfl, hp3⟩
  rw [he2.2, hp1, he0.2, Nat.zero_add] at hp3
  refine runsR_bind (runsR_membersLoop (ha1.mono b7) (ha2.mono b7) hgr.1 hpk (fun P hP => hg P (List.mem_cons_of_mem _ hP)) hi
    (forall₂_has_mono hs2 (b6.trans b7)) (by simp [hl]) hl.symm ?_) ?_
  · intro i hin
    rw [hget i hin, hp3]
    exact o5 i _ (by rw [List.getElem?_map, List.getElem?_range hin]; rfl)
  · rintro st s9 - ⟨h3, h4⟩
    refine runsR_mono (runsR_exposePoints st.1 pks st.2 s9 h3 ?_) ?_
    · rw [h4, hp3]
      exact o6
    · rintro N s10 - ⟨-, hN⟩
      rw [hN, h4, hp3, hl]
      ring

end Verif.Layout
