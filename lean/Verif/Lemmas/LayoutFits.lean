import Verif.Lemmas.LayoutSize

/-! The whole circuit fits into a domain with enough rows. -/

namespace Verif.Layout
open Verif MainGate

variable {α β : Type} {B K P : ℕ}

/-- What a part of the circuit adds in the regions after that of `c` up to that of `c'`. -/
structure TopTidy (B K P : ℕ) (c c' : Ctx) (S : Shape) : Prop where
  region : c.region ≤ c'.region
  gates : ∀ p ∈ S.gates, c.region < p.1 ∧ p.1 ≤ c'.region ∧ p.2.1 + 1 < B ∧ (p.2.2 = .absorb → p.2.1 ≠ 0)
  sorted : S.gates.Pairwise fun p p' => p.1 < p'.1 ∨ p.1 = p'.1 ∧ p.2.1 < p'.2.1
  copies : ∀ p ∈ S.copies, Inside B K p.1 ∧ Inside B K p.2
  constants : ∀ p ∈ S.constants, Inside B K p.1 ∧ (p.2 = 0 ∨ p.2 = ((2 * 2 ^ 64 : ℕ) : Fr))
  publics : ∀ p ∈ S.publics, Inside B K p.1 ∧ p.2 < P

/-- The part of the circuit uses at most `M` regions. -/
def Regs (B K P M : ℕ) (m : Synth α) (R : α → Prop) : Prop :=
  ∀ c o, m c = some o → c.region + M ≤ K → TopTidy B K P c o.ctx o.shape ∧ o.ctx.region ≤ c.region + M ∧ R o.val

theorem TopTidy.append {c c' c'' : Ctx} {S S' : Shape} (h : TopTidy B K P c c' S) (h' : TopTidy B K P c' c'' S') :
    TopTidy B K P c c'' (S.append S') where
  region := h.region.trans h'.region
  gates p hp := by
    rcases List.mem_append.1 hp with hp | hp
    · obtain ⟨h1, h2, h3⟩ := h.gates p hp
      exact ⟨h1, h2.trans h'.region, h3⟩
    · obtain ⟨h1, h2, h3⟩ := h'.gates p hp
      exact ⟨lt_of_le_of_lt h.region h1, h2, h3⟩
  sorted := List.pairwise_append.2 ⟨h.sorted, h'.sorted, fun p hp p' hp' =>
    Or.inl (lt_of_le_of_lt (h.gates p hp).2.1 (h'.gates p' hp').1)⟩
  copies p hp := (List.mem_append.1 hp).elim (h.copies p) (h'.copies p)
  constants p hp := (List.mem_append.1 hp).elim (h.constants p) (h'.constants p)
  publics p hp := (List.mem_append.1 hp).elim (h.publics p) (h'.publics p)

theorem topTidy_empty (c : Ctx) : TopTidy B K P c c .empty where
  region := le_refl _
  gates p hp := absurd hp List.not_mem_nil
  sorted := List.Pairwise.nil
  copies p hp := absurd hp List.not_mem_nil
  constants p hp := absurd hp List.not_mem_nil
  publics p hp := absurd hp List.not_mem_nil

theorem regs_pure {a : α} {R : α → Prop} (h : R a) : Regs B K P 0 (pure a : Synth α) R := fun c o ho _ => by
  cases ho
  exact ⟨topTidy_empty c, le_refl _, h⟩

theorem regs_bind {m : Synth α} {f : α → Synth β} {M M' : ℕ} {R : α → Prop} {R' : β → Prop} (hm : Regs B K P M m R)
    (hf : ∀ a, R a → Regs B K P M' (f a) R') : Regs B K P (M + M') (m >>= f) R' := by
  intro c o ho hK
  obtain ⟨o1, o2, h1, h2, rfl⟩ := bind_some ho
  obtain ⟨t1, l1, r1⟩ := hm c o1 h1 (by omega)
  obtain ⟨t2, l2, r2⟩ := hf _ r1 _ o2 h2 (by omega)
  exact ⟨t1.append t2, by dsimp only; omega, r2⟩

theorem regs_le {m : Synth α} {M M' : ℕ} {R : α → Prop} (h : M ≤ M') (hm : Regs B K P M m R) : Regs B K P M' m R :=
  fun c o ho hK => by
    obtain ⟨t, l, r⟩ := hm c o ho (by omega)
    exact ⟨t, by omega, r⟩

theorem regs_mono {m : Synth α} {M : ℕ} {R R' : α → Prop} (hm : Regs B K P M m R) (h : ∀ a, R a → R' a) : Regs B K P M m R' :=
  fun c o ho hK => by
    obtain ⟨t, l, r⟩ := hm c o ho hK
    exact ⟨t, l, h _ r⟩

theorem regs_check {p : Prop} [Decidable p] : Regs B K P 0 (check p) fun _ => p := by
  intro c o ho _
  unfold check at ho
  by_cases h : p
  · rw [if_pos h] at ho
    cases ho
    exact ⟨topTidy_empty c, le_refl _, h⟩
  · rw [if_neg h] at ho
    exact absurd ho (by unfold fail; exact fun h => nomatch h)

theorem regs_nth {xs : List α} {i : ℕ} {R : α → Prop} (h : ∀ x ∈ xs, R x) : Regs B K P 0 (nth xs i) R := by
  intro c o ho _
  unfold nth at ho
  split at ho
  · rename_i a ha
    cases ho
    exact ⟨topTidy_empty c, le_refl _, h a (List.mem_of_getElem? ha)⟩
  · exact absurd ho (fun h => nomatch h)

theorem regs_foldS {f : β → α → Synth β} {M : ℕ} (I : ℕ → β → Prop) : ∀ (xs : List α) (k : ℕ) (b : β),
    (∀ k' b, ∀ x ∈ xs, k' < k + xs.length → I k' b → Regs B K P M (f b x) (I (k' + 1))) → I k b →
      Regs B K P (xs.length * M) (foldS f xs b) (I (k + xs.length))
  | [], k, b, _, hb => regs_le (Nat.zero_le _) (regs_pure hb)
  | x :: xs, k, b, h, hb => regs_le (M := M + xs.length * M) (by rw [List.length_cons, Nat.succ_mul]; omega)
      (regs_bind (h k b x List.mem_cons_self (by rw [List.length_cons]; omega) hb) fun b' hb' => by
        have e := regs_foldS I xs (k + 1) b' (fun k' b z hz hk => h k' b z (List.mem_cons_of_mem _ hz) (by rw [List.length_cons]; omega)) hb'
        rw [Nat.add_assoc, Nat.add_comm 1] at e
        exact e)

theorem regs_exposePublic {a : Cell} {j : ℕ} {R : Unit → Prop} (ha : Inside B K a) (hj : j < P) (h : R ()) :
    Regs B K P 0 (exposePublic a j) R := by
  intro c o ho _
  cases ho
  refine ⟨⟨le_refl _, fun p hp => absurd hp List.not_mem_nil, List.Pairwise.nil, fun p hp => absurd hp List.not_mem_nil,
    fun p hp => absurd hp List.not_mem_nil, fun p hp => ?_⟩, le_refl _, h⟩
  rw [List.mem_singleton.1 hp]
  exact ⟨ha, hj⟩

/-- A region. -/
theorem regs_region {m : Synth α} {k N : ℕ} {R : α → Prop} (hm : Rows B K N m R) (hN : k + N < B) : Regs B K P 1 (assignRegion k m) R := by
  intro c o ho hK
  obtain ⟨t, l, r⟩ := hm _ o ho hN hK
  dsimp only at l
  have e := t.region
  dsimp only at e
  refine ⟨⟨by omega, fun p hp => ?_, ?_, t.copies, ?_, ?_⟩, by omega, r⟩
  · obtain ⟨h1, h2, h3, h4⟩ := t.gates p hp
    dsimp only at h1
    exact ⟨by omega, by omega, by omega, fun h => absurd h h4⟩
  · refine List.Pairwise.imp_of_mem ?_ t.sorted
    intro p p' hp hp' h
    exact Or.inr ⟨(t.gates p hp).1.trans (t.gates p' hp').1.symm, h⟩
  · rw [t.constants]
    exact fun p hp => absurd hp List.not_mem_nil
  · rw [t.publics]
    exact fun p hp => absurd hp List.not_mem_nil

/-! ### Public inputs -/

theorem regs_exposeAll {cells : List Cell} {o : ℕ} (h : ∀ c ∈ cells, Inside B K c) (hP : o + cells.length ≤ P) :
    Regs B K P 0 (exposeAll cells o) fun o' => o' = o + cells.length := by
  refine regs_le (M := cells.length * 0) (by omega) ?_
  refine regs_mono (regs_foldS (fun k o' => o' = o + k) cells 0 o ?_ rfl) fun o' h => by rw [h, Nat.zero_add]
  intro k b x hx hk hb
  refine regs_bind (M' := 0) (R := fun _ => True) (regs_exposePublic (h x hx) (by omega) trivial) fun _ _ => regs_pure (by rw [hb, Nat.add_assoc])

theorem regs_exposePoint {p : PtCell} {o : ℕ} (h : PtIn B K p) (hP : o + 2 ≤ P) : Regs B K P 0 (exposePoint p o) fun o' => o' = o + 2 :=
  regs_bind (M' := 0) (R := fun _ => True) (regs_exposePublic h.1 (by omega) trivial) fun _ _ =>
    regs_bind (M' := 0) (R := fun _ => True) (regs_exposePublic h.2 (by omega) trivial) fun _ _ => regs_pure rfl

theorem rows_baseCell {b : Option Cell} (h : ∀ c ∈ b, Inside B K c) : Rows B K 1 (baseCell b) (Inside B K) := by
  cases b with
  | none => exact rows_assignConstant
  | some c => exact rows_le (Nat.zero_le _) (rows_pure (h c rfl))

theorem regs_exposeOptimal {b : Option Cell} {ints : List (List Cell)} {o : ℕ} (hb : ∀ c ∈ b, Inside B K c)
    (hi : ∀ l ∈ ints, ∀ c ∈ l, Inside B K c) (hP : o + ints.length * 2 ≤ P) (hB : P + 1 < B) :
    Regs B K P 1 (exposeOptimal b ints o) fun out => Inside B K out.1 ∧ out.2 = o + ints.length * 2 := by
  refine regs_le (M := 0 + (0 + (0 + (1 + (0 + 0))))) (by omega) ?_
  refine regs_bind regs_check fun _ _ => regs_bind regs_check fun _ _ => regs_bind regs_check fun _ _ => ?_
  refine regs_bind (R := fun out : Cell × List Cell => Inside B K out.1 ∧ (∀ c ∈ out.2, Inside B K c) ∧ out.2.length = ints.length * 2) ?_ fun out h => ?_
  · refine regs_region (N := 1 + (ints.length * 2 + 0)) ?_ (by omega)
    refine rows_bind (rows_baseCell hb) fun base h1 => ?_
    refine rows_bind (rows_mapS (N := 2) (R := fun cells : List Cell => cells.length = 2 ∧ ∀ c ∈ cells, Inside B K c) ints fun l hl => ?_) fun w hw => ?_
    · refine rows_mono (rows_le (N := (List.range (numberOfLimbs / wrapLen)).length * 1) (by rw [List.length_range]; decide)
        (rows_mapS (R := Inside B K) _ fun i _ => rows_wrapCell h1 (hi l hl))) fun ys h => ⟨?_, h.2⟩
      rw [h.1, List.length_range]
      rfl
    · refine rows_pure ⟨h1, fun c hc => ?_, ?_⟩
      · obtain ⟨l, hl, hc⟩ := List.mem_flatten.1 hc
        exact (hw.2 l hl).2 c hc
      · show w.flatten.length = _
        rw [length_flatten_const fun l hl => (hw.2 l hl).1, hw.1]
  · refine regs_bind (regs_exposeAll h.2.1 (by omega)) fun o' ho => regs_pure ⟨h.1, ?_⟩
    rw [ho, h.2.2]

/-! ### Poseidon -/

theorem topTidy_plain {c c' : Ctx} {S : Shape} (h : c'.region = c.region + 1) (hg : S.gates = [])
    (h1 : ∀ p ∈ S.copies, Inside B K p.1 ∧ Inside B K p.2)
    (h2 : ∀ p ∈ S.constants, Inside B K p.1 ∧ (p.2 = 0 ∨ p.2 = ((2 * 2 ^ 64 : ℕ) : Fr))) (h3 : S.publics = []) : TopTidy B K P c c' S where
  region := by omega
  gates p hp := absurd (hg ▸ hp) List.not_mem_nil
  sorted := by rw [hg]; exact List.Pairwise.nil
  copies := h1
  constants := h2
  publics p hp := absurd (h3 ▸ hp) List.not_mem_nil

theorem regs_poseidonInit (hB : 3 < B) : Regs B K P 1 poseidonInit (StIn B K) := by
  intro c o ho hK
  cases ho
  have hin : ∀ j : Fin 5, Inside B K ⟨c.region + 1, 0, j⟩ := fun j => ⟨hK, by dsimp only; omega⟩
  refine ⟨topTidy_plain rfl rfl (fun p hp => absurd hp List.not_mem_nil) (fun p hp => ?_) rfl, le_refl _, stIn (hin 0) (hin 1) (hin 2)⟩
  have hp' : p ∈ [((⟨c.region + 1, 0, 0⟩ : Cell), (0 : Fr)), (⟨c.region + 1, 0, 1⟩, 0), (⟨c.region + 1, 0, 2⟩, ((2 * 2 ^ 64 : ℕ) : Fr))] := hp
  rcases List.mem_cons.1 hp' with rfl | hp'
  · exact ⟨hin 0, Or.inl rfl⟩
  · rcases List.mem_cons.1 hp' with rfl | hp'
    · exact ⟨hin 1, Or.inl rfl⟩
    · rw [List.mem_singleton.1 hp']
      exact ⟨hin 2, Or.inr rfl⟩

theorem regs_poseidonAbsorb {s : StCell} {x y : Cell} (hs : StIn B K s) (hx : Inside B K x) (hy : Inside B K y) (hB : 3 < B) :
    Regs B K P 1 (poseidonAbsorb s x y) (StIn B K) := by
  intro c o ho hK
  cases ho
  have hin : ∀ i < 3, ∀ j : Fin 5, Inside B K ⟨c.region + 1, i, j⟩ := fun i hi j => ⟨hK, by dsimp only; omega⟩
  refine ⟨⟨Nat.le_succ _, fun p hp => ?_, List.pairwise_singleton _ _, fun p hp => ?_, fun p hp => absurd hp List.not_mem_nil,
    fun p hp => absurd hp List.not_mem_nil⟩, le_refl _, stIn (hin 2 (by decide) 0) (hin 2 (by decide) 1) (hin 2 (by decide) 2)⟩
  · have hp' : p ∈ [(c.region + 1, 1, Gate.absorb)] := hp
    rw [List.mem_singleton.1 hp']
    exact ⟨Nat.lt_succ_self _, le_refl _, by dsimp only; omega, fun _ => Nat.one_ne_zero⟩
  · have hp' : p ∈ [(s 0, (⟨c.region + 1, 0, 0⟩ : Cell)), (s 1, ⟨c.region + 1, 0, 1⟩), (s 2, ⟨c.region + 1, 0, 2⟩),
      (x, ⟨c.region + 1, 1, 0⟩), (y, ⟨c.region + 1, 1, 1⟩)] := hp
    rcases List.mem_cons.1 hp' with rfl | hp'
    · exact ⟨hs 0, hin 0 (by decide) 0⟩
    rcases List.mem_cons.1 hp' with rfl | hp'
    · exact ⟨hs 1, hin 0 (by decide) 1⟩
    rcases List.mem_cons.1 hp' with rfl | hp'
    · exact ⟨hs 2, hin 0 (by decide) 2⟩
    rcases List.mem_cons.1 hp' with rfl | hp'
    · exact ⟨hx, hin 1 (by decide) 0⟩
    rw [List.mem_singleton.1 hp']
    exact ⟨hy, hin 1 (by decide) 1⟩

theorem rows_poseidonRows {s : StCell} (h : StIn B K s) : Rows B K 64 (do
    let s0 ← copyState s
    let s1 ← fullRows (Poseidon.ROUND_CONSTANTS.take 4) s0
    let s2 ← partialRows ((Poseidon.ROUND_CONSTANTS.drop 4).take 56) s1
    fullRows ((Poseidon.ROUND_CONSTANTS.drop 60).take 4) s2) (StIn B K) := by
  refine rows_le (N := 0 + ((Poseidon.ROUND_CONSTANTS.take 4).length + (((Poseidon.ROUND_CONSTANTS.drop 4).take 56).length +
    ((Poseidon.ROUND_CONSTANTS.drop 60).take 4).length))) ?_ ?_
  · rw [List.length_take, List.length_take, List.length_take]
    omega
  · exact rows_bind (rows_copyState h) fun _ h0 => rows_bind (rows_fullRows _ _ h0) fun _ h1 => rows_bind (rows_partialRows _ _ h1) fun _ h2 =>
      rows_fullRows _ _ h2

theorem regs_poseidonHash {x y : Cell} (hx : Inside B K x) (hy : Inside B K y) (hB : 64 < B) : Regs B K P 3 (poseidonHash x y) (Inside B K) :=
  regs_le (M := 1 + (1 + (1 + 0))) (by omega) (regs_bind (regs_poseidonInit (by omega)) fun _ h0 =>
    regs_bind (regs_poseidonAbsorb h0 hx hy (by omega)) fun _ h1 => regs_bind (regs_region (rows_poseidonRows h1) (by omega)) fun _ h2 =>
      regs_pure (h2 0))

/-! ### The circuit -/

theorem regs_sharesRegion (cfg : DkgConfig)
    (hB : cfg.threshold + (cfg.threshold - 1) + (cfg.numberOfMembers - 1) * (1 + (cfg.threshold - 1)) < B) :
    Regs B K P 1 (sharesRegion cfg) fun sh => (∀ c ∈ sh.1, Inside B K c) ∧ Inside B K sh.2 := by
  refine regs_region (N := cfg.threshold * 1 + (0 + ((cfg.threshold - 1) * 1 + ((cfg.numberOfMembers - 1) * (1 + (0 + (cfg.threshold - 1) * 1)) + 0))))
    ?_ (by simp only [Nat.mul_one, Nat.zero_add, Nat.add_zero]; omega)
  have e1 := rows_mapS (B := B) (K := K) (R := Inside B K) (N := 1) (f := fun i => assignValue fun inp => inp.coeffs i) (List.range cfg.threshold)
    fun i _ => rows_assignValue
  rw [List.length_range] at e1
  refine rows_bind e1 fun coeffs hc => rows_bind (rows_nth hc.2) fun a ha => ?_
  have e2 := rows_foldS (B := B) (K := K) (R := Inside B K) (N := 1) (f := fun s j => do
    let c ← nth coeffs j
    add s c) (List.range' 1 (cfg.threshold - 1)) a (fun s hs j _ => rows_le (N := 0 + 1) (by omega)
      (rows_bind (rows_nth hc.2) fun _ hb => rows_add hs hb)) ha
  rw [List.length_range'] at e2
  refine rows_bind e2 fun s0 h0 => ?_
  have e3 := rows_mapS (B := B) (K := K) (R := Inside B K) (N := 1 + (0 + (cfg.threshold - 1) * 1)) (f := fun i : ℕ => do
    let x ← assignConstant (i : Fr)
    let top ← nth coeffs (cfg.threshold - 1)
    foldS (fun s j => do
      let c ← nth coeffs j
      mulAdd s x c) (List.range (cfg.threshold - 1)).reverse top) (List.range' 2 (cfg.numberOfMembers - 1)) fun i _ => by
        refine rows_bind rows_assignConstant fun x hx => rows_bind (rows_nth hc.2) fun top ht => ?_
        have e := rows_foldS (B := B) (K := K) (R := Inside B K) (N := 1) (f := fun s j => do
          let c ← nth coeffs j
          mulAdd s x c) (List.range (cfg.threshold - 1)).reverse top (fun s hs j _ => rows_le (N := 0 + 1) (by omega)
            (rows_bind (rows_nth hc.2) fun _ hb => rows_mulAdd hs hx hb)) ht
        rw [List.length_reverse, List.length_range] at e
        exact e
  rw [List.length_range'] at e3
  refine rows_bind e3 fun rest hr => rows_pure ⟨fun c h => ?_, ha⟩
  rcases List.mem_cons.1 h with rfl | h
  · exact h0
  · exact hr.2 c h

theorem regs_auxRegion (hB : 7 < B) : Regs B K P 1 auxRegion fun aux => PtIn B K aux.1 ∧ PtIn B K aux.2 :=
  regs_region (k := 0) (N := 6 + (1 + 0)) (rows_bind rows_assignPoint fun _ h => rows_bind (rows_negGk h) fun _ h' => rows_pure ⟨h, h'⟩) (by omega)

theorem regs_grRegion {aux auxNeg : PtCell} (h1 : PtIn B K aux) (h2 : PtIn B K auxNeg) (hB : 3100 < B) :
    Regs B K P 1 (grRegion aux auxNeg) fun gr => ((∀ c ∈ gr.1, Inside B K c) ∧ PtIn B K gr.2) ∧ gr.1.length = 254 :=
  regs_region (k := 0) (N := 2 + (254 + (2799 + 0))) (rows_bind rows_assignConstantGk fun _ hg => rows_bind rows_toBitsUnsafe fun bits hb =>
    rows_bind (rows_le (by rw [hb.1]) (rows_mulBits h1 h2 hg hb.2)) fun _ h => rows_pure ⟨⟨hb.2, h⟩, hb.1⟩) (by omega)

theorem regs_memberRegion {aux auxNeg : PtCell} {bits shares : List Cell} {i o : ℕ} (h1 : PtIn B K aux) (h2 : PtIn B K auxNeg)
    (hb : ∀ c ∈ bits, Inside B K c) (hs : ∀ c ∈ shares, Inside B K c) (hB : 3100 + 11 * bits.length < B) (hP : o < P) :
    Regs B K P 5 (memberRegion aux auxNeg bits shares i o) fun m => PtIn B K m.1 ∧ m.2 = o + 1 := by
  refine regs_le (M := 1 + (3 + (1 + (0 + 0)))) (by omega) ?_
  refine regs_bind (R := fun p : PtCell × PtCell => PtIn B K p.1 ∧ PtIn B K p.2) ?_ fun p hp => ?_
  · exact regs_region (N := 6 + (11 * bits.length + 5 + 0)) (rows_bind rows_assignPoint fun _ h => rows_bind (rows_mulBits h1 h2 h hb) fun _ h' =>
      rows_pure ⟨h', h⟩) (by omega)
  · refine regs_bind (regs_poseidonHash hp.1.1 hp.1.2 (by omega)) fun key hk => ?_
    refine regs_bind (R := Inside B K) (regs_region (N := 0 + 1) (rows_bind (rows_nth hs) fun _ h => rows_add h hk) (by omega)) fun c hc => ?_
    exact regs_bind (R := fun _ => True) (regs_exposePublic hc hP trivial) fun _ _ => regs_pure ⟨hp.2, rfl⟩

theorem regs_membersLoop {aux auxNeg : PtCell} {bits shares : List Cell} {n o : ℕ} (h1 : PtIn B K aux) (h2 : PtIn B K auxNeg)
    (hb : ∀ c ∈ bits, Inside B K c) (hs : ∀ c ∈ shares, Inside B K c) (hB : 3100 + 11 * bits.length < B) (hP : o + n ≤ P) :
    Regs B K P (n * 5) (membersLoop aux auxNeg bits shares n o) fun st => (st.1.length = n ∧ ∀ p ∈ st.1, PtIn B K p) ∧ st.2 = o + n := by
  have e := regs_foldS (B := B) (K := K) (P := P) (M := 5) (f := fun (st : List PtCell × ℕ) i => do
    let m ← memberRegion aux auxNeg bits shares i st.2
    pure (st.1 ++ [m.1], m.2)) (fun k st => (st.1.length = k ∧ ∀ p ∈ st.1, PtIn B K p) ∧ st.2 = o + k) (List.range n) 0 ([], o)
    (fun k st i _ hk hst => by
      rw [List.length_range] at hk
      refine regs_bind (M' := 0) (regs_memberRegion h1 h2 hb hs hB (by omega)) fun m hm => regs_pure ⟨⟨?_, fun p hp => ?_⟩, ?_⟩
      · rw [List.length_append, hst.1.1]
        rfl
      · rcases List.mem_append.1 hp with hp | hp
        · exact hst.1.2 p hp
        · rw [List.mem_singleton.1 hp]
          exact hm.1
      · rw [hm.2, hst.2, Nat.add_assoc]) ⟨⟨rfl, fun p hp => nomatch hp⟩, rfl⟩
  rw [List.length_range, Nat.zero_add] at e
  exact e

section
variable {J : IntegerImpl} {C D : ℕ} {InI : J.I → Prop} (hJ : J.Small B K C D InI)
include hJ

theorem regs_tablesRegion (auxG1 : G1) (auxG2 : G2) (hB : 680 * (2 * D) + (2 * D + 680 * (4 * D)) < B) :
    Regs B K P 1 (tablesRegion (J := J) auxG1 auxG2) fun tabs =>
      (∀ row ∈ tabs.1, ∀ p ∈ row, In2 InI p) ∧ ∀ row ∈ tabs.2, ∀ p ∈ row, In4 InI p :=
  regs_region (k := 0) (N := 680 * (2 * D) + (2 * D + (680 * (4 * D) + 0))) (rows_bind (rows_assignTable (lops1_small hJ) _ _) fun _ h1 =>
    rows_bind ((lops1_small hJ).assignConstant _) fun _ _ => rows_bind (rows_assignTable (lops2_small hJ) _ _) fun _ h2 => rows_pure ⟨h1, h2⟩)
    (by omega)

theorem regs_exposeG1 {tab : List (List (P1 J))} {b : Option Cell} {s : Cell} {o : ℕ} (ht : ∀ row ∈ tab, ∀ p ∈ row, In2 InI p)
    (hb : ∀ c ∈ b, Inside B K c) (hs : Inside B K s) (hP : o + 4 ≤ P) (hPB : P + 1 < B)
    (hB : 321 + 7 * (2 * D) + 82 * (7 * (2 * D) + 9 * C) + 2 * (7 * (2 * D) + 11 * C) + 2 * C < B) :
    Regs B K P 2 (exposeG1 tab b s o) fun out => Inside B K out.1 ∧ out.2 = o + 4 := by
  refine regs_bind (M := 1) (M' := 1) (R := In2 InI) ?_ fun p hp => ?_
  · refine regs_region (N := 321 + 7 * (2 * D) + 82 * (7 * (2 * D) + 9 * C) + 2 * (7 * (2 * D) + 11 * C) + (C + (C + 0))) ?_ (by omega)
    exact rows_bind (rows_mulFixed (lops1_small hJ) ht hs) fun p hp => rows_bind (hJ.reduce _ hp.1) fun _ h1 => rows_bind (hJ.reduce _ hp.2) fun _ h2 =>
      rows_pure ⟨h1, h2⟩
  · refine regs_exposeOptimal hb (fun l hl c hc => ?_) hP hPB
    rcases List.mem_cons.1 hl with rfl | hl
    · exact hJ.limbs _ hp.1 c hc
    · rw [List.mem_singleton.1 hl] at hc
      exact hJ.limbs _ hp.2 c hc

theorem regs_exposeG2 {tab : List (List (P2 J))} {b : Option Cell} {s : Cell} {o : ℕ} (ht : ∀ row ∈ tab, ∀ p ∈ row, In4 InI p)
    (hb : ∀ c ∈ b, Inside B K c) (hs : Inside B K s) (hP : o + 8 ≤ P) (hPB : P + 1 < B)
    (hB : 321 + 7 * (4 * D) + 82 * (7 * (4 * D) + 40 * C) + 2 * (7 * (4 * D) + 46 * C) + 4 * C < B) :
    Regs B K P 2 (exposeG2 tab b s o) fun out => Inside B K out.1 ∧ out.2 = o + 8 := by
  refine regs_bind (M := 1) (M' := 1) (R := In4 InI) ?_ fun p hp => ?_
  · refine regs_region (N := 321 + 7 * (4 * D) + 82 * (7 * (4 * D) + 40 * C) + 2 * (7 * (4 * D) + 46 * C) + (2 * C + (2 * C + 0))) ?_ (by omega)
    exact rows_bind (rows_mulFixed (lops2_small hJ) ht hs) fun p hp => rows_bind (rows_reduce2 hJ hp.1) fun _ h1 =>
      rows_bind (rows_reduce2 hJ hp.2) fun _ h2 => rows_pure ⟨h1, h2⟩
  · refine regs_exposeOptimal hb (fun l hl c hc => ?_) hP hPB
    rcases List.mem_cons.1 hl with rfl | hl
    · exact hJ.limbs _ hp.1.1 c hc
    rcases List.mem_cons.1 hl with rfl | hl
    · exact hJ.limbs _ hp.1.2 c hc
    rcases List.mem_cons.1 hl with rfl | hl
    · exact hJ.limbs _ hp.2.1 c hc
    rw [List.mem_singleton.1 hl] at hc
    exact hJ.limbs _ hp.2.2 c hc

theorem regs_sharesLoop {tab : List (List (P1 J))} {base : Cell} {shares : List Cell} {n o : ℕ} (ht : ∀ row ∈ tab, ∀ p ∈ row, In2 InI p)
    (hb : Inside B K base) (hs : ∀ c ∈ shares, Inside B K c) (hP : o + 4 * n ≤ P) (hPB : P + 1 < B)
    (hB : 321 + 7 * (2 * D) + 82 * (7 * (2 * D) + 9 * C) + 2 * (7 * (2 * D) + 11 * C) + 2 * C < B) :
    Regs B K P (n * 2) (sharesLoop tab base shares n o) fun o' => o' = o + 4 * n := by
  have e := regs_foldS (B := B) (K := K) (P := P) (M := 2) (f := fun o i => do
    let s ← nth shares i
    let e ← exposeG1 tab (some base) s o
    pure e.2) (fun k o' => o' = o + 4 * k) (List.range n) 0 o (fun k o' i _ hk ho => by
      rw [List.length_range] at hk
      refine regs_bind (M := 0) (M' := 2) (regs_nth hs) fun s h => ?_
      refine regs_bind (M' := 0) (regs_exposeG1 hJ ht (fun c hc => by cases hc; exact hb) h (by omega) hPB hB) fun e he => regs_pure ?_
      rw [he.2, ho]
      omega) rfl
  rw [List.length_range, Nat.zero_add] at e
  exact e

/-- The number of regions of the circuit, and the rows they need. -/
theorem regs_synthesize (cfg : DkgConfig) (auxG1 : G1) (auxG2 : G2) (hP : 7 * cfg.numberOfMembers + 14 ≤ P) (hPB : P + 1 < B)
    (hB0 : cfg.threshold + (cfg.threshold - 1) + (cfg.numberOfMembers - 1) * (1 + (cfg.threshold - 1)) < B)
    (hB1 : 680 * (2 * D) + (2 * D + 680 * (4 * D)) < B)
    (hB2 : 321 + 7 * (2 * D) + 82 * (7 * (2 * D) + 9 * C) + 2 * (7 * (2 * D) + 11 * C) + 2 * C < B)
    (hB3 : 321 + 7 * (4 * D) + 82 * (7 * (4 * D) + 40 * C) + 2 * (7 * (4 * D) + 46 * C) + 4 * C < B) (hB4 : 5894 < B) :
    Regs B K P (7 * cfg.numberOfMembers + 8) (synthesize J cfg auxG1 auxG2) fun _ => True := by
  refine regs_le (M := 1 + (1 + (1 + (2 + (cfg.numberOfMembers * 2 + (2 + (1 + (0 + (cfg.numberOfMembers * 5 + 0))))))))) (by omega) ?_
  refine regs_bind (regs_sharesRegion cfg hB0) fun sh hsh => ?_
  refine regs_bind (regs_tablesRegion hJ auxG1 auxG2 hB1) fun tabs ht => ?_
  refine regs_bind (regs_auxRegion (by omega)) fun aux ha => ?_
  refine regs_bind (regs_exposeG1 hJ ht.1 (fun c hc => nomatch hc) hsh.2 (by omega) hPB hB2) fun e0 h0 => ?_
  refine regs_bind (regs_sharesLoop hJ ht.1 h0.1 hsh.1 (n := cfg.numberOfMembers) (by omega) hPB hB2) fun o1 h1 => ?_
  refine regs_bind (regs_exposeG2 hJ ht.2 (fun c hc => by cases hc; exact h0.1) hsh.2 (by omega) hPB hB3) fun e2 h2 => ?_
  refine regs_bind (regs_grRegion ha.1 ha.2 (by omega)) fun gr hg => ?_
  refine regs_bind (regs_exposePoint hg.1.2 (by omega)) fun o3 h3 => ?_
  refine regs_bind (regs_membersLoop ha.1 ha.2 hg.1.1 hsh.1 (n := cfg.numberOfMembers) (by omega) (by omega)) fun ms hm => ?_
  refine regs_le (M := ms.1.length * 0) (by omega) ?_
  refine regs_mono (regs_foldS (fun k o' => o' = ms.2 + 2 * k) ms.1 0 ms.2 ?_ rfl) fun _ _ => trivial
  intro k o x hx hk ho
  refine regs_mono (regs_exposePoint (hm.1.2 x hx) (by omega)) fun o' h' => ?_
  rw [h', ho]
  omega
end

/-! ### The domain -/

/-- The row of a constant. -/
noncomputable def crow0 (x : Fr) : ℕ := open Classical in if x = 0 then 0 else 1

section
variable {c c' : Ctx} {S : Shape}

theorem TopTidy.reads (h : TopTidy B K P c c' S) (hK : c'.region ≤ K) {x : Cell} (hx : S.Reads x) : Inside B K x := by
  rcases hx with ⟨k, i, g, hg, hx⟩ | ⟨x', hx | hx⟩ | ⟨v, hx⟩ | ⟨j, hx⟩
  · obtain ⟨h1, h2, h3, -⟩ := h.gates _ hg
    dsimp only at h1 h2 h3
    unfold Gate.Reads at hx
    cases g with
    | main m =>
      obtain ⟨e, hx⟩ := hx
      rcases hx with hx | ⟨-, hx, -⟩
      · exact ⟨by omega, by omega⟩
      · exact ⟨by omega, by omega⟩
    | comp => exact ⟨by omega, by omega⟩
    | tagged t =>
      dsimp only at hx
      rw [hx]
      exact ⟨by dsimp only; omega, by dsimp only; omega⟩
    | full rc => exact ⟨by omega, by omega⟩
    | partials rcA rcB =>
      rcases hx with hx | hx
      · exact ⟨by omega, by omega⟩
      · rw [hx]
        exact ⟨by dsimp only; omega, by dsimp only; omega⟩
    | absorb => exact ⟨by omega, by omega⟩
  · exact (h.copies _ hx).1
  · exact (h.copies _ hx).2
  · exact (h.constants _ hx).1
  · exact (h.publics _ hx).1

theorem row_lt {k o U : ℕ} (hk : k ≤ K) (ho : o < B) (hU : (K + 1) * B ≤ U) : k * B + o < U := by
  have := Nat.mul_le_mul_right B hk
  rw [Nat.succ_mul] at hU
  omega

theorem row_inj {k o k' o' : ℕ} (ho : o < B) (ho' : o' < B) (h : k * B + o = k' * B + o') : k = k' ∧ o = o' := by
  have hB : 0 < B := by omega
  have h1 : (k * B + o) / B = (k' * B + o') / B := by rw [h]
  have h2 : (k * B + o) % B = (k' * B + o') % B := by rw [h]
  rw [Nat.mul_comm k, Nat.mul_comm k', Nat.mul_add_div hB, Nat.mul_add_div hB, Nat.div_eq_of_lt ho, Nat.div_eq_of_lt ho'] at h1
  rw [Nat.mul_comm k, Nat.mul_comm k', Nat.mul_add_mod, Nat.mul_add_mod, Nat.mod_eq_of_lt ho, Nat.mod_eq_of_lt ho'] at h2
  exact ⟨by omega, h2⟩

theorem pairwise_mem {l : List α} {R : α → α → Prop} (h : l.Pairwise R) {a b : α} (ha : a ∈ l) (hb : b ∈ l) : a = b ∨ R a b ∨ R b a := by
  induction h with
  | nil => exact absurd ha List.not_mem_nil
  | cons h1 h2 ih =>
    rcases List.mem_cons.1 ha with ea | ea
    · rcases List.mem_cons.1 hb with eb | eb
      · exact Or.inl (ea.trans eb.symm)
      · exact Or.inr (Or.inl (ea ▸ h1 _ eb))
    · rcases List.mem_cons.1 hb with eb | eb
      · exact Or.inr (Or.inr (eb ▸ h1 _ ea))
      · exact ih ea eb

/-- Regions of `B` rows, one after another. -/
theorem TopTidy.fits (h : TopTidy B K P c c' S) (hK : c'.region ≤ K) {U : ℕ} (hU : (K + 1) * B ≤ U) (hB : 2 ≤ B) (hP : P ≤ B) :
    S.Fits U (fun k => k * B) crow0 [(0, 0)] where
  rows x hx := by
    obtain ⟨h1, h2⟩ := h.reads hK hx
    exact row_lt h1 h2 hU
  apart x y hx hy e := by
    obtain ⟨h1, h2⟩ := h.reads hK hx
    obtain ⟨h1', h2'⟩ := h.reads hK hy
    obtain ⟨a, b, d⟩ := x
    obtain ⟨a', b', d'⟩ := y
    obtain ⟨e1, e2⟩ := Prod.mk.inj e
    obtain ⟨e3, e4⟩ := row_inj h2 h2' e2
    dsimp only at e1 e3 e4
    rw [e3, e4, Fin.castLE_injective _ e1]
  single k i g g' hg hg' _ := by
    rcases pairwise_mem h.sorted hg hg' with e | e | e
    · exact congrArg (fun p => p.2.2) e
    · dsimp only at e
      omega
    · dsimp only at e
      omega
  absorb k i hg := (h.gates _ hg).2.2.2 rfl
  publics x j hx := by
    have h1 := (h.publics _ hx).2
    have h2 : B ≤ (K + 1) * B := Nat.le_mul_of_pos_left B (Nat.succ_pos K)
    dsimp only at h1
    omega
  constants x v hx := by
    have h2 : B ≤ (K + 1) * B := Nat.le_mul_of_pos_left B (Nat.succ_pos K)
    have h3 : crow0 v ≤ 1 := by
      unfold crow0
      split
      · exact Nat.zero_le _
      · exact le_refl _
    refine ⟨by omega, fun k i rcA rcB hg => ?_⟩
    have h4 := (h.gates _ hg).1
    dsimp only at h4
    have h5 := Nat.le_mul_of_pos_left B (show 0 < k by omega)
    omega
  constantsApart x v x' v' hx hx' e := by
    have h1 := (h.constants _ hx).2
    have h2 := (h.constants _ hx').2
    dsimp only at h1 h2
    unfold crow0 at e
    by_cases e1 : v = 0
    · by_cases e2 : v' = 0
      · rw [e1, e2]
      · rw [if_pos e1, if_neg e2] at e
        exact absurd e (by decide)
    · by_cases e2 : v' = 0
      · rw [if_neg e1, if_pos e2] at e
        exact absurd e (by decide)
      · rw [h1.resolve_left e1, h2.resolve_left e2]
  table := ⟨by
    have h2 : B ≤ (K + 1) * B := Nat.le_mul_of_pos_left B (Nat.succ_pos K)
    simp only [List.length_cons, List.length_nil]
    omega, List.mem_singleton.2 rfl⟩
end

end Verif.Layout
