import Verif.Lemmas.LimbChip

/-! The honest prover in the chip of `Lemmas/LimbChip`. -/

namespace Verif.Layout
open Verif Spec Limb

variable {X : Setting} {s : Known}

/-- The cell has been filled with this number. -/
def HasN (s : Known) (c : Cell) (n : ℕ) : Prop := Has s c ((n : ℕ) : Fr)

theorem HasN.mono {s s' : Known} {c : Cell} {n : ℕ} (h : HasN s c n) (hs : s.Before s') : HasN s' c n := Has.mono h hs

theorem hasN_mono {s s' : Known} {cs : List Cell} {ns : List ℕ} (h : List.Forall₂ (HasN s) cs ns) (hs : s.Before s') :
    List.Forall₂ (HasN s') cs ns := h.imp fun _ _ h => h.mono hs

theorem HasN.val {c : Cell} {n : ℕ} (h : HasN s c n) (hn : n < r) {w : Cell → Fr} (hw : Keeps s w) : (w c).val = n := by
  rw [Has.keep h hw, DkgCircuit.val_cast hn]

theorem runs_witness {f : (Cell → Fr) → ℕ} {n : ℕ} (hf : ∀ w, Keeps s w → f w = n) :
    Runs X (witness f) s fun a s' => HasN s' a n := by
  intro c hc
  refine runsAt_bind (Q := fun x c' s' => c' = c ∧ HasN s' x n ∧ Upto s' c)
    (runsAt_assignAdvice ((n : ℕ) : Fr) (congrArg _ (hf _ (keeps_self s))) (fun u hm => absurd hm (hc.not_mem 0)) fun s' _ h2 h3 =>
      ⟨rfl, h3, hc.upto.insert h2⟩) ?_
  rintro x c' s' - ⟨rfl, h2, h3⟩
  refine runsAt_bind (Q := fun _ c1 s1 => Fresh s1 c1 ∧ HasN s1 x n)
    (runsAt_next ⟨h3.next, h2⟩) ?_
  rintro _ c1 s1 - h
  exact runsAt_pure h

theorem runs_toBitsN {a : Cell} {v : Fr} {n : ℕ} (ha : Has s a v) (h0 : 0 < n) (hv : v.val < 2 ^ n) :
    Runs X (toBits a n) s fun _ _ => True := by
  have hb : Runs X (mapS (fun i => assignBit fun _ w => bitOf (w a) i) (List.range n)) s fun bits s' =>
      List.Forall₂ (fun c b => Has s' c (Spec.bitCell b)) bits ((List.range n).map v.val.testBit) :=
    runs_bitsOf (f := fun _ w => w a) (fun w hw => ha.keep hw) n
  have hl : ((List.range n).map v.val.testBit).length = n := by rw [List.length_map, List.length_range]
  have hw : (0 : Fr) + wsum 0 (((List.range n).map v.val.testBit).map Spec.bitCell) = v := by
    rw [zero_add, wsum_eq, GrumpkinChip.foldr_bitCell, binary_testBits n _ hv, pow_zero, one_mul, ZMod.natCast_zmod_val]
  unfold toBits
  generalize (List.range n).map v.val.testBit = bs at *
  refine runs_bind hb fun bits s1 b1 h1 => ?_
  refine runs_bind (runs_assignConstant 0) fun z s2 b2 h2 => ?_
  refine runs_bind (R := fun a' s' => Has s' a' v ∧ s2.Before s') ?_ fun sum s3 b3 h3 => ?_
  · intro c hc
    have h1' : List.Forall₂ (Has s2) bits (bs.map Spec.bitCell) :=
      List.forall₂_map_right_iff.2 (h1.imp fun _ _ h => h.mono b2)
    refine runsAt_mono (runsAt_composeRows n 0 bits _ z 0 c s2 (h1.length_eq.trans hl).le h0 (hc.curAcc _) h1' h2) ?_
    rintro a' c' s' - ⟨⟨k1, k2⟩, k3⟩
    rw [hw] at k2
    exact ⟨k1, k2, k3⟩
  · refine runs_bind (R := fun _ s1 => s1 = s3) (runs_constrainEqual h3.1 (ha.mono ((b1.trans b2).trans b3)) rfl) ?_
    rintro _ s4 - rfl
    exact runs_pure trivial

theorem runs_ranged {n N : ℕ} {f : (Cell → Fr) → ℕ} (hf : ∀ w, Keeps s w → f w = N) (h0 : 0 < n) (hN : N < 2 ^ n) (hr : 2 ^ n < r) :
    Runs X (ranged n f) s fun a s' => HasN s' a N := by
  refine runs_bind (runs_witness hf) fun a s1 b1 ha => ?_
  refine runs_bind (runs_toBitsN ha h0 (by rw [DkgCircuit.val_cast (hN.trans hr)]; exact hN)) fun _ s2 b2 _ => ?_
  exact runs_pure (ha.mono b2)

theorem runs_freshInt {f : (Cell → Fr) → ℕ} {V : ℕ} (hf : ∀ w, Keeps s w → f w = V) (hV : V < 2 ^ 254) :
    Runs X (freshInt f) s fun a s' => List.Forall₂ (HasN s') a (digits lB 4 V) := by
  obtain ⟨v0, v1, v2, v3, hv, h0, h1, h2, h3, -⟩ := digits_four hV
  have h68 : 2 ^ 68 < r := DkgCircuit.pow_lt_r (by norm_num)
  have h50 : 2 ^ 50 < r := DkgCircuit.pow_lt_r (by norm_num)
  have e := hv
  unfold digits at e
  rw [List.cons.injEq] at e
  obtain ⟨e0, e⟩ := e
  unfold digits at e
  rw [List.cons.injEq] at e
  obtain ⟨e1, e⟩ := e
  unfold digits at e
  rw [List.cons.injEq] at e
  obtain ⟨e2, e⟩ := e
  unfold digits at e
  rw [List.cons.injEq] at e
  obtain ⟨e3, -⟩ := e
  rw [hv]
  refine runs_bind (runs_ranged (N := v0) (fun w hw => by rw [hf w hw, e0]) (by norm_num) h0 h68) fun a0 s0 b0 k0 => ?_
  have g0 := b0
  refine runs_bind (runs_ranged (N := v1) (fun w hw => by rw [hf w (hw.mono g0), e1]) (by norm_num) h1 h68) fun a1 s1 b1 k1 => ?_
  have g1 := g0.trans b1
  refine runs_bind (runs_ranged (N := v2) (fun w hw => by rw [hf w (hw.mono g1), e2]) (by norm_num) h2 h68) fun a2 s2 b2 k2 => ?_
  have g2 := g1.trans b2
  refine runs_bind (runs_ranged (N := v3) (fun w hw => by rw [hf w (hw.mono g2), e3]) (by norm_num) h3 h50) fun a3 s3 b3 k3 => ?_
  exact runs_pure (.cons (k0.mono (b1.trans (b2.trans b3))) (.cons (k1.mono (b2.trans b3)) (.cons (k2.mono b3) (.cons k3 .nil))))

theorem runs_constCells : ∀ (ns : List ℕ) (s : Known), Runs X (constCells ns) s fun cs s' => List.Forall₂ (HasN s') cs ns
  | [], _ => runs_pure .nil
  | n :: ns, _ => runs_bind (runs_assignConstant _) fun _ _ _ hc =>
      runs_bind (runs_constCells ns _) fun _ _ b hcs => runs_pure (.cons (hc.mono b) hcs)

theorem runs_mulAddN {a b d : Cell} {x y z : ℕ} (ha : HasN s a x) (hb : HasN s b y) (hd : HasN s d z) :
    Runs X (mulAdd a b d) s fun c s' => HasN s' c (x * y + z) :=
  runs_mono (runs_mulAdd ha hb hd) fun c s' _ h => by
    unfold HasN
    rw [Nat.cast_add, Nat.cast_mul]
    exact h

theorem runs_addN {a b : Cell} {x y : ℕ} (ha : HasN s a x) (hb : HasN s b y) :
    Runs X (add a b) s fun c s' => HasN s' c (x + y) :=
  runs_mono (runs_add ha hb) fun c s' _ h => by
    unfold HasN
    rw [Nat.cast_add]
    exact h

theorem runs_addMulS {x : Cell} {v : ℕ} : ∀ (bs ds : List Cell) (bv dv : List ℕ) (s : Known), HasN s x v →
    List.Forall₂ (HasN s) bs bv → List.Forall₂ (HasN s) ds dv →
    Runs X (addMulS x bs ds) s fun es s' => List.Forall₂ (HasN s') es (addMul v bv dv)
  | [], ds, _, dv, s, hx, .nil, hd => runs_pure hd
  | _ :: _, [], _, _, s, hx, .cons _ _, .nil => runs_pure .nil
  | b :: bs, d :: ds, _, _, s, hx, .cons hb hbs, .cons hd hds => by
    refine runs_bind (runs_mulAddN hx hb hd) fun e s1 b1 he => ?_
    refine runs_bind (runs_addMulS bs ds _ _ s1 (hx.mono b1) (hasN_mono hbs b1) (hasN_mono hds b1)) fun es s2 b2 hes => ?_
    exact runs_pure (.cons (he.mono b2) hes)

theorem runs_convS : ∀ (as bs ds : List Cell) (av bv dv : List ℕ) (s : Known), List.Forall₂ (HasN s) as av →
    List.Forall₂ (HasN s) bs bv → List.Forall₂ (HasN s) ds dv →
    Runs X (convS as bs ds) s fun es s' => List.Forall₂ (HasN s') es (conv av bv dv)
  | [], bs, ds, _, bv, dv, s, .nil, hb, hd => runs_pure hd
  | a :: as, bs, ds, _, bv, dv, s, .cons (b := av) (l₂ := avs) ha has, hb, hd => by
    refine runs_bind (runs_addMulS bs ds bv dv s ha hb hd) fun l s1 b1 hl => ?_
    rw [conv]
    generalize addMul av bv dv = lv at hl ⊢
    cases hl with
    | nil => exact runs_pure .nil
    | cons he hes =>
      refine runs_bind (runs_convS as bs _ avs bv _ s1 (hasN_mono has b1) (hasN_mono hb b1) hes) fun es' s2 b2 h => ?_
      exact runs_pure (.cons (he.mono b2) h)

theorem runs_carryS {base off : Cell} : ∀ (ls rs : List Cell) (u : Cell) (lv rv : List ℕ) (uv : ℕ) (s : Known),
    HasN s base lB → HasN s off lOff → List.Forall₂ (HasN s) ls lv → List.Forall₂ (HasN s) rs rv → HasN s u uv →
    lv.length = rv.length → (∀ x ∈ lv, x < lD) → (∀ x ∈ rv, x < lD) → uv < 2 ^ 75 → ev lB lv + uv = ev lB rv + lO →
    Runs X (carryS base off ls rs u) s fun v s' => HasN s' v lO
  | [], [], u, _, _, uv, s, _, _, .nil, .nil, hu, _, _, _, _, he => runs_pure (by
      have : uv = lO := by simpa [ev] using he
      rw [← this]
      exact hu)
  | [], _ :: _, _, _, _, _, _, _, _, .nil, .cons _ _, _, h, _, _, _, _ => absurd h (by simp)
  | _ :: _, [], _, _, _, _, _, _, _, .cons _ _, .nil, _, h, _, _, _, _ => absurd h (by simp)
  | l :: ls, r' :: rs, u, _, _, uv, s, hb, ho, .cons (b := x) (l₂ := lv) hl hls, .cons (b := y) (l₂ := rv) hr hrs, hu, hn, h1, h2, h3, he => by
    obtain ⟨g1, g2, g4, g5, g6, g7, g8, g9, g10, g11, g3, g12⟩ := lBounds
    have hx := h1 x List.mem_cons_self
    have hy := h2 y List.mem_cons_self
    rw [ev, ev] at he
    obtain ⟨k1, k2, k3⟩ := honest_step lB_pos lOff_add hx hy g6 h3 g7 he
    generalize hv' : (x + uv + lOff - y) / lB = v at k1 k2 k3
    refine runs_bind (runs_ranged (N := v) (fun w hw => ?_) (by norm_num) k3 g3) fun vc s1 b1 hv => ?_
    · rw [hl.val (hx.trans g12) hw, hu.val (h3.trans g3) hw, hr.val (hy.trans g12) hw, hv']
    refine runs_bind (runs_addN (hl.mono b1) (hu.mono b1)) fun a s2 b2 ha => ?_
    refine runs_bind (runs_addN ha (ho.mono (b1.trans b2))) fun a' s3 b3 ha' => ?_
    have c3 := (b1.trans b2).trans b3
    refine runs_bind (runs_mulAddN (hb.mono c3) (hv.mono (b2.trans b3)) (hr.mono c3)) fun t s4 b4 ht => ?_
    rw [Nat.add_comm, ← k2] at ht
    refine runs_bind (R := fun _ s' => s' = s4) (runs_constrainEqual (ha'.mono b4) ht rfl) ?_
    rintro _ s5 - rfl
    have c4 := c3.trans b4
    refine runs_carryS ls rs vc lv rv v s5 (hb.mono c4) (ho.mono c4) (hasN_mono hls c4) (hasN_mono hrs c4)
      (hv.mono ((b2.trans b3).trans b4)) (Nat.succ.inj hn) (fun z hz => h1 z (List.mem_cons_of_mem _ hz))
      (fun z hz => h2 z (List.mem_cons_of_mem _ hz)) k3 ?_
    rw [Nat.add_comm]
    exact k1

theorem natOf_keep {w : Cell → Fr} (hw : Keeps s w) : ∀ {a : List Cell} {ns : List ℕ}, List.Forall₂ (HasN s) a ns →
    (∀ n ∈ ns, n < lB) → natOf w a = ev lB ns := by
  intro a ns h hn
  unfold natOf
  refine congrArg _ ?_
  obtain ⟨-, -, -, -, -, -, -, -, -, g11, -⟩ := lBounds
  induction h with
  | nil => rfl
  | cons hx _ ih =>
    rw [List.map_cons, hx.val ((hn _ List.mem_cons_self).trans g11) hw, ih fun n h => hn n (List.mem_cons_of_mem _ h)]

/-- The integer has been filled with the limbs of the remainder. -/
def LimbIs (s : Known) (a : List Cell) (x : Fq) : Prop := List.Forall₂ (HasN s) a (digits lB 4 x.val)

theorem LimbIs.mono {s s' : Known} {a : List Cell} {x : Fq} (h : LimbIs s a x) (hs : s.Before s') : LimbIs s' a x :=
  hasN_mono h hs

theorem ev_val (x : Fq) : ev lB (digits lB 4 x.val) = x.val := by
  obtain ⟨v0, v1, v2, v3, hv, -, -, -, -, he⟩ := digits_four (lt_trans (ZMod.val_lt x) q_lt_254)
  rw [hv, he]

theorem LimbIs.nat {a : List Cell} {x : Fq} (h : LimbIs s a x) {w : Cell → Fr} (hw : Keeps s w) : natOf w a = x.val := by
  rw [natOf_keep hw h (digits_lt lB_pos 4 _), ev_val]

theorem LimbIs.fq {a : List Cell} {x : Fq} (h : LimbIs s a x) {w : Cell → Fr} (hw : Keeps s w) : fqOf w a = x := by
  rw [fqOf, h.nat hw, ZMod.natCast_zmod_val]

theorem conv_digits_lt {x y z n : ℕ} (hn : n = 4) : ∀ e ∈ conv (digits lB n x) (digits lB n y) (digits lB n z ++ [0, 0, 0]), e < lD := by
  intro e he
  obtain ⟨-, -, g4, -⟩ := lBounds
  have := conv_lt (M := lB) _ _ _ lB (digits_lt lB_pos n x) (digits_lt lB_pos n y) (fun d hd => by
    rcases List.mem_append.1 hd with hd | hd
    · exact digits_lt lB_pos n z d hd
    · have : d = 0 := by simpa using hd
      rw [this]
      exact lB_pos) e he
  rw [length_digits, hn] at this
  omega

theorem ev_conv_digits {x y z n : ℕ} (hn : n = 4) : ev lB (conv (digits lB n x) (digits lB n y) (digits lB n z ++ [0, 0, 0])) =
    ev lB (digits lB n x) * ev lB (digits lB n y) + ev lB (digits lB n z) := by
  rw [ev_conv _ _ _ (by rw [List.length_append, length_digits, length_digits, length_digits, hn]; decide), ev_append_zero]

theorem mul_add_lt {a b c m : ℕ} (ha : a < m) (hb : b < m) (hc : c < m) : a * b + c < m * m := by
  obtain ⟨k, rfl⟩ : ∃ k, m = k + 1 := ⟨m - 1, by omega⟩
  have : a * b ≤ k * k := Nat.mul_le_mul (by omega) (by omega)
  nlinarith

theorem quotient_eq {x y z w : Fq} (h : x * y + z = w) : x.val * y.val + z.val = q * ((x.val * y.val + z.val) / q) + w.val ∧
    (x.val * y.val + z.val) / q < 2 ^ 254 := by
  have hx := ZMod.val_lt x
  have hy := ZMod.val_lt y
  have hz := ZMod.val_lt z
  constructor
  · have e : w.val = (x.val * y.val + z.val) % q := by
      rw [← ZMod.val_natCast, Nat.cast_add, Nat.cast_mul, ZMod.natCast_zmod_val, ZMod.natCast_zmod_val, ZMod.natCast_zmod_val, h]
    rw [e, Nat.div_add_mod]
  · refine lt_trans ?_ q_lt_254
    apply Nat.div_lt_of_lt_mul
    generalize x.val = a at *
    generalize y.val = b at *
    generalize z.val = c at *
    exact mul_add_lt hx hy hz

theorem runs_mulCheck {a b d c : List Cell} {x y z w : Fq} (ha : LimbIs s a x) (hb : LimbIs s b y) (hd : LimbIs s d z)
    (hc : LimbIs s c w) (h : x * y + z = w) : Runs X (mulCheck a b d c) s fun _ _ => True := by
  obtain ⟨g1, g2, g4, g5, g6, g7, g8, g9, g10, g11, g3, g12⟩ := lBounds
  obtain ⟨hk1, hk2⟩ := quotient_eq h
  refine runs_bind (runs_freshInt (V := (x.val * y.val + z.val) / q) (fun v hv => ?_) hk2) fun k s1 b1 hk => ?_
  · rw [ha.nat hv, hb.nat hv, hd.nat hv]
  have ek : ev lB (digits lB 4 ((x.val * y.val + z.val) / q)) = (x.val * y.val + z.val) / q := by
    obtain ⟨v0, v1, v2, v3, hv, -, -, -, -, he⟩ := digits_four hk2
    rw [hv, he]
  refine runs_bind (runs_assignConstant _) fun zero s2 b2 hz => ?_
  refine runs_bind (runs_assignConstant _) fun base s3 b3 hbase => ?_
  refine runs_bind (runs_assignConstant _) fun off s4 b4 hoff => ?_
  refine runs_bind (runs_assignConstant _) fun u s5 b5 hu => ?_
  refine runs_bind (runs_constCells _ s5) fun m s6 b6 hm => ?_
  have c6 : s.Before s6 := b1.trans (b2.trans (b3.trans (b4.trans (b5.trans b6))))
  have hz6 : HasN s6 zero 0 := hz.mono (b3.trans (b4.trans (b5.trans b6)))
  have hk6 := hasN_mono hk (b2.trans (b3.trans (b4.trans (b5.trans b6))))
  have pad : ∀ {e : List Cell} {v : Fq}, LimbIs s6 e v → List.Forall₂ (HasN s6) (e ++ [zero, zero, zero]) (digits lB 4 v.val ++ [0, 0, 0]) :=
    fun he => List.rel_append he (.cons hz6 (.cons hz6 (.cons hz6 .nil)))
  refine runs_bind (runs_convS a b _ _ _ _ s6 (ha.mono c6) (hb.mono c6) (pad (hd.mono c6))) fun l s7 b7 hl => ?_
  refine runs_bind (runs_convS m k _ _ _ _ s7 (hasN_mono hm b7) (hasN_mono hk6 b7) (hasN_mono (pad (hc.mono c6)) b7)) fun e s8 b8 he => ?_
  have c8 := b7.trans b8
  refine runs_bind (runs_carryS l e u _ _ lO s8 (hbase.mono (b4.trans (b5.trans (b6.trans c8))))
    (hoff.mono (b5.trans (b6.trans c8))) (hasN_mono hl b8) he (hu.mono (b6.trans c8)) ?_ (conv_digits_lt rfl) (conv_digits_lt rfl) g8 ?_)
    fun v s9 b9 hv => ?_
  · rw [length_conv, length_conv, List.length_append, List.length_append, length_digits, length_digits]
  · rw [ev_conv_digits rfl, ev_conv_digits rfl, ev_val, ev_val, ev_val, ev_val, q_digits, ek, ← hk1]
  · exact runs_constrainEqual hv (hu.mono (b6.trans (c8.trans b9))) trivial

theorem runs_freshFq {f : (Cell → Fr) → Fq} {x : Fq} (hf : ∀ w, Keeps s w → f w = x) :
    Runs X (freshFq f) s fun a s' => LimbIs s' a x :=
  runs_freshInt (fun w hw => by rw [hf w hw]) (lt_trans (ZMod.val_lt x) q_lt_254)

theorem runs_limbConst (k : Fq) : Runs X (limbConst k) s fun c s' => LimbIs s' c k := runs_constCells _ s

theorem runs_limbAdd {a b : List Cell} {x y : Fq} (ha : LimbIs s a x) (hb : LimbIs s b y) :
    Runs X (limbAdd a b) s fun c s' => LimbIs s' c (x + y) := by
  refine runs_bind (runs_limbConst 1) fun one s1 b1 h1 => ?_
  refine runs_bind (runs_freshFq (x := x + y) fun w hw => by rw [(ha.mono b1).fq hw, (hb.mono b1).fq hw]) fun c s2 b2 h2 => ?_
  refine runs_bind (runs_mulCheck (ha.mono (b1.trans b2)) (h1.mono b2) (hb.mono (b1.trans b2)) h2 (by rw [mul_one]))
    fun _ s3 b3 _ => runs_pure (h2.mono b3)

theorem runs_limbSub {a b : List Cell} {x y : Fq} (ha : LimbIs s a x) (hb : LimbIs s b y) :
    Runs X (limbSub a b) s fun c s' => LimbIs s' c (x - y) := by
  refine runs_bind (runs_limbConst 1) fun one s1 b1 h1 => ?_
  refine runs_bind (runs_freshFq (x := x - y) fun w hw => by rw [(ha.mono b1).fq hw, (hb.mono b1).fq hw]) fun c s2 b2 h2 => ?_
  refine runs_bind (runs_mulCheck h2 (h1.mono b2) (hb.mono (b1.trans b2)) (ha.mono (b1.trans b2)) (by rw [mul_one, sub_add_cancel]))
    fun _ s3 b3 _ => runs_pure (h2.mono b3)

theorem runs_limbMul {a b : List Cell} {x y : Fq} (ha : LimbIs s a x) (hb : LimbIs s b y) :
    Runs X (limbMul a b) s fun c s' => LimbIs s' c (x * y) := by
  refine runs_bind (runs_limbConst 0) fun zero s1 b1 h1 => ?_
  refine runs_bind (runs_freshFq (x := x * y) fun w hw => by rw [(ha.mono b1).fq hw, (hb.mono b1).fq hw]) fun c s2 b2 h2 => ?_
  refine runs_bind (runs_mulCheck (ha.mono (b1.trans b2)) (hb.mono (b1.trans b2)) (h1.mono b2) h2 (by rw [add_zero]))
    fun _ s3 b3 _ => runs_pure (h2.mono b3)

theorem runs_limbDiv {a b : List Cell} {x y : Fq} (ha : LimbIs s a x) (hb : LimbIs s b y) (hy : y ≠ 0) :
    Runs X (limbDiv a b) s fun c s' => LimbIs s' c (x / y) := by
  refine runs_bind (runs_limbConst 0) fun zero s1 b1 h1 => ?_
  refine runs_bind (runs_freshFq (x := x / y) fun w hw => by rw [(ha.mono b1).fq hw, (hb.mono b1).fq hw]) fun c s2 b2 h2 => ?_
  refine runs_bind (runs_mulCheck h2 (hb.mono (b1.trans b2)) (h1.mono b2) (ha.mono (b1.trans b2))
    (by rw [add_zero, div_mul_cancel₀ _ hy])) fun _ s3 b3 _ => runs_pure (h2.mono b3)

theorem runs_limbInv {a : List Cell} {x : Fq} (ha : LimbIs s a x) (hx : x ≠ 0) :
    Runs X (limbInv a) s fun c s' => LimbIs s' c x⁻¹ := by
  refine runs_bind (runs_limbConst 1) fun one s1 b1 h1 => ?_
  refine runs_mono (runs_limbDiv h1 (ha.mono b1) hx) fun c s2 _ h => ?_
  rw [one_div] at h
  exact h

theorem runs_limbNotZero {a : List Cell} {x : Fq} (ha : LimbIs s a x) (hx : x ≠ 0) : Runs X (limbNotZero a) s fun _ _ => True :=
  runs_bind (runs_limbInv ha hx) fun _ _ _ _ => runs_pure trivial

theorem runs_limbNeg {a : List Cell} {x : Fq} (ha : LimbIs s a x) : Runs X (limbNeg a) s fun c s' => LimbIs s' c (-x) := by
  refine runs_bind (runs_limbConst 0) fun zero s1 b1 h1 => ?_
  refine runs_mono (runs_limbSub h1 (ha.mono b1)) fun c s2 _ h => ?_
  rw [zero_sub] at h
  exact h

theorem runs_limbSubSub {a b c : List Cell} {x y z : Fq} (ha : LimbIs s a x) (hb : LimbIs s b y) (hc : LimbIs s c z) :
    Runs X (limbSubSub a b c) s fun d s' => LimbIs s' d (x - y - z) :=
  runs_bind (runs_limbSub ha hb) fun _ _ b1 h1 => runs_limbSub h1 (hc.mono b1)

theorem runs_limbNotEqual {a b : List Cell} {x y : Fq} (ha : LimbIs s a x) (hb : LimbIs s b y) (h : x ≠ y) :
    Runs X (limbNotEqual a b) s fun _ _ => True :=
  runs_bind (runs_limbSub ha hb) fun _ _ _ h1 => runs_limbNotZero h1 (sub_ne_zero.2 h)

theorem runs_limbMul2 {a : List Cell} {x : Fq} (ha : LimbIs s a x) : Runs X (limbAdd a a) s fun c s' => LimbIs s' c (2 * x) :=
  runs_mono (runs_limbAdd ha ha) fun c s' _ h => by
    rw [← two_mul] at h
    exact h

theorem runs_limbSelect {cond : Cell} {bit : Bool} : ∀ (as bs : List Cell) (av bv : List ℕ) (s : Known),
    List.Forall₂ (HasN s) as av → List.Forall₂ (HasN s) bs bv → av.length = bv.length → Has s cond (if bit then 1 else 0) →
    Runs X (limbSelect cond as bs) s fun cs s' => List.Forall₂ (HasN s') cs (if bit then av else bv)
  | [], [], _, _, _, .nil, .nil, _, _ => runs_pure (by cases bit <;> exact .nil)
  | [], _ :: _, _, _, _, .nil, .cons _ _, h, _ => absurd h (by simp)
  | _ :: _, [], _, _, _, .cons _ _, .nil, h, _ => absurd h (by simp)
  | a :: as, b :: bs, _, _, s, .cons ha has, .cons hb hbs, h, hc => by
    refine runs_bind (runs_select ha hb hc) fun c s1 b1 h1 => ?_
    refine runs_bind (runs_limbSelect as bs _ _ s1 (hasN_mono has b1) (hasN_mono hbs b1) (Nat.succ.inj h) (hc.mono b1))
      fun cs s2 b2 h2 => runs_pure ?_
    cases bit
    · rw [if_neg Bool.false_ne_true] at h1 h2 ⊢
      rw [zero_mul, zero_add] at h1
      exact .cons (h1.mono b2) h2
    · rw [if_pos rfl] at h1 h2 ⊢
      rw [one_mul, sub_add_cancel] at h1
      exact .cons (h1.mono b2) h2

theorem runs_limbSel {a b : List Cell} {cond : Cell} {x y : Fq} {bit : Bool} (ha : LimbIs s a x) (hb : LimbIs s b y)
    (hc : Has s cond (if bit then 1 else 0)) : Runs X (limbSelect cond a b) s fun c s' => LimbIs s' c (if bit then x else y) :=
  runs_mono (runs_limbSelect a b _ _ s ha hb (by rw [length_digits, length_digits]) hc) fun c s' _ h => by
    cases bit
    · exact h
    · exact h

theorem limbIs_vals {a : List Cell} {x : Fq} (h : LimbIs s a x) : List.Forall₂ (Has s) a
    ((List.range numberOfLimbs).map fun i => ((x.val / 2 ^ (68 * i) % 2 ^ 68 : ℕ) : Fr)) := by
  unfold LimbIs at h
  rw [digits_eq, List.forall₂_map_right_iff] at h
  rw [List.forall₂_map_right_iff]
  refine h.imp fun c i h => ?_
  unfold HasN at h
  have e : lB = 2 ^ 68 := rfl
  rw [e, ← pow_mul] at h
  exact h

theorem runs_limbReduce {a : List Cell} {x : Fq} (ha : LimbIs s a x) : Runs X (limbReduce a) s fun (c : List Cell) s' => LimbIs s' c x ∧
    List.Forall₂ (Has s') c ((List.range numberOfLimbs).map fun i => ((x.val / 2 ^ (68 * i) % 2 ^ 68 : ℕ) : Fr)) := by
  refine runs_bind (runs_limbConst 0) fun zero s1 b1 h1 => ?_
  refine runs_mono (runs_limbAdd (ha.mono b1) h1) fun c s2 _ h => ?_
  rw [add_zero] at h
  exact ⟨h, limbIs_vals h⟩

theorem limbChip_complete (X : Setting) : limbChip.Complete X LimbIs where
  mono s s' i x hs h := LimbIs.mono h hs
  assignConstant s k := runs_limbConst k
  add s a b x y ha hb := runs_limbAdd ha hb
  sub s a b x y ha hb := runs_limbSub ha hb
  subSub s a b c x y z ha hb hc := runs_limbSubSub ha hb hc
  neg s a x ha := runs_limbNeg ha
  mul s a b x y ha hb := runs_limbMul ha hb
  mul2 s a x ha := runs_limbMul2 ha
  square s a x ha := runs_limbMul ha ha
  divIncomplete s a b x y ha hb hy := runs_limbDiv ha hb hy
  invertIncomplete s a x ha hx := runs_limbInv ha hx
  assertNotZero s a x ha hx := runs_limbNotZero ha hx
  assertNotEqual s a b x y ha hb hxy := runs_limbNotEqual ha hb hxy
  select s a b cond x y bit ha hb hc := runs_limbSel ha hb hc
  reduce s a x ha := runs_limbReduce ha

end Verif.Layout
