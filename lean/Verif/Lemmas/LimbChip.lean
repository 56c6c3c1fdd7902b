import Verif.Lemmas.LimbNat
import Verif.Lemmas.LayoutTree

/-!
An integer chip of moderate size that meets the requirements: an integer has four limbs of 68, 68, 68 and 50 bits, every
operation is one check of `a * b + d = q * k + c` over the integers, with carries in range.  It shows that the
requirements on the external chip can be met by a circuit that fits into the rows of a domain; it is not a chip of the
code.
-/

namespace Verif.Layout
open Verif Spec Limb

/-- The base of the limbs. -/
def lB : ℕ := 2 ^ 68
/-- The shift of the carries. -/
def lO : ℕ := 2 ^ 73
/-- What is added in every step for the shift. -/
def lOff : ℕ := (2 ^ 68 - 1) * 2 ^ 73

theorem lB_pos : 0 < lB := by decide +kernel
theorem lOff_add : lOff + lO = lB * lO := by decide +kernel

/-- The number in the cells. -/
def natOf (w : Cell → Fr) (a : List Cell) : ℕ := ev lB (a.map fun c => (w c).val)

/-- A cell with a number. -/
def witness (f : (Cell → Fr) → ℕ) : Synth Cell := do
  let a ← assignAdvice 0 (fun _ w => ((f w : ℕ) : Fr))
  next
  pure a

/-- A cell with a number of `n` bits. -/
def ranged (n : ℕ) (f : (Cell → Fr) → ℕ) : Synth Cell := do
  let a ← witness f
  let _ ← toBits a n
  pure a

/-- Limbs of a number. -/
def freshInt (f : (Cell → Fr) → ℕ) : Synth (List Cell) := do
  let a0 ← ranged 68 fun w => f w % lB
  let a1 ← ranged 68 fun w => f w / lB % lB
  let a2 ← ranged 68 fun w => f w / lB / lB % lB
  let a3 ← ranged 50 fun w => f w / lB / lB / lB % lB
  pure [a0, a1, a2, a3]

/-- Cells with constants. -/
def constCells (ns : List ℕ) : Synth (List Cell) := mapS (fun n : ℕ => assignConstant (n : Fr)) ns

/-- The multiple of `bs` by `x` added to `ds`. -/
def addMulS (x : Cell) : List Cell → List Cell → Synth (List Cell)
  | [], ds => pure ds
  | _ :: _, [] => pure []
  | b :: bs, d :: ds => do
    let e ← mulAdd x b d
    let es ← addMulS x bs ds
    pure (e :: es)

/-- The product of `as` and `bs` added to `ds`. -/
def convS : List Cell → List Cell → List Cell → Synth (List Cell)
  | [], _, ds => pure ds
  | a :: as, bs, ds => do
    let l ← addMulS a bs ds
    match l with
    | [] => pure []
    | e :: es => do
      let es' ← convS as bs es
      pure (e :: es')

/-- The chain of the carries. -/
def carryS (base off : Cell) : List Cell → List Cell → Cell → Synth Cell
  | l :: ls, r :: rs, u => do
    let v ← ranged 75 fun w => ((w l).val + (w u).val + lOff - (w r).val) / lB
    let s ← add l u
    let s' ← add s off
    let t ← mulAdd base v r
    assertEqual s' t
    carryS base off ls rs v
  | _, _, u => pure u

/-- `a * b + d = c` modulo `q`. -/
def mulCheck (a b d c : List Cell) : Synth Unit := do
  let k ← freshInt fun w => (natOf w a * natOf w b + natOf w d) / q
  let zero ← assignConstant ((0 : ℕ) : Fr)
  let base ← assignConstant (lB : Fr)
  let off ← assignConstant (lOff : Fr)
  let u ← assignConstant (lO : Fr)
  let m ← constCells (digits lB 4 q)
  let l ← convS a b (d ++ [zero, zero, zero])
  let e ← convS m k (c ++ [zero, zero, zero])
  let v ← carryS base off l e u
  assertEqual v u

/-- An integer with a value computed from all cells. -/
def freshFq (f : (Cell → Fr) → Fq) : Synth (List Cell) := freshInt fun w => (f w).val

/-- The value of an integer. -/
def fqOf (w : Cell → Fr) (a : List Cell) : Fq := ((natOf w a : ℕ) : Fq)

/-- A constant. -/
def limbConst (k : Fq) : Synth (List Cell) := constCells (digits lB 4 k.val)

def limbAdd (a b : List Cell) : Synth (List Cell) := do
  let one ← limbConst 1
  let c ← freshFq fun w => fqOf w a + fqOf w b
  mulCheck a one b c
  pure c

def limbSub (a b : List Cell) : Synth (List Cell) := do
  let one ← limbConst 1
  let c ← freshFq fun w => fqOf w a - fqOf w b
  mulCheck c one b a
  pure c

def limbMul (a b : List Cell) : Synth (List Cell) := do
  let zero ← limbConst 0
  let c ← freshFq fun w => fqOf w a * fqOf w b
  mulCheck a b zero c
  pure c

def limbDiv (a b : List Cell) : Synth (List Cell) := do
  let zero ← limbConst 0
  let c ← freshFq fun w => fqOf w a / fqOf w b
  mulCheck c b zero a
  pure c

def limbNeg (a : List Cell) : Synth (List Cell) := do
  let zero ← limbConst 0
  limbSub zero a

def limbInv (a : List Cell) : Synth (List Cell) := do
  let one ← limbConst 1
  limbDiv one a

def limbNotZero (a : List Cell) : Synth Unit := do
  let _ ← limbInv a
  pure ()

/-- Limb by limb. -/
def limbSelect (cond : Cell) : List Cell → List Cell → Synth (List Cell)
  | a :: as, b :: bs => do
    let c ← select a b cond
    let cs ← limbSelect cond as bs
    pure (c :: cs)
  | _, _ => pure []

def limbSubSub (a b c : List Cell) : Synth (List Cell) := do
  let d ← limbSub a b
  limbSub d c

def limbNotEqual (a b : List Cell) : Synth Unit := do
  let d ← limbSub a b
  limbNotZero d

def limbReduce (a : List Cell) : Synth (List Cell) := do
  let zero ← limbConst 0
  limbAdd a zero

/-- The chip. -/
def limbChip : IntegerImpl where
  I := List Cell
  limbs := id
  assignConstant := limbConst
  add := limbAdd
  sub := limbSub
  subSub := limbSubSub
  neg := limbNeg
  mul := limbMul
  mul2 a := limbAdd a a
  square a := limbMul a a
  divIncomplete := limbDiv
  invertIncomplete := limbInv
  assertNotZero := limbNotZero
  assertNotEqual := limbNotEqual
  select a b cond := limbSelect cond a b
  reduce := limbReduce

/-! ### Correctness -/

section
variable {T : Table}

/-- The number in a cell. -/
abbrev nv (T : Table) (c : Cell) : ℕ := (T.cell c).val

theorem nat_of_fr {a b : ℕ} (h : (a : Fr) = b) (ha : a < r) (hb : b < r) : a = b := by
  rw [← DkgCircuit.val_cast ha, h, DkgCircuit.val_cast hb]

theorem ens_ranged {n : ℕ} (hn : 2 ^ n < r) (f : (Cell → Fr) → ℕ) : Ensures T (ranged n f) fun c => nv T c < 2 ^ n := by
  refine ens_bind (R := fun _ => True) (fun _ _ _ _ => trivial) fun a _ => ?_
  refine ens_bind (ens_toBits a n) fun bits hb => ens_pure ?_
  obtain ⟨bs, -, hl, hv⟩ := GrumpkinChip.toBits_iff.1 hb
  have h1 := GrumpkinChip.binary_lt bs
  rw [hl] at h1
  rw [nv, ← hv, DkgCircuit.val_cast (h1.trans hn)]
  exact h1

/-- Four limbs in range. -/
def Limbs (T : Table) (a : List Cell) : Prop :=
  ∃ a0 a1 a2 a3, a = [a0, a1, a2, a3] ∧ nv T a0 < 2 ^ 68 ∧ nv T a1 < 2 ^ 68 ∧ nv T a2 < 2 ^ 68 ∧ nv T a3 < 2 ^ 50

theorem Limbs.length {a : List Cell} (h : Limbs T a) : a.length = 4 := by
  obtain ⟨a0, a1, a2, a3, rfl, -⟩ := h
  rfl

theorem pow50_le : 2 ^ 50 ≤ lB := by decide +kernel

theorem Limbs.lt {a : List Cell} (h : Limbs T a) : ∀ x ∈ a.map (nv T), x < lB := by
  obtain ⟨a0, a1, a2, a3, rfl, h0, h1, h2, h3⟩ := h
  intro x hx
  simp only [List.map_cons, List.map_nil, List.mem_cons, List.not_mem_nil, or_false] at hx
  rcases hx with rfl | rfl | rfl | rfl
  · exact h0
  · exact h1
  · exact h2
  · exact lt_of_lt_of_le h3 pow50_le

theorem ens_freshInt (f : (Cell → Fr) → ℕ) : Ensures T (freshInt f) (Limbs T) := by
  have h68 : 2 ^ 68 < r := DkgCircuit.pow_lt_r (by norm_num)
  have h50 : 2 ^ 50 < r := DkgCircuit.pow_lt_r (by norm_num)
  refine ens_bind (ens_ranged h68 _) fun a0 h0 => ?_
  refine ens_bind (ens_ranged h68 _) fun a1 h1 => ?_
  refine ens_bind (ens_ranged h68 _) fun a2 h2 => ?_
  refine ens_bind (ens_ranged h50 _) fun a3 h3 => ?_
  exact ens_pure ⟨a0, a1, a2, a3, rfl, h0, h1, h2, h3⟩

theorem ens_constNat {n : ℕ} (hn : n < r) : Ensures T (assignConstant (n : Fr)) fun c => nv T c = n := by
  refine ens_mono (ens_assignConstant _) fun c h => ?_
  rw [nv, GrumpkinChip.assignConstant_gate_iff.1 h, DkgCircuit.val_cast hn]

theorem ens_constCells : ∀ ns : List ℕ, (∀ n ∈ ns, n < r) → Ensures T (constCells ns) fun cs => cs.map (nv T) = ns
  | [], _ => ens_pure rfl
  | n :: ns, h => by
    refine ens_bind (ens_constNat (h n List.mem_cons_self)) fun c hc => ?_
    refine ens_bind (ens_constCells ns fun m hm => h m (List.mem_cons_of_mem _ hm)) fun cs hcs => ens_pure ?_
    rw [List.map_cons, hc, hcs]

theorem ens_mulAddNat {a b d : Cell} (h : nv T a * nv T b + nv T d < r) :
    Ensures T (mulAdd a b d) fun c => nv T c = nv T a * nv T b + nv T d := by
  refine ens_mono (ens_mulAdd a b d) fun c hc => ?_
  rw [GrumpkinChip.mulAdd_iff] at hc
  have e : T.cell c = ((nv T a * nv T b + nv T d : ℕ) : Fr) := by
    rw [hc, Nat.cast_add, Nat.cast_mul, DkgCircuit.cast_val, DkgCircuit.cast_val, DkgCircuit.cast_val]
  show (T.cell c).val = _
  rw [e, DkgCircuit.val_cast h]

theorem ens_addNat {a b : Cell} (h : nv T a + nv T b < r) : Ensures T (add a b) fun c => nv T c = nv T a + nv T b := by
  refine ens_mono (ens_add a b) fun c hc => ?_
  rw [GrumpkinChip.add_gate_iff] at hc
  have e : T.cell c = ((nv T a + nv T b : ℕ) : Fr) := by
    rw [hc, Nat.cast_add, DkgCircuit.cast_val, DkgCircuit.cast_val]
  show (T.cell c).val = _
  rw [e, DkgCircuit.val_cast h]

theorem ens_addMulS {x : Cell} {M D : ℕ} (hx : nv T x < M) (hr : D + M * M ≤ r) : ∀ bs ds : List Cell,
    (∀ b ∈ bs.map (nv T), b < M) → (∀ d ∈ ds.map (nv T), d < D) →
    Ensures T (addMulS x bs ds) fun es => es.map (nv T) = addMul (nv T x) (bs.map (nv T)) (ds.map (nv T))
  | [], ds, _, _ => ens_pure rfl
  | _ :: _, [], _, _ => ens_pure rfl
  | b :: bs, d :: ds, hb, hd => by
    have h1 := hb (nv T b) List.mem_cons_self
    have h2 := hd (nv T d) List.mem_cons_self
    have h3 : nv T x * nv T b ≤ M * M := Nat.mul_le_mul hx.le h1.le
    refine ens_bind (ens_mulAddNat (by omega)) fun e he => ?_
    refine ens_bind (ens_addMulS hx hr bs ds (fun y hy => hb y (List.mem_cons_of_mem _ hy))
      fun y hy => hd y (List.mem_cons_of_mem _ hy)) fun es hes => ens_pure ?_
    rw [List.map_cons, he, hes]
    rfl

theorem ens_convS {M : ℕ} : ∀ (as bs ds : List Cell) (D : ℕ), D + as.length * (M * M) ≤ r → (∀ a ∈ as.map (nv T), a < M) →
    (∀ b ∈ bs.map (nv T), b < M) → (∀ d ∈ ds.map (nv T), d < D) →
    Ensures T (convS as bs ds) fun es => es.map (nv T) = conv (as.map (nv T)) (bs.map (nv T)) (ds.map (nv T))
  | [], bs, ds, D, _, _, _, _ => ens_pure rfl
  | a :: as, bs, ds, D, hr, ha, hb, hd => by
    rw [List.length_cons, Nat.succ_mul] at hr
    have h1 := addMul_lt (ha (nv T a) List.mem_cons_self) _ _ hb hd
    refine ens_bind (ens_addMulS (ha (nv T a) List.mem_cons_self) (D := D) (by omega) bs ds hb hd) fun l hl => ?_
    rw [List.map_cons, conv, ← hl]
    rw [← hl] at h1
    rcases l with _ | ⟨e, es⟩
    · exact ens_pure rfl
    · refine ens_bind (ens_convS as bs es (D + M * M) (by omega) (fun y hy => ha y (List.mem_cons_of_mem _ hy)) hb
        fun y hy => h1 y (List.mem_cons_of_mem _ hy)) fun es' h => ens_pure ?_
      rw [List.map_cons, h]
      rfl

/-- Bounds of the entries of the products. -/
def lD : ℕ := 2 ^ 140

theorem lBounds : lD + 2 ^ 75 + lOff < r ∧ lB * 2 ^ 75 + lD < r ∧ lB + 4 * (lB * lB) ≤ lD ∧ lB + 4 * (lB * lB) ≤ r ∧ lD ≤ lOff ∧
    lD + 2 ^ 75 + lOff ≤ 2 ^ 75 * lB ∧ lO < 2 ^ 75 ∧ lOff < r ∧ lO < r ∧ lB < r ∧ 2 ^ 75 < r ∧ lD < r := by decide +kernel

theorem ens_carryS {base off : Cell} (hb : nv T base = lB) (ho : nv T off = lOff) : ∀ (ls rs : List Cell) (u : Cell),
    ls.length = rs.length → (∀ x ∈ ls.map (nv T), x < lD) → (∀ x ∈ rs.map (nv T), x < lD) → nv T u < 2 ^ 75 →
    Ensures T (carryS base off ls rs u) fun v =>
      ev lB (ls.map (nv T)) + nv T u + lB ^ ls.length * lO = ev lB (rs.map (nv T)) + lB ^ ls.length * nv T v + lO
  | [], [], u, _, _, _, _ => ens_pure (by simp only [List.map_nil, List.length_nil, pow_zero, one_mul, ev])
  | [], _ :: _, _, h, _, _, _ => absurd h (by simp)
  | _ :: _, [], _, h, _, _, _ => absurd h (by simp)
  | l :: ls, r' :: rs, u, hl, h1, h2, hu => by
    obtain ⟨g1, g2, -, -, -, -, -, -, -, -, g3, -⟩ := lBounds
    have hl1 := h1 (nv T l) List.mem_cons_self
    have hr1 := h2 (nv T r') List.mem_cons_self
    refine ens_bind (ens_ranged g3 _) fun v hv => ?_
    refine ens_bind (ens_addNat (by omega)) fun s hs => ?_
    refine ens_bind (ens_addNat (by rw [hs, ho]; omega)) fun s' hs' => ?_
    have hm : lB * nv T v ≤ lB * 2 ^ 75 := Nat.mul_le_mul_left _ hv.le
    refine ens_bind (ens_mulAddNat (by rw [hb]; omega)) fun t ht => ?_
    refine ens_bind ens_constrainEqual fun _ he => ?_
    refine ens_mono (ens_carryS hb ho ls rs v (Nat.succ.inj hl) (fun x hx => h1 x (List.mem_cons_of_mem _ hx))
      (fun x hx => h2 x (List.mem_cons_of_mem _ hx)) hv) fun v' hv' => ?_
    have he' : nv T s' = nv T t := congrArg ZMod.val he
    rw [hs', hs, ho, ht, hb] at he'
    rw [List.map_cons, List.map_cons, List.length_cons, ev, ev, pow_succ']
    exact chain_step lOff_add (he'.trans (Nat.add_comm _ _)) hv'

theorem ev_append_zero : ∀ xs : List ℕ, ev lB (xs ++ [0, 0, 0]) = ev lB xs
  | [] => by simp [ev]
  | x :: xs => by rw [List.cons_append, ev, ev_append_zero xs, ev]

theorem q_digits : ev lB (digits lB 4 q) = q := by
  have h := ev_digits (B := lB) 4 q
  rw [Nat.div_eq_of_lt (by decide +kernel : q < lB ^ 4), Nat.mul_zero, Nat.add_zero] at h
  exact h

theorem ens_mulCheck {a b d c : List Cell} (ha : Limbs T a) (hb : Limbs T b) (hd : Limbs T d) (hc : Limbs T c) :
    Ensures T (mulCheck a b d c) fun _ => fqOf T.cell a * fqOf T.cell b + fqOf T.cell d = fqOf T.cell c := by
  obtain ⟨g1, g2, g4, g5, g6, g7, g8, g9, g10, g11, g3, g12⟩ := lBounds
  refine ens_bind (ens_freshInt _) fun k hk => ?_
  refine ens_bind (ens_constNat (lt_of_le_of_lt (Nat.zero_le _) g11)) fun z hz => ?_
  refine ens_bind (ens_constNat g11) fun base hbase => ?_
  refine ens_bind (ens_constNat g9) fun off hoff => ?_
  refine ens_bind (ens_constNat g10) fun u hu => ?_
  have hq := digits_lt lB_pos 4 q
  have hql : (digits lB 4 q).length = 4 := length_digits 4 q
  have hqe := q_digits
  generalize digits lB 4 q = qs at *
  refine ens_bind (ens_constCells qs fun n hn => (hq n hn).trans g11) fun m hm => ?_
  have hml : m.length = 4 := by rw [← List.length_map (nv T), hm, hql]
  have hpad : ∀ x : List Cell, (x ++ [z, z, z]).map (nv T) = x.map (nv T) ++ [0, 0, 0] := fun x => by
    rw [List.map_append, List.map_cons, List.map_cons, List.map_cons, List.map_nil, hz]
  have hlt : ∀ x : List Cell, Limbs T x → ∀ y ∈ (x ++ [z, z, z]).map (nv T), y < lB := fun x hx y hy => by
    rw [hpad] at hy
    rcases List.mem_append.1 hy with hy | hy
    · exact hx.lt y hy
    · have : y = 0 := by simpa using hy
      rw [this]
      exact lB_pos
  refine ens_bind (ens_convS a b _ lB (by rw [ha.length]; exact g5) ha.lt hb.lt (hlt d hd)) fun l hl => ?_
  refine ens_bind (ens_convS m k _ lB (by rw [hml]; exact g5) (by rw [hm]; exact hq) hk.lt (hlt c hc)) fun e he => ?_
  have b1 : ∀ x ∈ l.map (nv T), x < lD := fun x hx => by
    rw [hl] at hx
    have := conv_lt _ _ _ lB ha.lt hb.lt (hlt d hd) x hx
    rw [List.length_map, ha.length] at this
    omega
  have b2 : ∀ x ∈ e.map (nv T), x < lD := fun x hx => by
    rw [he] at hx
    have := conv_lt _ _ _ lB (by rw [hm]; exact hq) hk.lt (hlt c hc) x hx
    rw [List.length_map, hml] at this
    omega
  have n1 : l.length = 7 := by
    rw [← List.length_map (nv T), hl, length_conv, List.length_map, List.length_append, hd.length]
    rfl
  have n2 : e.length = 7 := by
    rw [← List.length_map (nv T), he, length_conv, List.length_map, List.length_append, hc.length]
    rfl
  refine ens_bind (ens_carryS hbase hoff l e u (n1.trans n2.symm) b1 b2 (by rw [hu]; exact g8)) fun v hv => ?_
  refine ens_mono ens_constrainEqual fun _ h => ?_
  have h' : nv T v = nv T u := congrArg ZMod.val h
  rw [h', hu, hl, he, hpad, hpad] at hv
  rw [ev_conv _ _ _ (by simp [ha.length, hb.length, hd.length]),
    ev_conv _ _ _ (by simp [hml, hk.length, hc.length]), ev_append_zero, ev_append_zero, hm, hqe] at hv
  have hv' : natOf T.cell a * natOf T.cell b + natOf T.cell d = q * natOf T.cell k + natOf T.cell c := by
    show ev lB (a.map (nv T)) * ev lB (b.map (nv T)) + ev lB (d.map (nv T)) = q * ev lB (k.map (nv T)) + ev lB (c.map (nv T))
    omega
  unfold fqOf
  rw [← Nat.cast_mul, ← Nat.cast_add, hv', Nat.cast_add, Nat.cast_mul, CharP.cast_eq_zero, zero_mul, zero_add]

theorem digits_four {V : ℕ} (hV : V < 2 ^ 254) : ∃ v0 v1 v2 v3, digits lB 4 V = [v0, v1, v2, v3] ∧ v0 < 2 ^ 68 ∧ v1 < 2 ^ 68 ∧
    v2 < 2 ^ 68 ∧ v3 < 2 ^ 50 ∧ ev lB [v0, v1, v2, v3] = V := by
  refine ⟨_, _, _, _, rfl, Nat.mod_lt _ lB_pos, Nat.mod_lt _ lB_pos, Nat.mod_lt _ lB_pos, ?_, ?_⟩
  · refine lt_of_le_of_lt (Nat.mod_le _ _) ?_
    rw [Nat.div_div_eq_div_mul, Nat.div_div_eq_div_mul]
    apply Nat.div_lt_of_lt_mul
    refine lt_of_lt_of_le hV ?_
    decide +kernel
  · have h := ev_digits (B := lB) 4 V
    rw [Nat.div_eq_of_lt (lt_of_lt_of_le hV (by decide +kernel : 2 ^ 254 ≤ lB ^ 4)), Nat.mul_zero, Nat.add_zero] at h
    exact h

theorem q_lt_254 : q < 2 ^ 254 := by decide +kernel

theorem ens_limbConst (k : Fq) : Ensures T (limbConst k) fun c => Limbs T c ∧ fqOf T.cell c = k := by
  obtain ⟨v0, v1, v2, v3, hv, h0, h1, h2, h3, he⟩ := digits_four (lt_trans (ZMod.val_lt k) q_lt_254)
  obtain ⟨-, -, -, -, -, -, -, -, -, g11, -⟩ := lBounds
  unfold limbConst
  refine ens_mono (ens_constCells _ fun n hn => (digits_lt lB_pos 4 _ n hn).trans g11) fun c hc => ?_
  have hn : natOf T.cell c = k.val := by
    show ev lB (c.map (nv T)) = _
    rw [hc, hv, he]
  rw [hv] at hc
  refine ⟨?_, by rw [fqOf, hn, ZMod.natCast_zmod_val]⟩
  rcases c with _ | ⟨c0, _ | ⟨c1, _ | ⟨c2, _ | ⟨c3, _ | ⟨c4, cs⟩⟩⟩⟩⟩ <;> simp only [List.map_cons, List.map_nil, List.cons.injEq, reduceCtorEq, and_false, and_true] at hc
  obtain ⟨e0, e1, e2, e3⟩ := hc
  exact ⟨c0, c1, c2, c3, rfl, by rw [e0]; exact h0, by rw [e1]; exact h1, by rw [e2]; exact h2, by rw [e3]; exact h3⟩

theorem ens_limbAdd {a b : List Cell} (ha : Limbs T a) (hb : Limbs T b) :
    Ensures T (limbAdd a b) fun c => Limbs T c ∧ fqOf T.cell c = fqOf T.cell a + fqOf T.cell b := by
  refine ens_bind (ens_limbConst 1) fun one h1 => ?_
  refine ens_bind (ens_freshInt _) fun c hc => ?_
  refine ens_bind (ens_mulCheck ha h1.1 hb hc) fun _ h => ens_pure ⟨hc, ?_⟩
  rw [← h, h1.2, mul_one]

theorem ens_limbSub {a b : List Cell} (ha : Limbs T a) (hb : Limbs T b) :
    Ensures T (limbSub a b) fun c => Limbs T c ∧ fqOf T.cell c = fqOf T.cell a - fqOf T.cell b := by
  refine ens_bind (ens_limbConst 1) fun one h1 => ?_
  refine ens_bind (ens_freshInt _) fun c hc => ?_
  refine ens_bind (ens_mulCheck hc h1.1 hb ha) fun _ h => ens_pure ⟨hc, ?_⟩
  rw [← h, h1.2, mul_one, add_sub_cancel_right]

theorem ens_limbMul {a b : List Cell} (ha : Limbs T a) (hb : Limbs T b) :
    Ensures T (limbMul a b) fun c => Limbs T c ∧ fqOf T.cell c = fqOf T.cell a * fqOf T.cell b := by
  refine ens_bind (ens_limbConst 0) fun zero h0 => ?_
  refine ens_bind (ens_freshInt _) fun c hc => ?_
  refine ens_bind (ens_mulCheck ha hb h0.1 hc) fun _ h => ens_pure ⟨hc, ?_⟩
  rw [← h, h0.2, add_zero]

theorem ens_limbDiv {a b : List Cell} (ha : Limbs T a) (hb : Limbs T b) :
    Ensures T (limbDiv a b) fun c => Limbs T c ∧ fqOf T.cell c * fqOf T.cell b = fqOf T.cell a := by
  refine ens_bind (ens_limbConst 0) fun zero h0 => ?_
  refine ens_bind (ens_freshInt _) fun c hc => ?_
  refine ens_bind (ens_mulCheck hc hb h0.1 ha) fun _ h => ens_pure ⟨hc, ?_⟩
  rw [← h, h0.2, add_zero]

theorem ens_limbInv {a : List Cell} (ha : Limbs T a) :
    Ensures T (limbInv a) fun c => Limbs T c ∧ fqOf T.cell c * fqOf T.cell a = 1 := by
  refine ens_bind (ens_limbConst 1) fun one h1 => ?_
  refine ens_mono (ens_limbDiv h1.1 ha) fun c hc => ⟨hc.1, ?_⟩
  rw [hc.2, h1.2]

theorem ens_limbNotZero {a : List Cell} (ha : Limbs T a) : Ensures T (limbNotZero a) fun _ => fqOf T.cell a ≠ 0 := by
  refine ens_bind (ens_limbInv ha) fun c hc => ens_pure fun h => ?_
  have := hc.2
  rw [h, mul_zero] at this
  exact zero_ne_one this

theorem ens_limbSelect {cond : Cell} : ∀ as bs : List Cell, as.length = bs.length → T.cell cond = 0 ∨ T.cell cond = 1 →
    Ensures T (limbSelect cond as bs) fun cs =>
      (T.cell cond = 1 → cs.map T.cell = as.map T.cell) ∧ (T.cell cond = 0 → cs.map T.cell = bs.map T.cell)
  | [], [], _, _ => ens_pure ⟨fun _ => rfl, fun _ => rfl⟩
  | [], _ :: _, h, _ => absurd h (by simp)
  | _ :: _, [], h, _ => absurd h (by simp)
  | a :: as, b :: bs, h, hc => by
    refine ens_bind (ens_select a b cond) fun c h1 => ?_
    refine ens_bind (ens_limbSelect as bs (Nat.succ.inj h) hc) fun cs h2 => ens_pure ⟨fun e => ?_, fun e => ?_⟩
    · rw [GrumpkinChip.select_gate_iff, e, one_mul, sub_add_cancel] at h1
      rw [List.map_cons, List.map_cons, h1, h2.1 e]
    · rw [GrumpkinChip.select_gate_iff, e, zero_mul, zero_add] at h1
      rw [List.map_cons, List.map_cons, h1, h2.2 e]

theorem Limbs.congr {a b : List Cell} (hb : Limbs T b) (h : a.map T.cell = b.map T.cell) :
    Limbs T a ∧ fqOf T.cell a = fqOf T.cell b := by
  have hn : a.map (nv T) = b.map (nv T) := by
    have := congrArg (List.map ZMod.val) h
    rw [List.map_map, List.map_map] at this
    exact this
  refine ⟨?_, by rw [fqOf, natOf]; exact congrArg (fun x => ((ev lB x : ℕ) : Fq)) hn⟩
  obtain ⟨b0, b1, b2, b3, rfl, h0, h1, h2, h3⟩ := hb
  rcases a with _ | ⟨c0, _ | ⟨c1, _ | ⟨c2, _ | ⟨c3, _ | ⟨c4, cs⟩⟩⟩⟩⟩ <;> simp only [List.map_cons, List.map_nil, List.cons.injEq, reduceCtorEq, and_false, and_true] at hn
  obtain ⟨e0, e1, e2, e3⟩ := hn
  exact ⟨c0, c1, c2, c3, rfl, by rw [e0]; exact h0, by rw [e1]; exact h1, by rw [e2]; exact h2, by rw [e3]; exact h3⟩

theorem Limbs.normalize {a : List Cell} (h : Limbs T a) : DkgCircuit.normalize (fqOf T.cell a) (a.map T.cell) := by
  obtain ⟨a0, a1, a2, a3, rfl, h0, h1, h2, h3⟩ := h
  refine ⟨_, _, _, _, rfl, h0, h1, h2, h3, ?_⟩
  unfold fqOf natOf
  refine congrArg _ ?_
  have e1 : lB = 2 ^ 68 := rfl
  have e2 : (2 : ℕ) ^ 136 = lB * lB := by decide +kernel
  have e3 : (2 : ℕ) ^ 204 = lB * lB * lB := by decide +kernel
  rw [← e1, e2, e3]
  simp only [List.map_cons, List.map_nil, ev]
  ring

theorem ens_limbSubSub {a b c : List Cell} (ha : Limbs T a) (hb : Limbs T b) (hc : Limbs T c) :
    Ensures T (limbSubSub a b c) fun d =>
      Limbs T d ∧ fqOf T.cell d = fqOf T.cell a - fqOf T.cell b - fqOf T.cell c :=
  ens_bind (ens_limbSub ha hb) fun d hd => ens_mono (ens_limbSub hd.1 hc) fun e he => ⟨he.1, by rw [he.2, hd.2]⟩

theorem ens_limbNeg {a : List Cell} (ha : Limbs T a) :
    Ensures T (limbNeg a) fun c => Limbs T c ∧ fqOf T.cell c = -fqOf T.cell a :=
  ens_bind (ens_limbConst 0) fun z hz => ens_mono (ens_limbSub hz.1 ha) fun e he => ⟨he.1, by rw [he.2, hz.2, zero_sub]⟩

theorem ens_limbMul2 {a : List Cell} (ha : Limbs T a) :
    Ensures T (limbAdd a a) fun c => Limbs T c ∧ fqOf T.cell c = 2 * fqOf T.cell a :=
  ens_mono (ens_limbAdd ha ha) fun e he => ⟨he.1, by rw [he.2, two_mul]⟩

theorem ens_limbNotEqual {a b : List Cell} (ha : Limbs T a) (hb : Limbs T b) :
    Ensures T (limbNotEqual a b) fun _ => fqOf T.cell a ≠ fqOf T.cell b :=
  ens_bind (ens_limbSub ha hb) fun d hd => ens_mono (ens_limbNotZero hd.1) fun _ h e => h (by rw [hd.2, sub_eq_zero]; exact e)

theorem ens_limbSel {a b : List Cell} {cond : Cell} (ha : Limbs T a) (hb : Limbs T b) (hc : T.cell cond = 0 ∨ T.cell cond = 1) :
    Ensures T (limbSelect cond a b) fun c => Limbs T c ∧
      IntegerChip.select (fqOf T.cell a) (fqOf T.cell b) (T.cell cond) (fqOf T.cell c) :=
  ens_mono (ens_limbSelect a b (ha.length.trans hb.length.symm) hc) fun c h => by
    rcases hc with e | e
    · obtain ⟨h1, h2⟩ := hb.congr (h.2 e)
      exact ⟨h1, .inr ⟨e, h2⟩⟩
    · obtain ⟨h1, h2⟩ := ha.congr (h.1 e)
      exact ⟨h1, .inl ⟨e, h2⟩⟩

theorem ens_limbReduce {a : List Cell} (ha : Limbs T a) :
    Ensures T (limbReduce a) fun (c : List Cell) => Limbs T c ∧ fqOf T.cell c = fqOf T.cell a ∧
      DkgCircuit.normalize (fqOf T.cell a) (c.map T.cell) :=
  ens_bind (ens_limbConst 0) fun z hz => ens_mono (ens_limbAdd ha hz.1) fun c hc => by
    have e : fqOf T.cell c = fqOf T.cell a := by rw [hc.2, hz.2, add_zero]
    refine ⟨hc.1, e, ?_⟩
    have := hc.1.normalize
    rw [e] at this
    exact this

theorem limbChip_correct (T : Table) : limbChip.Correct T (Limbs T) (fqOf T.cell) where
  assignConstant k := ens_limbConst k
  add a b ha hb := ens_limbAdd ha hb
  sub a b ha hb := ens_limbSub ha hb
  subSub a b c ha hb hc := ens_limbSubSub ha hb hc
  neg a ha := ens_limbNeg ha
  mul a b ha hb := ens_limbMul ha hb
  mul2 a ha := ens_limbMul2 ha
  square a ha := ens_limbMul ha ha
  divIncomplete a b ha hb := ens_limbDiv ha hb
  invertIncomplete a ha := ens_limbInv ha
  assertNotZero a ha := ens_limbNotZero ha
  assertNotEqual a b ha hb := ens_limbNotEqual ha hb
  select a b cond ha hb hc := ens_limbSel ha hb hc
  reduce a ha := ens_limbReduce ha
end

end Verif.Layout
