import Verif.Lemmas.LayoutSize
import Verif.Lemmas.LimbChip

/-! The number of rows of the operations of the integer chip of `Verif.Lemmas.LimbChip`. -/

namespace Verif.Layout
open Verif MainGate

variable {B K : ℕ}

/-- The limbs are inside. -/
def LimbsIn (B K : ℕ) (a : List Cell) : Prop := a.length = 4 ∧ ∀ c ∈ a, Inside B K c

theorem rows_witness (f : (Cell → Fr) → ℕ) : Rows B K 1 (witness f) (Inside B K) :=
  rows_bind (N' := 1) rows_assignAdvice fun _ h => rows_bind rows_next fun _ _ => rows_pure h

theorem rows_ranged (n : ℕ) (f : (Cell → Fr) → ℕ) : Rows B K (n + n / 4 + 5) (ranged n f) (Inside B K) :=
  rows_le (N := 1 + ((n + n / 4 + 4) + 0)) (by omega) (rows_bind (rows_witness f) fun _ h => rows_bind (rows_toBits h) fun _ _ => rows_pure h)

theorem rows_freshInt (f : (Cell → Fr) → ℕ) : Rows B K 337 (freshInt f) (LimbsIn B K) :=
  rows_le (N := 90 + (90 + (90 + (67 + 0)))) (by omega) (rows_bind (rows_ranged 68 _) fun _ h0 => rows_bind (rows_ranged 68 _) fun _ h1 =>
    rows_bind (rows_ranged 68 _) fun _ h2 => rows_bind (rows_ranged 50 _) fun _ h3 => rows_pure ⟨rfl, by
      intro c hc
      simp only [List.mem_cons, List.not_mem_nil, or_false] at hc
      rcases hc with rfl | rfl | rfl | rfl
      · exact h0
      · exact h1
      · exact h2
      · exact h3⟩)

theorem rows_constCells (ns : List ℕ) : Rows B K ns.length (constCells ns) fun a => a.length = ns.length ∧ ∀ c ∈ a, Inside B K c :=
  rows_le (by omega) (rows_mapS (N := 1) ns fun _ _ => rows_assignConstant)

theorem digits_length4 (n : ℕ) : (Limb.digits lB 4 n).length = 4 := rfl

theorem rows_limbConst (k : Fq) : Rows B K 4 (limbConst k) (LimbsIn B K) := rows_constCells _

theorem rows_addMulS {x : Cell} (hx : Inside B K x) : ∀ bs ds : List Cell, (∀ c ∈ bs, Inside B K c) → (∀ c ∈ ds, Inside B K c) →
    Rows B K bs.length (addMulS x bs ds) fun es => es.length = ds.length ∧ ∀ c ∈ es, Inside B K c
  | [], ds, _, hd => rows_pure ⟨rfl, hd⟩
  | _ :: _, [], _, hd => rows_le (Nat.zero_le _) (rows_pure ⟨rfl, hd⟩)
  | b :: bs, d :: ds, hb, hd => rows_le (N := 1 + (bs.length + 0)) (by rw [List.length_cons]; omega)
      (rows_bind (rows_mulAdd hx (hb b List.mem_cons_self) (hd d List.mem_cons_self)) fun _ he =>
        rows_bind (rows_addMulS hx bs ds (fun c hc => hb c (List.mem_cons_of_mem _ hc)) fun c hc => hd c (List.mem_cons_of_mem _ hc)) fun es hes =>
          rows_pure ⟨by rw [List.length_cons, List.length_cons, hes.1], fun c hc => by
            rcases List.mem_cons.1 hc with rfl | hc
            · exact he
            · exact hes.2 c hc⟩)

theorem rows_convS : ∀ as bs ds : List Cell, (∀ c ∈ as, Inside B K c) → (∀ c ∈ bs, Inside B K c) → (∀ c ∈ ds, Inside B K c) →
    Rows B K (as.length * bs.length) (convS as bs ds) fun es => es.length = ds.length ∧ ∀ c ∈ es, Inside B K c
  | [], bs, ds, _, _, hd => rows_le (Nat.zero_le _) (rows_pure ⟨rfl, hd⟩)
  | a :: as, bs, ds, ha, hb, hd => rows_le (N := bs.length + as.length * bs.length) (by rw [List.length_cons, Nat.succ_mul]; omega)
      (rows_bind (rows_addMulS (ha a List.mem_cons_self) bs ds hb hd) fun l hl => by
        cases l with
        | nil => exact rows_le (Nat.zero_le _) (rows_pure hl)
        | cons e es =>
          refine rows_bind (N' := 0) (rows_convS as bs es (fun c hc => ha c (List.mem_cons_of_mem _ hc)) hb
            fun c hc => hl.2 c (List.mem_cons_of_mem _ hc)) fun es' h => rows_pure ⟨?_, ?_⟩
          · rw [← hl.1, List.length_cons, List.length_cons, h.1]
          · intro c hc
            rcases List.mem_cons.1 hc with rfl | hc
            · exact hl.2 _ List.mem_cons_self
            · exact h.2 c hc)

theorem rows_carryS {base off : Cell} (h1 : Inside B K base) (h2 : Inside B K off) : ∀ (ls rs : List Cell) (u : Cell),
    (∀ c ∈ ls, Inside B K c) → (∀ c ∈ rs, Inside B K c) → Inside B K u → Rows B K (ls.length * 101) (carryS base off ls rs u) (Inside B K)
  | l :: ls, r :: rs, u, hl, hr, hu => rows_le (N := 98 + (1 + (1 + (1 + (0 + ls.length * 101))))) (by rw [List.length_cons]; omega)
      (rows_bind (rows_ranged 75 _) fun _ hv => rows_bind (rows_add (hl l List.mem_cons_self) hu) fun _ hs =>
        rows_bind (rows_add hs h2) fun _ hs' => rows_bind (rows_mulAdd h1 hv (hr r List.mem_cons_self)) fun _ ht =>
          rows_bind (rows_assertEqual hs' ht) fun _ _ => rows_carryS h1 h2 ls rs _ (fun c hc => hl c (List.mem_cons_of_mem _ hc))
            (fun c hc => hr c (List.mem_cons_of_mem _ hc)) hv)
  | [], _, _, _, _, hu => rows_le (Nat.zero_le _) (rows_pure hu)
  | _ :: _, [], _, _, _, hu => rows_le (Nat.zero_le _) (rows_pure hu)

theorem limbsIn_append {a : List Cell} {z : Cell} (h : LimbsIn B K a) (hz : Inside B K z) : ∀ c ∈ a ++ [z, z, z], Inside B K c := by
  intro c hc
  rcases List.mem_append.1 hc with hc | hc
  · exact h.2 c hc
  · simp only [List.mem_cons, List.not_mem_nil, or_false, or_self] at hc
    rw [hc]
    exact hz

theorem rows707 {n : ℕ} (h : n = 7) : n * 101 ≤ 707 := by omega

theorem rows_mulCheck {a b d c : List Cell} (ha : LimbsIn B K a) (hb : LimbsIn B K b) (hd : LimbsIn B K d) (hc : LimbsIn B K c) :
    Rows B K 1084 (mulCheck a b d c) fun _ => True := by
  refine rows_le (N := 337 + (1 + (1 + (1 + (1 + (4 + (16 + (16 + (707 + 0))))))))) (by omega) ?_
  refine rows_bind (rows_freshInt _) fun k hk => rows_bind rows_assignConstant fun z hz => rows_bind rows_assignConstant fun base h1 =>
    rows_bind rows_assignConstant fun off h2 => rows_bind rows_assignConstant fun u hu => rows_bind (rows_constCells (Limb.digits lB 4 q)) fun m hm => ?_
  have e1 := rows_convS (B := B) (K := K) a b (d ++ [z, z, z]) ha.2 hb.2 (limbsIn_append hd hz)
  have e2 := rows_convS (B := B) (K := K) m k (c ++ [z, z, z]) hm.2 hk.2 (limbsIn_append hc hz)
  rw [ha.1, hb.1] at e1
  rw [hm.1, hk.1, digits_length4] at e2
  refine rows_bind e1 fun l hl => rows_bind e2 fun e he => ?_
  have e3 := rows_carryS (B := B) (K := K) h1 h2 l e u hl.2 he.2 hu
  exact rows_bind (rows_le (N' := 707) (rows707 (by rw [hl.1, List.length_append, hd.1]; rfl)) e3) fun v hv => rows_assertEqual hv hu

theorem rows_freshFq (f : (Cell → Fr) → Fq) : Rows B K 337 (freshFq f) (LimbsIn B K) := rows_freshInt _

section
variable {a b c : List Cell} (ha : LimbsIn B K a) (hb : LimbsIn B K b) (hc : LimbsIn B K c)

theorem rows_limbAdd (ha : LimbsIn B K a) (hb : LimbsIn B K b) : Rows B K 1425 (limbAdd a b) (LimbsIn B K) :=
  rows_le (N := 4 + (337 + (1084 + 0))) (by omega) (rows_bind (rows_limbConst _) fun _ h => rows_bind (rows_freshFq _) fun _ h' =>
    rows_bind (rows_mulCheck ha h hb h') fun _ _ => rows_pure h')

theorem rows_limbSub (ha : LimbsIn B K a) (hb : LimbsIn B K b) : Rows B K 1425 (limbSub a b) (LimbsIn B K) :=
  rows_le (N := 4 + (337 + (1084 + 0))) (by omega) (rows_bind (rows_limbConst _) fun _ h => rows_bind (rows_freshFq _) fun _ h' =>
    rows_bind (rows_mulCheck h' h hb ha) fun _ _ => rows_pure h')

theorem rows_limbMul (ha : LimbsIn B K a) (hb : LimbsIn B K b) : Rows B K 1425 (limbMul a b) (LimbsIn B K) :=
  rows_le (N := 4 + (337 + (1084 + 0))) (by omega) (rows_bind (rows_limbConst _) fun _ h => rows_bind (rows_freshFq _) fun _ h' =>
    rows_bind (rows_mulCheck ha hb h h') fun _ _ => rows_pure h')

theorem rows_limbDiv (ha : LimbsIn B K a) (hb : LimbsIn B K b) : Rows B K 1425 (limbDiv a b) (LimbsIn B K) :=
  rows_le (N := 4 + (337 + (1084 + 0))) (by omega) (rows_bind (rows_limbConst _) fun _ h => rows_bind (rows_freshFq _) fun _ h' =>
    rows_bind (rows_mulCheck h' hb h ha) fun _ _ => rows_pure h')

theorem rows_limbNeg (ha : LimbsIn B K a) : Rows B K 1429 (limbNeg a) (LimbsIn B K) :=
  rows_le (N := 4 + 1425) (by omega) (rows_bind (rows_limbConst _) fun _ h => rows_limbSub h ha)

theorem rows_limbInv (ha : LimbsIn B K a) : Rows B K 1429 (limbInv a) (LimbsIn B K) :=
  rows_le (N := 4 + 1425) (by omega) (rows_bind (rows_limbConst _) fun _ h => rows_limbDiv h ha)

theorem rows_limbNotZero (ha : LimbsIn B K a) : Rows B K 1429 (limbNotZero a) fun _ => True :=
  rows_le (N := 1429 + 0) (by omega) (rows_bind (rows_limbInv ha) fun _ _ => rows_pure trivial)

theorem rows_limbReduce (ha : LimbsIn B K a) : Rows B K 1429 (limbReduce a) (LimbsIn B K) :=
  rows_le (N := 4 + 1425) (by omega) (rows_bind (rows_limbConst _) fun _ h => rows_limbAdd ha h)

theorem rows_limbSubSub (ha : LimbsIn B K a) (hb : LimbsIn B K b) (hc : LimbsIn B K c) : Rows B K (2 * 1429) (limbSubSub a b c) (LimbsIn B K) :=
  rows_le (N := 1425 + 1425) (by omega) (rows_bind (rows_limbSub ha hb) fun _ h => rows_limbSub h hc)

theorem rows_limbNotEqual (ha : LimbsIn B K a) (hb : LimbsIn B K b) : Rows B K (2 * 1429) (limbNotEqual a b) fun _ => True :=
  rows_le (N := 1425 + 1429) (by omega) (rows_bind (rows_limbSub ha hb) fun _ h => rows_limbNotZero h)
end

theorem rows_limbSelect {cond : Cell} (h : Inside B K cond) : ∀ as bs : List Cell, as.length = bs.length → (∀ c ∈ as, Inside B K c) →
    (∀ c ∈ bs, Inside B K c) → Rows B K as.length (limbSelect cond as bs) fun cs => cs.length = as.length ∧ ∀ c ∈ cs, Inside B K c
  | a :: as, b :: bs, e, ha, hb => rows_le (N := 1 + (as.length + 0)) (by rw [List.length_cons]; omega)
      (rows_bind (rows_select (ha a List.mem_cons_self) (hb b List.mem_cons_self) h) fun _ h1 =>
        rows_bind (rows_limbSelect h as bs (Nat.succ.inj e) (fun c hc => ha c (List.mem_cons_of_mem _ hc)) fun c hc => hb c (List.mem_cons_of_mem _ hc))
          fun cs hcs => rows_pure ⟨by rw [List.length_cons, List.length_cons, hcs.1], fun c hc => by
            rcases List.mem_cons.1 hc with rfl | hc
            · exact h1
            · exact hcs.2 c hc⟩)
  | [], _, _, ha, _ => rows_pure ⟨rfl, ha⟩
  | _ :: _, [], e, _, _ => nomatch e

theorem limbChip_small : limbChip.Small B K 1429 4 (LimbsIn B K) where
  limbs _ h := h.2
  assignConstant k := rows_limbConst k
  add _ _ ha hb := rows_le (by omega) (rows_limbAdd ha hb)
  sub _ _ ha hb := rows_le (by omega) (rows_limbSub ha hb)
  subSub _ _ _ ha hb hc := rows_limbSubSub ha hb hc
  neg _ ha := rows_limbNeg ha
  mul _ _ ha hb := rows_le (by omega) (rows_limbMul ha hb)
  mul2 _ ha := rows_le (by omega) (rows_limbAdd ha ha)
  square _ ha := rows_le (by omega) (rows_limbMul ha ha)
  divIncomplete _ _ ha hb := rows_le (by omega) (rows_limbDiv ha hb)
  invertIncomplete _ ha := rows_limbInv ha
  assertNotZero _ ha := rows_limbNotZero ha
  assertNotEqual _ _ ha hb := rows_limbNotEqual ha hb
  select a b cond ha hb hc := by
    have := rows_limbSelect hc a b (ha.1.trans hb.1.symm) ha.2 hb.2
    rw [ha.1] at this
    exact this
  reduce _ ha := rows_limbReduce ha

end Verif.Layout
