import Verif.Lemmas.Evm
import Verif.Model.ModExp

/-! The addition chains compute powers. -/

namespace Verif.ModExp

/-- Exponents held by the registers; `0` marks a register not assigned yet. -/
def estep (e : List ℕ) (i : Instr) : Option (List ℕ) :=
  match e.getD i.a 0, e.getD i.b 0 with
  | a + 1, b + 1 => if i.dst < 9 then some (e.set i.dst (a + b + 2)) else none
  | _, _ => none

def erun : List Instr → List ℕ → Option (List ℕ)
  | [], e => some e
  | i :: p, e => match estep e i with
    | none => none
    | some e' => erun p e'

theorem toNat_n : n.toNat = q := by decide +kernel

theorem n_ne_zero : n ≠ 0 := by decide +kernel

theorem toNat_mulmod {m : Word} (hm : m ≠ 0) (a b : Word) :
    (mulmod a b m).toNat = a.toNat * b.toNat % m.toNat := by
  have h0 : 0 < m.toNat := by
    rcases Nat.eq_zero_or_pos m.toNat with h | h
    · exact absurd (BitVec.eq_of_toNat_eq (by simpa using h)) hm
    · exact h
  unfold mulmod
  rw [if_neg hm, BitVec.toNat_ofNat, Nat.mod_eq_of_lt (lt_trans (Nat.mod_lt _ h0) m.isLt)]

theorem toNat_addmod {m : Word} (hm : m ≠ 0) (a b : Word) :
    (addmod a b m).toNat = (a.toNat + b.toNat) % m.toNat := by
  have h0 : 0 < m.toNat := by
    rcases Nat.eq_zero_or_pos m.toNat with h | h
    · exact absurd (BitVec.eq_of_toNat_eq (by simpa using h)) hm
    · exact h
  unfold addmod
  rw [if_neg hm, BitVec.toNat_ofNat, Nat.mod_eq_of_lt (lt_trans (Nat.mod_lt _ h0) m.isLt)]

/-- Registers hold powers of `x`; those with exponent above one are reduced. -/
def Inv (x : Word) (e : List ℕ) (regs : Regs) : Prop :=
  e.length = 9 ∧ regs.length = 9 ∧ ∀ i, e.getD i 0 ≠ 0 →
    (((regs.getD i 0).toNat : ℕ) : Fq) = (x.toNat : Fq) ^ (e.getD i 0) ∧
    (e.getD i 0 ≠ 1 → (regs.getD i 0).toNat < q)

theorem getD_set {α : Type} (l : List α) (i j : ℕ) (a d : α) (h : i < l.length) :
    (l.set i a).getD j d = if i = j then a else l.getD j d := by
  rw [List.getD_eq_getElem?_getD, List.getElem?_set]
  by_cases hij : i = j
  · subst hij
    simp [h]
  · simp [hij]

theorem step_inv {x : Word} {e e' : List ℕ} {regs : Regs} (i : Instr) (h : Inv x e regs)
    (he : estep e i = some e') : Inv x e' (step regs i) := by
  obtain ⟨h1, h2, h3⟩ := h
  unfold estep at he
  split at he
  · rename_i a b ha hb
    split at he
    · rename_i hd
      cases he
      refine ⟨by simpa using h1, by simpa [step] using h2, ?_⟩
      intro j hj
      rw [getD_set _ _ _ _ _ (by omega)] at hj ⊢
      unfold step
      rw [getD_set _ _ _ _ _ (by omega)]
      split
      · rename_i hij
        have ka := (h3 i.a (by omega)).1
        have kb := (h3 i.b (by omega)).1
        rw [toNat_mulmod n_ne_zero, toNat_n]
        constructor
        · rw [ZMod.natCast_mod, Nat.cast_mul, ka, kb, ← pow_add, ha, hb]
          congr 1
          omega
        · intro _
          exact Nat.mod_lt _ (by decide +kernel)
      · rename_i hij
        rw [if_neg hij] at hj
        exact h3 j hj
    · cases he
  · cases he

theorem run_inv {x : Word} : ∀ (p : List Instr) {e e' : List ℕ} {regs : Regs}, Inv x e regs →
    erun p e = some e' → Inv x e' (p.foldl step regs)
  | [], e, e', regs, h, he => by cases he; exact h
  | i :: p, e, e', regs, h, he => by
      rw [List.foldl_cons]
      unfold erun at he
      split at he
      · cases he
      · rename_i e1 h1
        exact run_inv p (step_inv i h h1) he

theorem init_inv (arg : ℕ) (h : arg < 9) (x : Word) :
    Inv x ((List.replicate 9 0).set arg 1) (init arg x) := by
  refine ⟨by simp, by simp [init], ?_⟩
  intro i hi
  rw [getD_set _ _ _ _ _ (by simpa using h)] at hi ⊢
  unfold init
  rw [getD_set _ _ _ _ _ (by simpa using h)]
  split
  · simp
  · rename_i hne
    rw [if_neg hne] at hi
    exfalso
    apply hi
    simp only [List.getD_eq_getElem?_getD, List.getElem?_replicate]
    split <;> rfl

theorem exp_inverse : ((erun inverseProg ((List.replicate 9 0).set 2 1)).map (·.getD 0 0)) =
    some (q - 2) := by decide +kernel

theorem exp_sqrt : ((erun sqrtProg ((List.replicate 9 0).set 6 1)).map (·.getD 0 0)) =
    some ((q + 1) / 4) := by decide +kernel

theorem pow_val_eq {x : Word} {w : Word} {k : ℕ} (h : ((w.toNat : ℕ) : Fq) = (x.toNat : Fq) ^ k)
    (hw : w.toNat < q) : w.toNat = x.toNat ^ k % q := by
  rw [← Nat.cast_pow] at h
  have := (ZMod.natCast_eq_natCast_iff' _ _ _).1 h
  rw [Nat.mod_eq_of_lt hw] at this
  exact this

theorem inverse_eq (x : Word) : (inverse x).toNat = x.toNat ^ (q - 2) % q := by
  have h := exp_inverse
  cases he : erun inverseProg ((List.replicate 9 0).set 2 1) with
  | none => rw [he] at h; cases h
  | some e =>
    rw [he] at h
    simp only [Option.map_some, Option.some.injEq] at h
    have hi := (run_inv inverseProg (init_inv 2 (by norm_num) x) he).2.2 0 (by rw [h]; decide +kernel)
    rw [h] at hi
    exact pow_val_eq hi.1 (hi.2 (by decide +kernel))

theorem sqrt_eq (x : Word) : (sqrt x).toNat = x.toNat ^ ((q + 1) / 4) % q := by
  have h := exp_sqrt
  cases he : erun sqrtProg ((List.replicate 9 0).set 6 1) with
  | none => rw [he] at h; cases h
  | some e =>
    rw [he] at h
    simp only [Option.map_some, Option.some.injEq] at h
    have hi := (run_inv sqrtProg (init_inv 6 (by norm_num) x) he).2.2 0 (by rw [h]; decide +kernel)
    rw [h] at hi
    exact pow_val_eq hi.1 (hi.2 (by decide +kernel))

end Verif.ModExp
