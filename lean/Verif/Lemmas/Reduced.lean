import Verif.Lemmas.GppKey
import Verif.Lemmas.DkgCircuitParams
import Verif.Spec.Contract

/-! Reduced and unreduced coordinates of instances on chain. -/

namespace Verif
open Spec

/-- A condition on the pairs of words of the first `m` points. -/
def RedN (p : Word → Word → Prop) (m : ℕ) (w : List Word) : Prop := ∀ k < 2 * m,
  p (w.getD (2 * k) 0) (w.getD (2 * k + 1) 0)

/-- The pair of words is a reduced coordinate. -/
def RedPair (a b : Word) : Prop := a.toNat + 2 ^ 136 * b.toNat < q

theorem reduced_iff (n : ℕ) (w : List Word) : Reduced n w ↔ RedN RedPair (n + 1) w := Iff.rfl

theorem redN_cons (p : Word → Word → Prop) (m : ℕ) (a b c d : Word) (w : List Word) :
    RedN p (m + 1) (a :: b :: c :: d :: w) ↔ p a b ∧ p c d ∧ RedN p m w := by
  constructor
  · intro h
    refine ⟨h 0 (by omega), h 1 (by omega), fun k hk => ?_⟩
    have := h (k + 2) (by omega)
    rw [show 2 * (k + 2) = 2 * k + 4 by ring] at this
    exact this
  · rintro ⟨h1, h2, h3⟩ k hk
    match k, hk with
    | 0, _ => exact h1
    | 1, _ => exact h2
    | k + 2, hk =>
      have := h3 k (by omega)
      rw [show 2 * (k + 2) = 2 * k + 4 by ring]
      exact this

theorem wordsOf_cons (a : Fr) (l : List Fr) : wordsOf (a :: l) = wordOf a :: wordsOf l := rfl

theorem word_val (x : Fr) : (wordOf x).toNat = x.val := by
  unfold wordOf
  rw [BitVec.toNat_ofNat, Nat.mod_eq_of_lt]
  exact lt_trans (ZMod.val_lt x) (by decide +kernel)

theorem coordCells_reduced {x : Fq} {d : List Fr} (h : CoordCells x d) :
    ∃ a b, d = [a, b] ∧ (RedPair (wordOf a) (wordOf b) → d = encCoord x) := by
  obtain ⟨V, hV, hx, rfl⟩ := h
  refine ⟨_, _, rfl, fun hq => ?_⟩
  unfold RedPair at hq
  rw [word_val, word_val, cell_lo_val, cell_hi_val hV, Nat.mod_add_div] at hq
  have : x.val = V := by rw [← hx, ZMod.val_natCast, Nat.mod_eq_of_lt hq]
  rw [encCoord, this]

theorem pointCells_reduced {P : G1} {d : List Fr} (h : PointCells P d) :
    ∃ a b c e, d = [a, b, c, e] ∧ (RedPair (wordOf a) (wordOf b) →
      RedPair (wordOf c) (wordOf e) → d = enc1 P) := by
  obtain ⟨_, dx, dy, hx, hy, rfl⟩ := h
  obtain ⟨a, b, h1, h2⟩ := coordCells_reduced hx
  obtain ⟨c, e, h3, h4⟩ := coordCells_reduced hy
  refine ⟨a, b, c, e, by rw [h1, h3]; rfl, fun h h' => ?_⟩
  rw [h2 h, h4 h']; rfl

theorem cells_reduced : ∀ (Ps : List G1) (cs : List (List Fr)) (tail : List Fr),
    List.Forall₂ PointCells Ps cs → RedN RedPair Ps.length (wordsOf (cs.flatten ++ tail)) →
    cs.flatten = Ps.flatMap enc1
  | [], cs, tail, h, _ => by
    rw [List.forall₂_nil_left_iff.1 h]; rfl
  | P :: Ps, cs, tail, h, hr => by
    obtain ⟨d, cs', h1, h2, rfl⟩ := List.forall₂_cons_left_iff.1 h
    obtain ⟨a, b, c, e, h3, h4⟩ := pointCells_reduced h1
    rw [List.flatten_cons, h3] at hr
    simp only [List.cons_append, List.nil_append, wordsOf_cons, List.length_cons] at hr
    rw [redN_cons] at hr
    rw [List.flatten_cons, List.flatMap_cons, h4 hr.1 hr.2.1, cells_reduced Ps cs' tail h2 hr.2.2]

theorem redN_flatMap (p : Word → Word → Prop) (e : G1 → List Fr) (he : ∀ P, ∃ a b c d,
    e P = [a, b, c, d] ∧ p (wordOf a) (wordOf b) ∧ p (wordOf c) (wordOf d))
    (Ps : List G1) (rest : List Word) : RedN p Ps.length (wordsOf (Ps.flatMap e) ++ rest) := by
  induction Ps with
  | nil => intro k hk; exact absurd hk (by simp)
  | cons P Ps ih =>
    obtain ⟨a, b, c, d, h, h1, h2⟩ := he P
    rw [List.flatMap_cons, h, List.length_cons]
    simp only [List.cons_append, List.nil_append, wordsOf_cons]
    rw [redN_cons]
    exact ⟨h1, h2, ih⟩

theorem encCoord_reduced (x : Fq) : ∃ a b, encCoord x = [a, b] ∧ RedPair (wordOf a) (wordOf b) := by
  refine ⟨_, _, rfl, ?_⟩
  unfold RedPair
  rw [word_val, word_val, val_lo, val_hi, Nat.mod_add_div]
  exact ZMod.val_lt x

theorem redN_enc (Ps : List G1) (rest : List Word) :
    RedN RedPair Ps.length (wordsOf (Ps.flatMap enc1) ++ rest) := by
  refine redN_flatMap _ _ (fun P => ?_) Ps rest
  obtain ⟨a, b, h1, h2⟩ := encCoord_reduced (coords P).1
  obtain ⟨c, d, h3, h4⟩ := encCoord_reduced (coords P).2
  refine ⟨a, b, c, d, ?_, h2, h4⟩
  rw [enc1, h1, h3]
  rfl

/-! ### A successful `createGpp` has read only reduced coordinates -/

theorem checkedMul_toNat {a b c : Word} (h : checkedMul a b = some c) :
    c.toNat = a.toNat * b.toNat := by
  unfold checkedMul at h
  split at h
  · rename_i h1
    rw [← Option.some.inj h, BitVec.toNat_ofNat, Nat.mod_eq_of_lt h1]
  · cases h

theorem checkedAdd_toNat {a b c : Word} (h : checkedAdd a b = some c) :
    c.toNat = a.toNat + b.toNat := by
  unfold checkedAdd at h
  split at h
  · rename_i h1
    rw [← Option.some.inj h, BitVec.toNat_ofNat, Nat.mod_eq_of_lt h1]
  · cases h

theorem base_toNat : Gpp.BASE.toNat = 2 ^ 136 := by decide +kernel

theorem checked_coord_toNat {B : Word} {m : ℕ} (hB : B.toNat = m) {u v w x : Word}
    (h1 : checkedMul v B = some x) (h2 : checkedAdd x u = some w) :
    w.toNat = u.toNat + m * v.toNat := by
  rw [checkedAdd_toNat h2, checkedMul_toNat h1, hB, Nat.mul_comm, Nat.add_comm]

theorem readBnG1_some {l : List Word} {p : SolG1} (h : Gpp.readBnG1 l = some p) :
    ∃ a b c d, l = [a, b, c, d] ∧ p.x.toNat = a.toNat + 2 ^ 136 * b.toNat ∧
      p.y.toNat = c.toNat + 2 ^ 136 * d.toNat := by
  unfold Gpp.readBnG1 at h
  split at h
  · rename_i a b c d
    refine ⟨a, b, c, d, rfl, ?_⟩
    generalize hB : Gpp.BASE = B at h
    have hB' : B.toNat = 2 ^ 136 := by rw [← hB]; exact base_toNat
    generalize 2 ^ 136 = m at *
    rw [word_bind] at h
    obtain ⟨u, hu, h⟩ := h
    rw [word_bind] at h
    obtain ⟨x, hx, h⟩ := h
    rw [word_bind] at h
    obtain ⟨v, hv, h⟩ := h
    rw [word_bind] at h
    obtain ⟨y, hy, h⟩ := h
    cases h
    exact ⟨checked_coord_toNat hB' hu hx, checked_coord_toNat hB' hv hy⟩
  · cases h

theorem sumAt_reads {inst : List (List Word)} {b e : ℕ} {p : SolG1}
    (h : Gpp.sumAt inst b e = some p) : ∀ v ∈ inst, ∃ l pt B, Gpp.slice v b e = some l ∧
      Gpp.readBnG1 l = some pt ∧ decodeG1 pt = some B := by
  have key : ∀ (l : List (List Word)) (acc : SolG1) (p : SolG1),
      l.foldlM (sumStep b e) acc = some p → ∀ v ∈ l, ∃ l pt B, Gpp.slice v b e = some l ∧
      Gpp.readBnG1 l = some pt ∧ decodeG1 pt = some B := by
    intro l
    induction l with
    | nil => intro acc p _ v hv; cases hv
    | cons v l ih =>
      intro acc p h w hw
      rw [List.foldlM_cons, g1_bind] at h
      obtain ⟨c, hc, h⟩ := h
      rcases List.mem_cons.1 hw with rfl | hw
      · unfold sumStep at hc
        rw [opt_bind] at hc
        obtain ⟨sl, h1, hc⟩ := hc
        rw [g1_bind] at hc
        obtain ⟨pt, h2, hc⟩ := hc
        refine ⟨sl, pt, ?_⟩
        unfold Pairing.addition ecAdd at hc
        cases hb : decodeG1 pt with
        | none =>
          rw [hb] at hc
          cases ha : decodeG1 acc with
          | none => rw [ha] at hc; cases hc
          | some A => rw [ha] at hc; cases hc
        | some B => exact ⟨B, h1, h2, rfl⟩
      · exact ih c p h w hw
  exact key inst ⟨0, 0⟩ p h

theorem vkLoop_reads {inst : List (List Word)} : ∀ (k b e : ℕ) (vks : List SolG1), e = b + 4 →
    Gpp.vkLoop inst k b e = some vks → ∀ j < k, ∃ p, Gpp.sumAt inst (b + 4 * j) (b + 4 * j + 4) = some p
  | 0, b, e, vks, _, h, j, hj => by omega
  | k + 1, b, e, vks, he, h, j, hj => by
    unfold Gpp.vkLoop at h
    rw [g1_bind] at h
    obtain ⟨vk, h1, h⟩ := h
    rw [u32_bind] at h
    obtain ⟨_, h⟩ := h
    rw [opt_bind] at h
    obtain ⟨rest, h2, h⟩ := h
    subst he
    cases j with
    | zero => exact ⟨vk, h1⟩
    | succ j =>
      obtain ⟨p, hp⟩ := vkLoop_reads k (b + 4) _ rest rfl h2 j (by omega)
      refine ⟨p, ?_⟩
      rw [show b + 4 * (j + 1) = b + 4 + 4 * j by ring]
      exact hp

theorem slice_four {v l : List Word} {b : ℕ} {a c d f : Word} (h : Gpp.slice v b (b + 4) = some l)
    (hl : l = [a, c, d, f]) : v.getD b 0 = a ∧ v.getD (b + 1) 0 = c ∧ v.getD (b + 2) 0 = d ∧
      v.getD (b + 3) 0 = f := by
  unfold Gpp.slice at h
  split at h
  · rw [Nat.add_sub_cancel_left] at h
    have h' := (Option.some.inj h).trans hl
    have hg : ∀ i < 4, v.getD (b + i) 0 = [a, c, d, f].getD i 0 := by
      intro i hi
      rw [← h']
      simp only [List.getD_eq_getElem?_getD, List.getElem?_take, List.getElem?_drop, if_pos hi]
    exact ⟨hg 0 (by norm_num), hg 1 (by norm_num), hg 2 (by norm_num), hg 3 (by norm_num)⟩
  · cases h

theorem sumAt_reduced {inst : List (List Word)} {j : ℕ} {p : SolG1}
    (h : Gpp.sumAt inst (4 * j) (4 * j + 4) = some p) : ∀ v ∈ inst, ∀ k, k = 2 * j ∨ k = 2 * j + 1 →
      (v.getD (2 * k) 0).toNat + 2 ^ 136 * (v.getD (2 * k + 1) 0).toNat < q := by
  intro v hv k hk
  obtain ⟨l, pt, B, h1, h2, h3⟩ := sumAt_reads h v hv
  obtain ⟨a, b, c, d, h4, h5, h6⟩ := readBnG1_some h2
  obtain ⟨e1, e2, e3, e4⟩ := slice_four h1 h4
  unfold decodeG1 at h3
  split at h3
  · rename_i hq
    rw [h5, h6] at hq
    rcases hk with rfl | rfl
    · rw [show 2 * (2 * j) = 4 * j by ring, e1, e2]; exact hq.1
    · rw [show 2 * (2 * j + 1) = 4 * j + 2 by ring, e3, show 4 * j + 2 + 1 = 4 * j + 3 by ring, e4]
      exact hq.2
  · cases h3

theorem createGpp_reduced {E : BnPairing} {n : ℕ} {gpk : SolG2} {inst : List (List Word)}
    {out : SolG2 × List SolG1} (h : Gpp.createGpp E n gpk inst = some out) :
    ∀ w ∈ inst, Reduced n w := by
  obtain ⟨a, h1, _, _, h2, _⟩ := createGpp_key h
  intro w hw k hk
  rcases Nat.lt_or_ge k 2 with h0 | h0
  · exact sumAt_reduced (j := 0) h1 w hw k (by omega)
  · obtain ⟨p, hp⟩ := vkLoop_reads n 4 8 _ rfl h2 (k / 2 - 1) (by omega)
    have e : 4 + 4 * (k / 2 - 1) = 4 * (k / 2) := by omega
    rw [e] at hp
    exact sumAt_reduced hp w hw k (by omega)

end Verif
