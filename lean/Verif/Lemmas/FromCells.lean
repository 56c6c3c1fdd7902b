import Verif.Lemmas.Instance
import Verif.Spec.Dealing

/-! Reading an instance whose coordinates need not be reduced. -/

namespace Verif
open Spec

theorem cell_lo_val (V : ℕ) : (((V % 2 ^ 136 : ℕ) : Fr)).val = V % 2 ^ 136 := by
  rw [ZMod.val_natCast, Nat.mod_eq_of_lt (lt_trans (Nat.mod_lt _ (by positivity)) pow136_lt_r)]

theorem cell_hi_val {V : ℕ} (hV : V < 2 ^ 254) : (((V / 2 ^ 136 : ℕ) : Fr)).val = V / 2 ^ 136 := by
  rw [ZMod.val_natCast, Nat.mod_eq_of_lt]
  refine lt_trans (Nat.div_lt_of_lt_mul (lt_of_lt_of_le hV ?_)) pow136_lt_r
  rw [← pow_add]; exact Nat.pow_le_pow_right (by norm_num) (by norm_num)

theorem join_coordCells {x : Fq} {d : List Fr} (h : CoordCells x d) : joinCoord d = x := by
  obtain ⟨V, hV, hx, rfl⟩ := h
  unfold joinCoord
  simp only [List.foldr_cons, List.foldr_nil, cell_lo_val, cell_hi_val hV, zero_mul, zero_add,
    bitLenLimb, wrapLen]
  rw [← hx]
  have h : ((V / 2 ^ 136 * 2 ^ 136 + V % 2 ^ 136 : ℕ) : Fq) = ((V : ℕ) : Fq) := by
    rw [mul_comm, Nat.div_add_mod]
  rw [Nat.cast_add, Nat.cast_mul, Nat.cast_pow, Nat.cast_ofNat] at h
  exact h

theorem Spec.CoordCells.length {x : Fq} {d : List Fr} (h : CoordCells x d) : d.length = 2 := by
  obtain ⟨V, hV, hx, rfl⟩ := h; rfl

theorem Spec.PointCells.length {P : G1} {d : List Fr} (h : PointCells P d) : d.length = 4 := by
  obtain ⟨_, dx, dy, hx, hy, rfl⟩ := h
  rw [List.length_append, hx.length, hy.length]

theorem Spec.Point2Cells.length {P : G2} {d : List Fr} (h : Point2Cells P d) : d.length = 8 := by
  obtain ⟨_, d0, d1, d2, d3, h0, h1, h2, h3, rfl⟩ := h
  simp only [List.length_append, h0.length, h1.length, h2.length, h3.length]

theorem publicToPoint_cells {P : G1} {d : List Fr} (h : PointCells P d) : publicToPoint d = .ok P := by
  have hl : ¬ d.length ≠ pointLen := by rw [h.length]; decide
  obtain ⟨_, dx, dy, hx, hy, rfl⟩ := h
  unfold publicToPoint
  rw [if_neg hl]
  have h1 : (dx ++ dy).take coordLen = dx := List.take_left' hx.length
  have h2 : (dx ++ dy).drop coordLen = dy := List.drop_left' hx.length
  rw [h1, h2, join_coordCells hx, join_coordCells hy, bnFromXY_coords]

theorem publicToPoint2_cells {P : G2} {d : List Fr} (h : Point2Cells P d) :
    publicToPoint2 d = .ok P := by
  have hl : ¬ d.length ≠ pointLen * 2 := by rw [h.length]; decide
  obtain ⟨_, d0, d1, d2, d3, h0, h1, h2, h3, rfl⟩ := h
  unfold publicToPoint2
  rw [if_neg hl]
  have e0 : ((d0 ++ d1 ++ d2 ++ d3).drop (0 * coordLen)).take coordLen = d0 := by
    simp only [zero_mul, List.drop_zero, List.append_assoc]
    exact List.take_left' h0.length
  have e1 : ((d0 ++ d1 ++ d2 ++ d3).drop (1 * coordLen)).take coordLen = d1 := by
    rw [List.append_assoc, List.append_assoc, List.drop_left' (by rw [h0.length]; rfl)]
    exact List.take_left' h1.length
  have e2 : ((d0 ++ d1 ++ d2 ++ d3).drop (2 * coordLen)).take coordLen = d2 := by
    rw [List.append_assoc, List.drop_left' (by rw [List.length_append, h0.length, h1.length]; rfl)]
    exact List.take_left' h2.length
  have e3 : ((d0 ++ d1 ++ d2 ++ d3).drop (3 * coordLen)).take coordLen = d3 := by
    rw [List.drop_left' (by simp only [List.length_append, h0.length, h1.length, h2.length]; rfl)]
    exact List.take_of_length_le (by rw [h3.length]; decide)
  simp only [e0, e1, e2, e3, join_coordCells h0, join_coordCells h1, join_coordCells h2,
    join_coordCells h3]
  have := g2FromXY_coords P
  rw [this]

/-- Reading the instance back from its parts. -/
theorem fromInstance_parts (t n : ℕ) (pp : DkgMemberPublicParams) (pks : List Gk)
    (cga : List Fr) (cgs : List (List Fr)) (cg2a : List Fr)
    (hga : cga.length = 4) (hga' : publicToPoint cga = .ok pp.ga)
    (hgs : List.Forall₂ (fun P d => d.length = 4 ∧ publicToPoint d = .ok P) pp.publicShares cgs)
    (hg2 : cg2a.length = 8) (hg2' : publicToPoint2 cg2a = .ok pp.g2a)
    (hs : pp.publicShares.length = n) (hc : pp.ciphers.length = n) (hp : pks.length = n) :
    fromInstance ⟨t, n⟩ (cga ++ cgs.flatten ++ cg2a ++ [(coords pp.gr).1, (coords pp.gr).2] ++
      pp.ciphers ++ pks.flatMap (fun pk => [(coords pk).1, (coords pk).2])) = .ok (pp, pks) := by
  have hcl : cgs.length = n := by rw [← hgs.length_eq, hs]
  have hin : ∀ i (h : i < pp.publicShares.length) (h' : i < cgs.length),
      cgs[i].length = 4 ∧ publicToPoint cgs[i] = .ok pp.publicShares[i] := fun i h h' => by
    have := (List.forall₂_iff_get.1 hgs).2 i h h'
    simpa using this
  have hm : ∀ d ∈ cgs, d.length = 4 := by
    intro d hd
    obtain ⟨i, hi, rfl⟩ := List.mem_iff_getElem.1 hd
    exact (hin i (by omega) hi).1
  have hfl : cgs.flatten = (List.range n).flatMap
      (fun i => if (cgs.getD i []).length = 4 then cgs.getD i [] else [0, 0, 0, 0]) := by
    rw [List.flatMap_def]
    congr 1
    conv_lhs => rw [← map_getD_range cgs [] hcl]
    apply List.map_congr_left
    intro i hi
    have hi' : i < cgs.length := by rw [hcl]; exact List.mem_range.1 hi
    rw [if_pos]
    rw [List.getD_eq_getElem?_getD, List.getElem?_eq_getElem hi']
    exact hm _ (List.getElem_mem _)
  have hslice : ∀ i < n, ∀ tail, ((cgs.flatten ++ tail).drop (i * 4)).take 4 = cgs.getD i [] := by
    intro i hi tail
    have hi' : i < cgs.length := by omega
    rw [hfl, slice_flatMap _ 4 (fun j => by split; exacts [by assumption, rfl]) (List.range n) i i tail
      (by rw [List.getElem?_range hi])]
    rw [if_pos]
    rw [List.getD_eq_getElem?_getD, List.getElem?_eq_getElem hi']
    exact hm _ (List.getElem_mem _)
  have hl1 : cgs.flatten.length = 4 * n := by
    rw [hfl, length_flatMap_const _ 4 (fun j => by split; exacts [by assumption, rfl]), List.length_range, mul_comm]
  have hl2 : (pks.flatMap encGk).length = 2 * n := by
    rw [length_flatMap_const encGk 2 (fun _ => rfl), hp, mul_comm]
  have hre : cga ++ cgs.flatten ++ cg2a ++ [(coords pp.gr).1, (coords pp.gr).2] ++
      pp.ciphers ++ pks.flatMap (fun pk => [(coords pk).1, (coords pk).2]) =
      cga ++ (cgs.flatten ++ (cg2a ++ (encGk pp.gr ++ (pp.ciphers ++ pks.flatMap encGk)))) := by
    simp only [List.append_assoc]; rfl
  rw [hre]
  generalize hI : cga ++ (cgs.flatten ++ (cg2a ++ (encGk pp.gr ++ (pp.ciphers ++
    pks.flatMap encGk)))) = ins
  have hlen : ins.length = 7 * n + 14 := by
    rw [← hI]
    simp only [List.length_append, hga, hg2, hl1, hl2, hc, encGk,
      List.length_cons, List.length_nil]
    omega
  have hpl : pointLen = 4 := rfl
  have hp2 : point2Len = 8 := rfl
  unfold fromInstance
  simp only [DkgConfig.instanceSize, hpl, hp2]
  rw [if_neg (by rw [hlen]; omega)]
  -- ga
  have e1 : ins.take 4 = cga := by rw [← hI, List.take_left' hga]
  -- shares
  have e2 : (List.range n).mapM (fun i => publicToPoint ((ins.drop (4 + i * 4)).take 4))
      = .ok pp.publicShares := by
    rw [mapM_ok _ (fun i => pp.publicShares.getD i 0), map_getD_range _ _ hs]
    intro i hi
    have hi' := List.mem_range.1 hi
    rw [← hI, ← List.drop_drop, List.drop_left' hga, hslice i hi']
    have h1 : i < cgs.length := by omega
    have h2 : i < pp.publicShares.length := by omega
    rw [List.getD_eq_getElem?_getD, List.getElem?_eq_getElem h1, List.getD_eq_getElem?_getD,
      List.getElem?_eq_getElem h2]
    exact (hin i h2 h1).2
  -- g2a
  have e3 : (ins.drop (4 + n * 4)).take 8 = cg2a := by
    rw [← hI, ← List.drop_drop, List.drop_left' hga,
      List.drop_left' (by rw [hl1, mul_comm]), List.take_left' hg2]
  -- gr
  have e4 : readGk ins (4 + n * 4 + 8) = .ok pp.gr := by
    have h := readGk_pks (cga ++ (cgs.flatten ++ cg2a)) [pp.gr] 0 pp.gr rfl
    have hx : (cga ++ (cgs.flatten ++ cg2a)).length = 4 + n * 4 + 8 := by
      simp only [List.length_append, hga, hg2, hl1]; ring
    rw [hx] at h
    unfold readGk at h ⊢
    have hmono : ∀ b, b < 4 + n * 4 + 8 + 2 → ins[b]? =
        (cga ++ (cgs.flatten ++ cg2a) ++ [pp.gr].flatMap encGk)[b]? := by
      intro b hb
      have hsplit : ins = (cga ++ (cgs.flatten ++ cg2a) ++
          [pp.gr].flatMap encGk) ++ (pp.ciphers ++ pks.flatMap encGk) := by
        rw [← hI]; simp [List.append_assoc]
      rw [hsplit, List.getElem?_append_left]
      rw [List.length_append, hx]
      simp [encGk]
      omega
    unfold getOrPanic at h ⊢
    rw [hmono _ (by omega), hmono _ (by omega)]
    exact h
  -- ciphers
  have e5 : (List.range n).mapM (fun i => getOrPanic ins (4 + n * 4 + 8 + 2 + i)) =
      .ok pp.ciphers := by
    rw [mapM_ok _ (fun i => pp.ciphers.getD i 0), map_getD_range _ _ hc]
    intro i hi
    have hi' : i < pp.ciphers.length := by have := List.mem_range.1 hi; omega
    apply getOrPanic_eq
    have hsplit : ins = (cga ++ (cgs.flatten ++ (cg2a ++ encGk pp.gr))) ++
        (pp.ciphers ++ pks.flatMap encGk) := by
      rw [← hI]; simp [List.append_assoc]
    have hx : (cga ++ (cgs.flatten ++ (cg2a ++ encGk pp.gr))).length = 4 + n * 4 + 8 + 2 := by
      simp only [List.length_append, hga, hg2, hl1, encGk, List.length_cons,
        List.length_nil]; ring
    rw [hsplit, List.getElem?_append_right (by omega), hx, Nat.add_sub_cancel_left,
      List.getElem?_append_left hi']
    simp [hi']
  -- keys
  have e6 : (List.range n).mapM (fun i => readGk ins (4 + n * 4 + 8 + 2 + n + 2 * i)) =
      .ok pks := by
    rw [mapM_ok _ (fun i => pks.getD i 0), map_getD_range _ _ hp]
    intro i hi
    have hi' : i < pks.length := by have := List.mem_range.1 hi; omega
    have h := readGk_pks (cga ++ (cgs.flatten ++ (cg2a ++ (encGk pp.gr ++ pp.ciphers)))) pks i
      (pks.getD i 0) (by simp [hi'])
    have hx : (cga ++ (cgs.flatten ++ (cg2a ++ (encGk pp.gr ++ pp.ciphers)))).length =
        4 + n * 4 + 8 + 2 + n := by
      simp only [List.length_append, hga, hg2, hl1, hc, encGk, List.length_cons,
        List.length_nil]; ring
    rw [hx] at h
    have hsplit : ins = (cga ++ (cgs.flatten ++ (cg2a ++ (encGk pp.gr ++ pp.ciphers)))) ++
        pks.flatMap encGk := by
      rw [← hI]; simp [List.append_assoc]
    rw [hsplit]
    exact h
  rw [e1, hga']
  simp only [bind, Except.bind, pure, Except.pure]
  rw [e2]
  simp only
  rw [e3, hg2']
  simp only
  rw [e4]
  simp only
  rw [e5]
  simp only
  rw [e6]

end Verif
