import Verif.Lemmas.Halo2Opening
import Verif.Lemmas.Halo2Domain

/-! The constraints as polynomials. -/

namespace Verif.Spec.Halo2
open Polynomial

/-! ### Functions that are polynomials -/

/-- `f` is a polynomial of degree at most `d`. -/
def IsPoly (d : ℕ) (f : Fr → Fr) : Prop := ∃ p : Fr[X], p.natDegree ≤ d ∧ ∀ x, p.eval x = f x

namespace IsPoly
variable {d e : ℕ} {f g : Fr → Fr}

theorem mono (h : IsPoly d f) (hd : d ≤ e) : IsPoly e f := by
  obtain ⟨p, h1, h2⟩ := h
  exact ⟨p, h1.trans hd, h2⟩

theorem const (c : Fr) : IsPoly 0 fun _ => c := ⟨C c, by rw [natDegree_C], fun _ => eval_C⟩

theorem var : IsPoly 1 fun x => x := ⟨X, natDegree_X_le, fun _ => eval_X⟩

theorem poly (p : Fr[X]) (h : p.natDegree ≤ d) : IsPoly d fun x => p.eval x := ⟨p, h, fun _ => rfl⟩

/-- A polynomial at a multiple of the argument. -/
theorem shift (p : Fr[X]) (h : p.natDegree ≤ d) (c : Fr) : IsPoly d fun x => p.eval (x * c) :=
  ⟨p.comp (X * C c), by
    rw [natDegree_comp]
    have h1 : (X * C c : Fr[X]).natDegree ≤ 1 := (natDegree_mul_C_le _ _).trans natDegree_X_le
    exact (Nat.mul_le_mul h h1).trans (Nat.mul_one d).le,
    fun x => by rw [eval_comp, eval_mul, eval_X, eval_C]⟩

theorem add (hf : IsPoly d f) (hg : IsPoly e g) : IsPoly (max d e) fun x => f x + g x := by
  obtain ⟨p, h1, h2⟩ := hf
  obtain ⟨p', h1', h2'⟩ := hg
  exact ⟨p + p', (natDegree_add_le _ _).trans (max_le_max h1 h1'), fun x => by rw [eval_add, h2, h2']⟩

theorem sub (hf : IsPoly d f) (hg : IsPoly e g) : IsPoly (max d e) fun x => f x - g x := by
  obtain ⟨p, h1, h2⟩ := hf
  obtain ⟨p', h1', h2'⟩ := hg
  exact ⟨p - p', (natDegree_sub_le _ _).trans (max_le_max h1 h1'), fun x => by rw [eval_sub, h2, h2']⟩

theorem mul (hf : IsPoly d f) (hg : IsPoly e g) : IsPoly (d + e) fun x => f x * g x := by
  obtain ⟨p, h1, h2⟩ := hf
  obtain ⟨p', h1', h2'⟩ := hg
  exact ⟨p * p', natDegree_mul_le.trans (add_le_add h1 h1'), fun x => by rw [eval_mul, h2, h2']⟩

theorem pow (hf : IsPoly d f) (k : ℕ) : IsPoly (k * d) fun x => f x ^ k := by
  obtain ⟨p, h1, h2⟩ := hf
  exact ⟨p ^ k, natDegree_pow_le.trans (Nat.mul_le_mul_left k h1), fun x => by rw [eval_pow, h2]⟩

theorem sum {ι : Type*} (s : Finset ι) (F : ι → Fr → Fr) (h : ∀ i ∈ s, IsPoly d (F i)) :
    IsPoly d fun x => ∑ i ∈ s, F i x := by
  classical
  induction s using Finset.induction_on with
  | empty => exact (const 0).mono (Nat.zero_le _)
  | insert a s ha ih =>
    simp only [Finset.sum_insert ha]
    have h1 := (h a (Finset.mem_insert_self _ _)).add (ih fun i hi => h i (Finset.mem_insert_of_mem hi))
    exact h1.mono (max_self d).le

/-- Products over a list. -/
theorem listProd {ι : Type*} (l : List ι) (F : ι → Fr → Fr) (h : ∀ i, IsPoly d (F i)) :
    IsPoly (l.length * d) fun x => (l.map fun i => F i x).prod := by
  induction l with
  | nil => exact (const 1).mono (Nat.zero_le _)
  | cons a l ih =>
    simp only [List.map_cons, List.prod_cons, List.length_cons]
    exact ((h a).mul ih).mono (by rw [Nat.add_mul, Nat.one_mul, Nat.add_comm])

theorem dot {v : Fr → Fin 3 → Fr} (m : Fin 3 → Fr) (h : ∀ j, IsPoly d fun x => v x j) :
    IsPoly d fun x => Halo2.dot m (v x) := by
  have := (((h 0).mul (const (m 0))).add ((h 1).mul (const (m 1)))).add ((h 2).mul (const (m 2)))
  exact this.mono (by omega)

end IsPoly

/-- The elements of a list are polynomials. -/
def IsPolyList (d : ℕ) (F : Fr → List Fr) : Prop :=
  ∃ l : List Fr[X], (∀ p ∈ l, p.natDegree ≤ d) ∧ ∀ x, F x = l.map fun p => p.eval x

namespace IsPolyList
variable {d : ℕ}

theorem nil : IsPolyList d fun _ => [] := ⟨[], by simp, fun _ => rfl⟩

theorem cons {f : Fr → Fr} {F : Fr → List Fr} (h : IsPoly d f) (hF : IsPolyList d F) :
    IsPolyList d fun x => f x :: F x := by
  obtain ⟨p, h1, h2⟩ := h
  obtain ⟨l, h3, h4⟩ := hF
  refine ⟨p :: l, ?_, fun x => by simp only [h4, List.map_cons, h2]⟩
  intro p' hp'
  rcases List.mem_cons.1 hp' with rfl | h
  · exact h1
  · exact h3 _ h

theorem append {F G : Fr → List Fr} (hF : IsPolyList d F) (hG : IsPolyList d G) :
    IsPolyList d fun x => F x ++ G x := by
  obtain ⟨l, h1, h2⟩ := hF
  obtain ⟨l', h3, h4⟩ := hG
  refine ⟨l ++ l', ?_, fun x => by simp only [h2, h4, List.map_append]⟩
  intro p hp
  rcases List.mem_append.1 hp with h | h
  · exact h1 _ h
  · exact h3 _ h

end IsPolyList

/-! ### The rows -/

/-- The polynomial that is 1 in row `i` and 0 in the others. -/
noncomputable def rowPoly (V : Key) (i : ℕ) : Fr[X] :=
  Lagrange.basis (Finset.range V.n) (fun i => V.omega ^ i) i

/-- The polynomial of the instance column. -/
noncomputable def instPoly (V : Key) (inst : List Fr) : Fr[X] :=
  ∑ i ∈ Finset.range inst.length, C (inst.getD i 0) * rowPoly V i

/-- What the constraints refer to, with polynomials. -/
noncomputable def rowAt (V : Key) (K : KeyPolys) (inst : List Fr) (P : Polys) (x : Fr) : Row :=
  ⟨evalsAt V K P x, (instPoly V inst).eval x, (rowPoly V 0).eval x, (rowPoly V (V.n - 6)).eval x,
   ∑ i ∈ Finset.range 5, (rowPoly V (V.n - 1 - i)).eval x⟩

theorem rowPoly_natDegree (V : Key) (hV : V.Valid) {D : ℕ} (hD : V.n ≤ D + 1) {i : ℕ} (hi : i < V.n) :
    (rowPoly V i).natDegree ≤ D := by
  unfold rowPoly
  rw [Lagrange.natDegree_basis (pow_injOn hV.root) (Finset.mem_range.2 hi), Finset.card_range]
  omega

theorem eight_le (V : Key) (hV : V.Valid) : 8 ≤ V.n :=
  show 2 ^ 3 ≤ 2 ^ V.k from Nat.pow_le_pow_right (by norm_num) hV.k_ge

theorem instPoly_natDegree (V : Key) (hV : V.Valid) {D : ℕ} (hD : V.n ≤ D + 1) (inst : List Fr)
    (hi : inst.length ≤ V.n) : (instPoly V inst).natDegree ≤ D := by
  refine natDegree_sum_le_of_forall_le _ _ fun i h => (natDegree_C_mul_le _ _).trans ?_
  exact rowPoly_natDegree V hV hD (by have := Finset.mem_range.1 h; omega)

section polys
variable {V : Key} (hV : V.Valid) {K : KeyPolys} {D : ℕ} (hD : V.n ≤ D + 1) {inst : List Fr}
  (hi : inst.length ≤ V.n) {P : Polys} (hK : K.Bound D) (hP : P.Bound D)

include hK in
theorem poly_f (i : Fin 23) : IsPoly D fun x => (evalsAt V K P x).f i := .poly _ (hK.fixed i)
include hK in
theorem poly_s (i : Fin 9) : IsPoly D fun x => (evalsAt V K P x).s i := .poly _ (hK.perm i)
include hP in
theorem poly_a (i : Fin 5) : IsPoly D fun x => (evalsAt V K P x).a i := .poly _ (hP.advice i)
include hP in
theorem poly_a4Next : IsPoly D fun x => (evalsAt V K P x).a4Next := .shift _ (hP.advice 4) _
include hP in
theorem poly_aNext (i : Fin 3) : IsPoly D fun x => (evalsAt V K P x).aNext i := by
  fin_cases i
  · exact .shift _ (hP.advice 0) V.omega
  · exact .shift _ (hP.advice 1) V.omega
  · exact .shift _ (hP.advice 2) V.omega
include hP in
theorem poly_aPrev (i : Fin 3) : IsPoly D fun x => (evalsAt V K P x).aPrev i := by
  fin_cases i
  · exact .shift _ (hP.advice 0) V.omega⁻¹
  · exact .shift _ (hP.advice 1) V.omega⁻¹
  · exact .shift _ (hP.advice 2) V.omega⁻¹
include hP in
theorem poly_z (i : Fin 3) : IsPoly D fun x => (evalsAt V K P x).z i := .poly _ (hP.permProduct i)
include hP in
theorem poly_zNext (i : Fin 3) : IsPoly D fun x => (evalsAt V K P x).zNext i := .shift _ (hP.permProduct i) _
include hP in
theorem poly_zLast (i : Fin 2) : IsPoly D fun x => (evalsAt V K P x).zLast i := by
  fin_cases i
  · exact .shift _ (hP.permProduct 0) (V.omega⁻¹ ^ 6)
  · exact .shift _ (hP.permProduct 1) (V.omega⁻¹ ^ 6)
include hP in
theorem poly_lz (i : Fin 5) : IsPoly D fun x => (evalsAt V K P x).lz i := .poly _ (hP.lookupProduct i)
include hP in
theorem poly_lzNext (i : Fin 5) : IsPoly D fun x => (evalsAt V K P x).lzNext i :=
  .shift _ (hP.lookupProduct i) _
include hP in
theorem poly_li (i : Fin 5) : IsPoly D fun x => (evalsAt V K P x).li i := .poly _ (hP.lookupInput i)
include hP in
theorem poly_liPrev (i : Fin 5) : IsPoly D fun x => (evalsAt V K P x).liPrev i := .shift _ (hP.lookupInput i) _
include hP in
theorem poly_lt (i : Fin 5) : IsPoly D fun x => (evalsAt V K P x).lt i := .poly _ (hP.lookupTable i)

include hV hD in
theorem poly_l0 : IsPoly D fun x => (rowAt V K inst P x).l0 :=
  .poly _ (rowPoly_natDegree V hV hD (by have := eight_le V hV; omega))
include hV hD in
theorem poly_lLast : IsPoly D fun x => (rowAt V K inst P x).lLast :=
  .poly _ (rowPoly_natDegree V hV hD (by have := eight_le V hV; omega))
include hV hD in
theorem poly_lBlind : IsPoly D fun x => (rowAt V K inst P x).lBlind :=
  IsPoly.sum (Finset.range 5) (fun i x => (rowPoly V (V.n - 1 - i)).eval x) fun i _ => .poly _ (rowPoly_natDegree V hV hD (by have := eight_le V hV; omega))
include hV hD in
theorem poly_active : IsPoly D fun x => active (rowAt V K inst P x) :=
  ((IsPoly.const 1).sub ((poly_lLast hV hD).add (poly_lBlind hV hD))).mono (by omega)
include hV hD hi in
theorem poly_inst : IsPoly D fun x => (rowAt V K inst P x).inst := .poly _ (instPoly_natDegree V hV hD inst hi)

include hV hD hi hK hP in
theorem poly_permColumn (j : Fin 9) : IsPoly D fun x => permColumn (rowAt V K inst P x) j := by
  fin_cases j
  · exact poly_a hP 0
  · exact poly_a hP 1
  · exact poly_a hP 2
  · exact poly_a hP 3
  · exact poly_a hP 4
  · exact poly_inst hV hD hi
  · exact poly_f hK 15
  · exact poly_f hK 16
  · exact poly_f hK 17

include hK in
theorem poly_rcA (j : Fin 3) : IsPoly D fun x => rcA (evalsAt V K P x) j := by
  fin_cases j
  · exact poly_f hK 12
  · exact poly_f hK 13
  · exact poly_f hK 14

include hK in
theorem poly_rcB (j : Fin 3) : IsPoly D fun x => rcB (evalsAt V K P x) j := by
  fin_cases j
  · exact poly_f hK 15
  · exact poly_f hK 16
  · exact poly_f hK 17

include hK hP in
theorem poly_mainGate : IsPoly (3 * D) fun x => mainGate (evalsAt V K P x) := by
  have a := poly_a (V := V) (K := K) hP
  have f := poly_f (V := V) (P := P) hK
  have h := (((((((((a 0).mul (f 0)).add ((a 1).mul (f 1))).add ((a 2).mul (f 2))).add ((a 3).mul (f 3))).add
    ((a 4).mul (f 4))).add (((a 0).mul (a 1)).mul (f 5))).add (((a 2).mul (a 3)).mul (f 6))).add
    ((f 7).mul (poly_a4Next (V := V) (K := K) hP))).add (f 8)
  exact h.mono (by omega)

include hK hP in
theorem poly_fullRound (i : Fin 3) : IsPoly (6 * D) fun x => fullRound (evalsAt V K P x) i := by
  have a := poly_a (V := V) (K := K) hP
  have c := poly_rcA (V := V) (P := P) hK
  have h := (poly_f (V := V) (P := P) hK 20).mul ((IsPoly.dot (d := 5 * D)
    (v := fun x => ![((evalsAt V K P x).a 0 + rcA (evalsAt V K P x) 0) ^ 5,
      ((evalsAt V K P x).a 1 + rcA (evalsAt V K P x) 1) ^ 5,
      ((evalsAt V K P x).a 2 + rcA (evalsAt V K P x) 2) ^ 5]) (Poseidon.MDS i) (fun j => by
      fin_cases j
      · exact (((a 0).add (c 0)).pow 5).mono (by omega)
      · exact (((a 1).add (c 1)).pow 5).mono (by omega)
      · exact (((a 2).add (c 2)).pow 5).mono (by omega))).sub (poly_aNext (V := V) (K := K) hP i))
  exact h.mono (by omega)

include hK hP in
theorem poly_mid (i : Fin 3) : IsPoly D fun x => mid (evalsAt V K P x) i := by
  have a := poly_a (V := V) (K := K) hP
  have c := poly_rcA (V := V) (P := P) hK
  exact IsPoly.dot (d := D)
    (v := fun x => ![(evalsAt V K P x).a 3, (evalsAt V K P x).a 1 + rcA (evalsAt V K P x) 1,
      (evalsAt V K P x).a 2 + rcA (evalsAt V K P x) 2]) (Poseidon.MDS i) (fun j => by
      fin_cases j
      · exact a 3
      · exact ((a 1).add (c 1)).mono (by omega)
      · exact ((a 2).add (c 2)).mono (by omega))

include hK hP in
theorem poly_partialRounds : IsPolyList (6 * D) fun x => partialRounds (evalsAt V K P x) := by
  have a := poly_a (V := V) (K := K) hP
  have c := poly_rcA (V := V) (P := P) hK
  have b := poly_rcB (V := V) (P := P) hK
  have m := poly_mid (V := V) hK hP
  have f := poly_f (V := V) (P := P) hK 21
  have o (i : Fin 3) := IsPoly.dot (Poseidon.MDS_INV i) (poly_aNext (V := V) (K := K) hP)
  refine .cons ?_ (.cons ?_ (.cons ?_ (.cons ?_ .nil)))
  · exact (f.mul ((((a 0).add (c 0)).pow 5).sub (a 3))).mono (by omega)
  · exact (f.mul ((((m 0).add (b 0)).pow 5).sub (o 0))).mono (by omega)
  · exact (f.mul (((m 1).add (b 1)).sub (o 1))).mono (by omega)
  · exact (f.mul (((m 2).add (b 2)).sub (o 2))).mono (by omega)

include hK hP in
theorem poly_padAndAdd : IsPolyList (6 * D) fun x => padAndAdd (evalsAt V K P x) := by
  have a := poly_a (V := V) (K := K) hP
  have p := poly_aPrev (V := V) (K := K) hP
  have n := poly_aNext (V := V) (K := K) hP
  have f := poly_f (V := V) (P := P) hK 22
  refine .cons ?_ (.cons ?_ (.cons ?_ .nil))
  · exact (f.mul (((p 0).add (a 0)).sub (n 0))).mono (by omega)
  · exact (f.mul (((p 1).add (a 1)).sub (n 1))).mono (by omega)
  · exact (f.mul ((p 2).sub (n 2))).mono (by omega)

include hV hD hi hK hP in
theorem poly_permStep (Ch : Challenges) (k : Fin 3) (cols : List (Fin 9)) (hc : cols.length ≤ 4) :
    IsPoly (6 * D) fun x => permStep { Ch with x := x } (rowAt V K inst P x) k cols := by
  have col := poly_permColumn hV hD hi hK hP
  have h1 : 1 ≤ D := by have := eight_le V hV; omega
  have u := IsPoly.listProd (d := D) cols (fun j x => permColumn (rowAt V K inst P x) j +
    Ch.beta * (rowAt V K inst P x).e.s j + Ch.gamma) fun j =>
      (((col j).add ((IsPoly.const Ch.beta).mul (poly_s hK j))).add (.const Ch.gamma)).mono (by omega)
  have v := IsPoly.listProd (d := D) cols (fun j x => permColumn (rowAt V K inst P x) j +
    Ch.beta * (delta ^ (j : ℕ) * x) + Ch.gamma) fun j =>
      (((col j).add ((IsPoly.const Ch.beta).mul ((IsPoly.const (delta ^ (j : ℕ))).mul .var))).add
        (.const Ch.gamma)).mono (by omega)
  have hl : cols.length * D ≤ 4 * D := Nat.mul_le_mul_right D hc
  exact ((poly_active hV hD).mul (((poly_zNext hP k).mul u).sub ((poly_z hP k).mul v))).mono (by omega)

include hV hD hi hK hP in
theorem poly_permutation (Ch : Challenges) :
    IsPolyList (6 * D) fun x => permutation { Ch with x := x } (rowAt V K inst P x) := by
  have l := poly_l0 (K := K) (inst := inst) (P := P) hV hD
  have last := poly_lLast (K := K) (inst := inst) (P := P) hV hD
  have z := poly_z (V := V) (K := K) hP
  have zl := poly_zLast (V := V) (K := K) hP
  refine .cons ?_ (.cons ?_ (.cons ?_ (.cons ?_ (.cons ?_ (.cons ?_ (.cons ?_ .nil))))))
  · exact (l.mul ((IsPoly.const 1).sub (z 0))).mono (by omega)
  · exact (last.mul (((z 2).pow 2).sub (z 2))).mono (by omega)
  · exact (l.mul ((z 1).sub (zl 0))).mono (by omega)
  · exact (l.mul ((z 2).sub (zl 1))).mono (by omega)
  · exact poly_permStep hV hD hi hK hP Ch 0 _ (by decide)
  · exact poly_permStep hV hD hi hK hP Ch 1 _ (by decide)
  · exact poly_permStep hV hD hi hK hP Ch 2 _ (by decide)

include hK hP in
theorem poly_lookupInput (Ch : Challenges) (i : Fin 5) :
    IsPoly (2 * D) fun x => lookupInput { Ch with x := x } (evalsAt V K P x) i := by
  have a := poly_a (V := V) (K := K) hP
  have f := poly_f (V := V) (P := P) hK
  have main (j : Fin 5) := ((((f 18).mul (.const 5)).mul (.const Ch.theta)).add ((f 18).mul (a j)))
  fin_cases i
  · exact (main 0).mono (by omega)
  · exact (main 1).mono (by omega)
  · exact (main 2).mono (by omega)
  · exact (main 3).mono (by omega)
  · exact (((f 11).mul (.const Ch.theta)).add ((f 19).mul (a 0))).mono (by omega)

include hV hD hK hP in
theorem poly_lookup (Ch : Challenges) (i : Fin 5) :
    IsPolyList (6 * D) fun x => lookup { Ch with x := x } (rowAt V K inst P x) i := by
  have l := poly_l0 (K := K) (inst := inst) (P := P) hV hD
  have last := poly_lLast (K := K) (inst := inst) (P := P) hV hD
  have act := poly_active (K := K) (inst := inst) (P := P) hV hD
  have z := poly_lz (V := V) (K := K) hP i
  have zn := poly_lzNext (V := V) (K := K) hP i
  have li := poly_li (V := V) (K := K) hP i
  have lp := poly_liPrev (V := V) (K := K) hP i
  have lt := poly_lt (V := V) (K := K) hP i
  have f := poly_f (V := V) (P := P) hK
  have inp := poly_lookupInput (V := V) hK hP Ch i
  refine .cons ?_ (.cons ?_ (.cons ?_ (.cons ?_ (.cons ?_ .nil))))
  · exact (l.mul ((IsPoly.const 1).sub z)).mono (by omega)
  · exact (last.mul ((z.pow 2).sub z)).mono (by omega)
  · exact (act.mul ((zn.mul ((li.add (.const Ch.beta)).mul (lt.add (.const Ch.gamma)))).sub
      (z.mul ((inp.add (.const Ch.beta)).mul ((((f 9).mul (.const Ch.theta)).add (f 10)).add (.const Ch.gamma)))))).mono
      (by omega)
  · exact (l.mul (li.sub lt)).mono (by omega)
  · exact (act.mul ((li.sub lt).mul (li.sub lp))).mono (by omega)

include hV hD hi hK hP in
/-- The constraints are polynomials of degree at most `6 D`. -/
theorem poly_constraints (Ch : Challenges) :
    IsPolyList (6 * D) fun x => constraints { Ch with x := x } (rowAt V K inst P x) := by
  have lk := poly_lookup (inst := inst) hV hD hK hP Ch
  refine ((((((((IsPolyList.append ?_ (poly_partialRounds hK hP)).append (poly_padAndAdd hK hP)).append
    (poly_permutation hV hD hi hK hP Ch)).append (lk 0)).append (lk 1)).append (lk 2)).append (lk 3)).append (lk 4))
  exact .cons ((poly_mainGate hK hP).mono (by omega)) (.cons (poly_fullRound hK hP 0)
    (.cons (poly_fullRound hK hP 1) (.cons (poly_fullRound hK hP 2) .nil)))

end polys

end Verif.Spec.Halo2
