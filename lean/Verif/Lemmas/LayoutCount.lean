import Verif.Lemmas.LayoutDkg

/-! The number of public inputs of the layout. -/

namespace Verif.Layout
open Verif MainGate

variable {α β : Type}

/-- Whenever the chip function succeeds, its result has the property. -/
def Yields (m : Synth α) (R : α → Prop) : Prop := ∀ c o, m c = some o → R o.val

theorem yields_pure {a : α} {R : α → Prop} (h : R a) : Yields (pure a) R := fun c o ho => by
  cases ho
  exact h

theorem yields_bind {m : Synth α} {f : α → Synth β} {R : α → Prop} {R' : β → Prop} (hm : Yields m R)
    (hf : ∀ a, R a → Yields (f a) R') : Yields (m >>= f) R' := by
  intro c o ho
  obtain ⟨o1, o2, h1, h2, rfl⟩ := bind_some ho
  exact hf _ (hm _ _ h1) o1.ctx o2 h2

theorem yields_true (m : Synth α) : Yields m fun _ => True := fun _ _ _ => trivial

theorem yields_mono {m : Synth α} {R R' : α → Prop} (hm : Yields m R) (h : ∀ a, R a → R' a) : Yields m R' :=
  fun c o ho => h _ (hm c o ho)

theorem yields_region {m : Synth α} {R : α → Prop} {k : ℕ} (hm : Yields m R) : Yields (assignRegion k m) R :=
  fun _ o ho => hm _ o ho

theorem yields_mapS {f : α → Synth β} {R : β → Prop} (hf : ∀ x, Yields (f x) R) : ∀ xs : List α,
    Yields (mapS f xs) fun ys => ys.length = xs.length ∧ ∀ y ∈ ys, R y
  | [] => yields_pure ⟨rfl, fun y hy => nomatch hy⟩
  | x :: xs => yields_bind (hf x) fun y hy => yields_bind (yields_mapS hf xs) fun ys hys =>
      yields_pure ⟨by rw [List.length_cons, List.length_cons, hys.1], fun z hz => by
        rcases List.mem_cons.1 hz with rfl | hz
        · exact hy
        · exact hys.2 z hz⟩

theorem yields_foldS {f : β → α → Synth β} (I : ℕ → β → Prop) (hf : ∀ k b x, I k b → Yields (f b x) (I (k + 1))) :
    ∀ (xs : List α) (k : ℕ) (b : β), I k b → Yields (foldS f xs b) (I (k + xs.length))
  | [], k, b, h => yields_pure h
  | x :: xs, k, b, h => yields_bind (hf k b x h) fun b' h' => by
      have e := yields_foldS I hf xs (k + 1) b' h'
      rw [Nat.add_assoc, Nat.add_comm 1] at e
      exact e

theorem yields_exposeAll (cells : List Cell) (o : ℕ) : Yields (exposeAll cells o) fun o' => o' = o + cells.length := by
  refine yields_mono (yields_foldS (fun k o' => o' = o + k) ?_ cells 0 o rfl) fun o' h => by rw [h, Nat.zero_add]
  intro k b x h
  exact yields_bind (yields_true _) fun _ _ => yields_pure (by rw [h, Nat.add_assoc])

theorem length_flatten_const {xs : List (List β)} {m : ℕ} (h : ∀ x ∈ xs, x.length = m) : xs.flatten.length = xs.length * m := by
  induction xs with
  | nil => exact (Nat.zero_mul m).symm
  | cons x xs ih =>
    rw [List.flatten_cons, List.length_append, ih fun y hy => h y (List.mem_cons_of_mem _ hy), h x List.mem_cons_self,
      List.length_cons, Nat.add_comm, Nat.succ_mul]

theorem yields_exposeOptimal (b : Option Cell) (ints : List (List Cell)) (o : ℕ) :
    Yields (exposeOptimal b ints o) fun out => out.2 = o + ints.length * 2 := by
  refine yields_bind (yields_true _) fun _ _ => yields_bind (yields_true _) fun _ _ => yields_bind (yields_true _) fun _ _ => ?_
  refine yields_bind (R := fun out => out.2.length = ints.length * 2) ?_ fun out h => ?_
  · refine yields_region (yields_bind (yields_true _) fun base _ => ?_)
    refine yields_bind (yields_mapS (R := fun cells : List Cell => cells.length = 2) (fun limbs => ?_) ints) fun w hw => ?_
    · exact yields_mono (yields_mapS (R := fun _ => True) (fun i => yields_true _) _) fun ys hys => by
        rw [hys.1, List.length_range]; rfl
    · refine yields_pure ?_
      rw [length_flatten_const hw.2, hw.1]
  · exact yields_bind (yields_exposeAll out.2 o) fun o' h' => yields_pure (by rw [h', h])

variable {J : IntegerImpl}

theorem yields_exposeG1 (tab : List (List (P1 J))) (b : Option Cell) (s : Cell) (o : ℕ) :
    Yields (exposeG1 tab b s o) fun out => out.2 = o + 4 :=
  yields_bind (yields_true _) fun _ _ => yields_exposeOptimal b _ o

theorem yields_exposeG2 (tab : List (List (P2 J))) (b : Option Cell) (s : Cell) (o : ℕ) :
    Yields (exposeG2 tab b s o) fun out => out.2 = o + 8 :=
  yields_bind (yields_true _) fun _ _ => yields_exposeOptimal b _ o

theorem yields_exposePoint (p : PtCell) (o : ℕ) : Yields (exposePoint p o) fun o' => o' = o + 2 :=
  yields_bind (yields_true _) fun _ _ => yields_bind (yields_true _) fun _ _ => yields_pure rfl

theorem yields_sharesLoop (tab : List (List (P1 J))) (base : Cell) (shares : List Cell) (n o : ℕ) :
    Yields (sharesLoop tab base shares n o) fun o' => o' = o + 4 * n := by
  refine yields_mono (yields_foldS (fun k o' => o' = o + 4 * k) ?_ (List.range n) 0 o rfl) fun o' h => by
    rw [h, List.length_range, Nat.zero_add]
  intro k b x h
  exact yields_bind (yields_true _) fun _ _ => yields_bind (yields_exposeG1 tab _ _ b) fun e he => yields_pure (by rw [he, h]; omega)

theorem yields_memberRegion (aux auxNeg : PtCell) (bits shares : List Cell) (i o : ℕ) :
    Yields (memberRegion aux auxNeg bits shares i o) fun m => m.2 = o + 1 :=
  yields_bind (yields_true _) fun _ _ => yields_bind (yields_true _) fun _ _ => yields_bind (yields_true _) fun _ _ =>
    yields_bind (yields_true _) fun _ _ => yields_pure rfl

theorem yields_membersLoop (aux auxNeg : PtCell) (bits shares : List Cell) (n o : ℕ) :
    Yields (membersLoop aux auxNeg bits shares n o) fun st => st.1.length = n ∧ st.2 = o + n := by
  refine yields_mono (yields_foldS (fun k st => st.1.length = k ∧ st.2 = o + k) ?_ (List.range n) 0 ([], o) ⟨rfl, rfl⟩)
    fun st h => by rw [List.length_range, Nat.zero_add] at h; exact h
  rintro k ⟨pks, o'⟩ x ⟨h1, h2⟩
  dsimp only at h1 h2
  refine yields_bind (yields_memberRegion _ _ _ _ _ o') fun m hm => yields_pure ⟨?_, ?_⟩
  · rw [List.length_append, h1]; rfl
  · rw [hm, h2, Nat.add_assoc]

theorem yields_synthesize (cfg : DkgConfig) (auxG1 : G1) (auxG2 : G2) :
    Yields (synthesize J cfg auxG1 auxG2) fun o => o = 7 * cfg.numberOfMembers + 14 := by
  refine yields_bind (yields_true _) fun sh _ => yields_bind (yields_true _) fun tabs _ => yields_bind (yields_true _) fun aux _ => ?_
  refine yields_bind (yields_exposeG1 _ _ _ _) fun e0 h0 => ?_
  refine yields_bind (yields_sharesLoop _ _ _ _ _) fun o1 h1 => ?_
  refine yields_bind (yields_exposeG2 _ _ _ _) fun e2 h2 => ?_
  refine yields_bind (yields_true _) fun gr _ => ?_
  refine yields_bind (yields_exposePoint _ _) fun o3 h3 => ?_
  refine yields_bind (yields_membersLoop _ _ _ _ _ _) fun ms hm => ?_
  refine yields_mono (yields_foldS (fun k o' => o' = ms.2 + 2 * k) ?_ ms.1 0 ms.2 rfl) fun o h => ?_
  · intro k b x h
    exact yields_mono (yields_exposePoint x b) fun o' h' => by rw [h', h]; omega
  · rw [h, hm.1, hm.2, h3, h2, h1, h0]
    omega

end Verif.Layout
