import Verif.Model.Mock
import Verif.Props.ClientDkg

/-! Lemmas on the `mock` command. -/

namespace Verif.Mock
open Verif.Props

theorem mapM_okE {ε α β : Type} (f : α → Except ε β) (g : α → β) :
    ∀ l : List α, (∀ a ∈ l, f a = .ok (g a)) → l.mapM f = .ok (l.map g)
  | [], _ => rfl
  | a :: l, h => by
    rw [List.mapM_cons, h a List.mem_cons_self,
      mapM_okE f g l (fun b hb => h b (List.mem_cons_of_mem _ hb))]
    rfl

theorem lift_bind {α β : Type} (a : α) (f : α → Except MockFail β) :
    (lift (.ok a) >>= f) = f a := rfl

theorem ok_bind {α β : Type} (a : α) (f : α → Except MockFail β) :
    ((Except.ok a : Except MockFail α) >>= f) = f a := rfl

theorem file_bind {α β : Type} (a : α) (f : α → Except MockFail β) :
    (file (some a) >>= f) = f a := rfl

/-- The coefficients and the randomness drawn for a dealer. -/
def dealing (t : ℕ) (d : ℕ → Fr) : List Fr × ℕ := ((List.range t).map d, (d t).val)

theorem new_ok (t n : ℕ) (ht : 0 < t) (hn : 1 ≤ n) (pks : List Gk) (hl : pks.length = n) (d : ℕ → Fr) :
    DkgMemberParams.new Poseidon.hash2 ⟨t, n⟩ pks d = .ok ⟨⟨t, n⟩, (List.range t).map d,
      (List.range' 1 n).map (fun i : ℕ => Spec.poly ((List.range t).map d) (i : Fr)), d t, pks,
      Client.paramsOf n pks (dealing t d)⟩ := by
  have h := memberParams_eq Poseidon.hash2 ⟨t, n⟩ ht hn pks hl d
  have h2 := DkgCircuit.new_eq_dealt t n ht hn pks hl d _ h
  rw [h]
  dsimp only at h2 ⊢
  rw [h2]
  rfl

/-- The parameters of the dealers, as the command creates them. -/
noncomputable def params (t n : ℕ) (pks : List Gk) (d : ℕ → Fr) : DkgMemberParams :=
  ⟨⟨t, n⟩, (List.range t).map d,
      (List.range' 1 n).map (fun i : ℕ => Spec.poly ((List.range t).map d) (i : Fr)), d t, pks,
      Client.paramsOf n pks (dealing t d)⟩

/-- The group polynomial. -/
theorem group_poly (t n : ℕ) (draw : ℕ → ℕ → Fr) : ∃ F : List Fr, F.length = t ∧
    ∀ x, (((List.range n).map (fun j => dealing t (draw j))).map (fun d => Spec.poly d.1 x)).sum =
      Spec.poly F x := by
  obtain ⟨F, h1, h2⟩ := Client.sum_poly t ((List.range n).map (fun j => (List.range t).map (draw j))) (by
    intro c hc
    obtain ⟨j, _, rfl⟩ := List.mem_map.1 hc
    rw [List.length_map, List.length_range])
  refine ⟨F, h1, fun x => ?_⟩
  rw [← h2 x, List.map_map, List.map_map]
  rfl

/-- What a dealer needs for its points to be finite. -/
def Finite (t n : ℕ) (d : ℕ → Fr) : Prop :=
  d 0 ≠ 0 ∧ ∀ i, 1 ≤ i → i ≤ n → Spec.poly ((List.range t).map d) (i : Fr) ≠ 0

theorem smul_ne {a : Fr} (h : a ≠ 0) : a • g1 ≠ 0 := by
  intro h'
  rcases smul_G1_eq_zero h' with h' | h'
  · exact h h'
  · exact g1_ne_zero h'

theorem instance_ok (ip : Bool) (t n : ℕ) (ht : 0 < t) (pks : List Gk) (hl : pks.length = n)
    (d : ℕ → Fr) (h : ip = true → Finite t n d) :
    (Client.paramsOf n pks (dealing t d)).toInstance ip pks =
      .ok (encParams (Client.paramsOf n pks (dealing t d)) pks) := by
  have hlen := (DkgCircuit.length_dealt n (dealing t d).1 (dealing t d).2 pks).1
  rw [toInstance_eq ip _ pks (by rw [hl]; exact hlen), if_neg]
  rintro ⟨hip, h'⟩
  obtain ⟨h0, h1⟩ := h hip
  have h0' : Spec.poly (dealing t d).1 0 ≠ 0 := by
    unfold dealing
    rw [DkgCircuit.poly_range_zero ht]
    exact h0
  rcases h' with h' | h' | h'
  · exact smul_ne h0' h'
  · obtain ⟨i, hi, he⟩ := List.mem_map.1 h'
    rw [List.mem_range'_1] at hi
    exact smul_ne (h1 i hi.1 (by omega)) he
  · have : smul2 (Spec.poly (dealing t d).1 0) g2 = smul2 0 g2 := by
      rw [smul2_zero']
      exact h'
    exact h0' (smul2_inj this)

theorem fromInstance_ok (t n : ℕ) (pks : List Gk) (hl : pks.length = n) (d : ℕ → Fr) :
    fromInstance ⟨t, n⟩ (encParams (Client.paramsOf n pks (dealing t d)) pks) =
      .ok (Client.paramsOf n pks (dealing t d), pks) :=
  fromInstance_encParams t n _ pks (DkgCircuit.length_dealt n _ _ pks).1
    (DkgCircuit.length_dealt n _ _ pks).2 hl

theorem saveShares_eq (k : ℕ → DkgShareKey) (hk : ∀ i, (k i).index = i + 1) (f : Files) : ∀ n,
    saveShares ((List.range n).map k) f = { f with
      share := fun i => if 1 ≤ i ∧ i ≤ n then some (ShareKeySerde.of (k (i - 1))) else f.share i }
  | 0 => by
    have : (fun i => if 1 ≤ i ∧ i ≤ 0 then some (ShareKeySerde.of (k (i - 1))) else f.share i) = f.share := by
      funext i
      rw [if_neg (by omega)]
    rw [this]
    rfl
  | n + 1 => by
    have ih := saveShares_eq k hk f n
    unfold saveShares at ih ⊢
    rw [List.range_succ, List.map_append, List.foldl_append, ih]
    simp only [List.map_cons, List.map_nil, List.foldl_cons, List.foldl_nil, hk]
    congr 1
    funext i
    by_cases h : i = n + 1
    · rw [h, Function.update_self, if_pos ⟨by omega, le_refl _⟩, Nat.add_sub_cancel]
    · rw [Function.update_of_ne h]
      by_cases h' : 1 ≤ i ∧ i ≤ n
      · rw [if_pos h', if_pos ⟨h'.1, by omega⟩]
      · rw [if_neg h', if_neg (by omega)]

/-- The share of member `i + 1`. -/
noncomputable def shareOf (F : List Fr) (i : ℕ) : DkgShareKey :=
  ⟨i + 1, Spec.poly F ((i + 1 : ℕ) : Fr), Spec.poly F ((i + 1 : ℕ) : Fr) • g1⟩

/-- The aggregated parameters. -/
noncomputable def globalOf (n : ℕ) (F : List Fr) : DkgGlobalPubParams :=
  ⟨Spec.poly F 0 • g1, smul2 (Spec.poly F 0) g2,
    (List.range n).map (fun i => Spec.poly F ((i + 1 : ℕ) : Fr) • g1)⟩

/-- The directory after `--dkg`. -/
noncomputable def afterDkg (t n : ℕ) (pks : List Gk) (draw : ℕ → ℕ → Fr) (F : List Fr) (f : Files) : Files :=
  { f with
    instances := some ((List.range n).map (fun j =>
      (encParams (Client.paramsOf n pks (dealing t (draw j))) pks).map writeField))
    secret := writeFrom MemberParamsSerde.of ((List.range n).map (fun j => params t n pks (draw j))) f.secret
    dkgsPublic := some (((List.range n).map (fun j => Client.paramsOf n pks (dealing t (draw j)))).map
      PublicParamsSerde.of)
    gpp := some (GlobalParamsSerde.of (globalOf n F))
    gpk := some (Point2Serde.ofG2 (smul2 (Spec.poly F 0) g2))
    vks := some (((List.range n).map (fun i => Spec.poly F ((i + 1 : ℕ) : Fr) • g1)).map PointSerde.ofG1)
    share := fun i => if 1 ≤ i ∧ i ≤ n then some (ShareKeySerde.of (shareOf F (i - 1))) else f.share i }

theorem share_verify (t n : ℕ) (F : List Fr) {i : ℕ} (hi : i < n) :
    (shareOf F i).verify ⟨t, n⟩ (globalOf n F).verifyKeys = .ok () := by
  unfold DkgShareKey.verify shareOf globalOf
  rw [if_neg (by simp only; omega)]
  simp only [Nat.add_sub_cancel, List.getElem?_map, List.getElem?_range hi, Option.map_some,
    ne_eq, not_true_eq_false, if_false]

theorem mockDkg_ok (ip : Bool) (t n : ℕ) (ht : 0 < t) (htn : t ≤ n) (sk : ℕ → Fq)
    (draw : ℕ → ℕ → Fr) (hfin : ip = true → ∀ j, j < n → Finite t n (draw j)) (f : Files)
    (hm : ∀ i, i < n → ∃ m, f.member (i + 1) = some m ∧ m.read = .ok (MemberKey.random (sk i)))
    (F : List Fr)
    (hF : ∀ x, (((List.range n).map (fun j => dealing t (draw j))).map (fun d => Spec.poly d.1 x)).sum =
      Spec.poly F x) :
    mockDkg ip ⟨t, n⟩ draw f =
      .ok (afterDkg t n ((List.range n).map (fun i => sk i • gk)) draw F f) := by
  obtain ⟨pks, hpks⟩ : ∃ pks, pks = (List.range n).map (fun i => sk i • gk) := ⟨_, rfl⟩
  have hl : pks.length = n := by rw [hpks, List.length_map, List.length_range]
  have e0 : (List.range n).mapM (fun i => do
      let m ← file (f.member (i + 1))
      lift m.read) = .ok ((List.range n).map (fun i => MemberKey.random (sk i))) := by
    refine mapM_okE _ _ _ fun i hi => ?_
    obtain ⟨m, h1, h2⟩ := hm i (List.mem_range.1 hi)
    rw [h1, file_bind, h2]
    rfl
  have e1 : (List.range n).mapM (fun i => lift (DkgMemberParams.new Poseidon.hash2 ⟨t, n⟩ pks (draw i))) =
      .ok ((List.range n).map (fun j => params t n pks (draw j))) := by
    refine mapM_okE _ _ _ fun i hi => ?_
    rw [new_ok t n ht (by omega) pks hl]
    rfl
  have e2 : ((List.range n).map (fun j => params t n pks (draw j))).mapM
      (fun d => lift (d.publicParams.toInstance ip d.publicKeys)) =
      .ok (((List.range n).map (fun j => params t n pks (draw j))).map
        (fun d => encParams d.publicParams d.publicKeys)) := by
    refine mapM_okE _ _ _ fun d hd => ?_
    obtain ⟨j, hj, rfl⟩ := List.mem_map.1 hd
    unfold params
    dsimp only
    rw [instance_ok ip t n ht pks hl (draw j) (fun h => hfin h j (List.mem_range.1 hj))]
    rfl
  have hmp : ((List.range n).map (fun j => params t n pks (draw j))).map (·.publicParams) =
      ((List.range n).map (fun j => dealing t (draw j))).map (Client.paramsOf n pks) := by
    rw [List.map_map, List.map_map]
    rfl
  have e3 := Client.global_dealt (n := n) (pks := pks)
    (ds := (List.range n).map (fun j => dealing t (draw j)))
    (by
      intro h
      have := congrArg List.length h
      rw [List.length_map, List.length_range, List.length_nil] at this
      omega) hF
  have e4 : (List.range n).mapM (fun i => do
      let m ← lift (getOrPanic ((List.range n).map (fun i => MemberKey.random (sk i))) i)
      let share ← lift (m.dkgShareKey Poseidon.hash2 ⟨t, n⟩ (i + 1)
        (((List.range n).map (fun j => dealing t (draw j))).map (Client.paramsOf n pks)))
      lift (share.verify ⟨t, n⟩ (globalOf n F).verifyKeys)
      return share) = .ok ((List.range n).map (shareOf F)) := by
    refine mapM_okE _ _ _ fun i hi => ?_
    have hi := List.mem_range.1 hi
    have hg : getOrPanic ((List.range n).map (fun i => MemberKey.random (sk i))) i =
        .ok (MemberKey.random (sk i)) := by
      unfold getOrPanic
      rw [List.getElem?_map, List.getElem?_range hi]
      rfl
    have hk : pks[i]? = some (sk i • gk) := by
      rw [hpks, List.getElem?_map, List.getElem?_range hi]
      rfl
    rw [hg, lift_bind, Client.share_dealt hF hi hk, lift_bind]
    have := share_verify t n F hi
    unfold shareOf at this ⊢
    rw [this]
    rfl
  have hmk : ((List.range n).map (fun i => MemberKey.random (sk i))).map (·.pk) = pks := by
    rw [hpks, List.map_map]
    rfl
  unfold mockDkg
  dsimp only
  rw [e0, ok_bind, hmk, e1, ok_bind, hmp, e2, ok_bind, e3, lift_bind]
  dsimp only [globalOf] at e4
  rw [e4, ok_bind, saveShares_eq (shareOf F) (fun _ => rfl)]
  rw [← hpks]
  unfold afterDkg saveParams saveInstances
  dsimp only
  rw [← hmp]
  simp only [List.map_map, GlobalParamsSerde.of, globalOf]
  rfl

/-- The directory after `--rand`. -/
noncomputable def afterRandom (keccak : Keccak) (h2c : List Byte → G1) (n : ℕ) (F : List Fr)
    (input : List Byte) (nonce : ℕ → Fr) (f : Files) : Files :=
  { f with
    evals := some ((List.range n).map (fun i => PartialEvalSerde.of
      (DkgShareKey.evaluate keccak h2c (shareOf F i) input (nonce i))))
    pseudo := some (PseudoRandomSerde.of
      ⟨Spec.poly F 0 • h2c input, hashPoint keccak (Spec.poly F 0 • h2c input)⟩) }

theorem range_zipIdx {α : Type} (k : ℕ → α) (n : ℕ) :
    ((List.range n).map k).zipIdx = (List.range n).map (fun i => (k i, i)) := by
  apply List.ext_getElem?
  intro i
  rw [List.getElem?_zipIdx, List.getElem?_map, List.getElem?_map]
  by_cases h : i < n
  · rw [List.getElem?_range h]
    simp only [Option.map_some, Nat.zero_add]
  · rw [List.getElem?_eq_none (by rw [List.length_range]; omega)]
    rfl

theorem eval_verify (keccak : Keccak) (h2c : List Byte → G1) (t n : ℕ) (F : List Fr) {i : ℕ}
    (hi : i < n) (input : List Byte) (nonce : Fr) :
    (DkgShareKey.evaluate keccak h2c (shareOf F i) input nonce).verify keccak h2c ⟨t, n⟩ input
      (Spec.poly F ((i + 1 : ℕ) : Fr) • g1) = .ok () :=
  (C05_honest_evaluation_verifies keccak h2c ⟨t, n⟩ (shareOf F i) rfl
    (by show 1 ≤ i + 1; omega) (by show i + 1 ≤ n; omega) input nonce).2.2

theorem combine_first (keccak : Keccak) (h2c : List Byte → G1) (t n : ℕ) (ht : 0 < t)
    (htn : t ≤ n) (hn : n < 2 ^ 64) (F : List Fr) (hl : F.length = t) (input : List Byte)
    (nonce : ℕ → Fr) :
    combinePartialEvaluations keccak ⟨t, n⟩ (((List.range n).map (fun i =>
      DkgShareKey.evaluate keccak h2c (shareOf F i) input (nonce i))).take t) =
      .ok ⟨Spec.poly F 0 • h2c input, hashPoint keccak (Spec.poly F 0 • h2c input)⟩ := by
  obtain ⟨a0, rest, rfl⟩ : ∃ a0 rest, F = a0 :: rest := by
    cases F with
    | nil => rw [← hl] at ht; exact absurd ht (lt_irrefl _)
    | cons a l => exact ⟨a, l, rfl⟩
  have hlen : (((List.range n).map (fun i => DkgShareKey.evaluate keccak h2c (shareOf (a0 :: rest) i) input (nonce i))).take t).length = t := by
    rw [List.length_take, List.length_map, List.length_range]
    omega
  have hidx : (((List.range n).map (fun i => DkgShareKey.evaluate keccak h2c (shareOf (a0 :: rest) i) input (nonce i))).take t).map
      (·.index) = List.range' 1 t := by
    rw [← List.map_take, List.map_map, List.take_range, List.range'_eq_map_range, min_eq_left htn]
    apply List.map_congr_left
    intro i _
    show i + 1 = 1 + i
    omega
  obtain ⟨p, h1, h2, h3⟩ := C03_recombination keccak ⟨t, n⟩ ht hn a0 rest hl (h2c input) _ hlen
    (by
      rw [hidx]
      refine ⟨?_, ?_⟩
      · exact List.pairwise_lt_range'
      · intro i hi
        rw [List.mem_range'_1] at hi
        exact ⟨hi.1, by show i ≤ n; omega⟩)
    (by
      intro s hs
      obtain ⟨i, _, rfl⟩ := List.mem_map.1 (List.mem_of_mem_take hs)
      rfl)
  rw [h1, poly_zero_eval]
  obtain ⟨pf, v⟩ := p
  dsimp only at h2 h3
  rw [h2, h3, hashPoint_eq]

theorem mockRandom_ok (E : BnPairing) (keccak : Keccak) (h2c : List Byte → G1) (t n : ℕ) (ht : 0 < t)
    (htn : t ≤ n) (hn : n < 2 ^ 64) (F : List Fr) (hl : F.length = t) (input : List Byte)
    (nonce : ℕ → Fr) (f : Files)
    (hs : ∀ i, i < n → ∃ s, f.share (i + 1) = some s ∧ s.read = .ok (shareOf F i))
    (hg : ∃ g, f.gpp = some g ∧ g.read = .ok (globalOf n F)) :
    mockRandom E keccak h2c ⟨t, n⟩ input nonce f = .ok (afterRandom keccak h2c n F input nonce f) := by
  have e0 : (List.range n).mapM (fun i => do
      let s ← file (f.share (i + 1))
      lift s.read) = .ok ((List.range n).map (shareOf F)) := by
    refine mapM_okE _ _ _ fun i hi => ?_
    obtain ⟨s, h1, h2⟩ := hs i (List.mem_range.1 hi)
    rw [h1, file_bind, h2]
    rfl
  obtain ⟨g, hg1, hg2⟩ := hg
  have e1 : ((List.range n).map (fun i => (shareOf F i, i))).mapM (fun si => do
      let sigma := DkgShareKey.evaluate keccak h2c si.1 input (nonce si.2)
      let vk ← lift (getOrPanic (globalOf n F).verifyKeys si.2)
      lift (sigma.verify keccak h2c ⟨t, n⟩ input vk)
      return sigma) = .ok (((List.range n).map (fun i => (shareOf F i, i))).map
        (fun si => DkgShareKey.evaluate keccak h2c si.1 input (nonce si.2))) := by
    refine mapM_okE _ _ _ fun si hsi => ?_
    obtain ⟨i, hi, rfl⟩ := List.mem_map.1 hsi
    have hi := List.mem_range.1 hi
    have hgp : getOrPanic (globalOf n F).verifyKeys i = .ok (Spec.poly F ((i + 1 : ℕ) : Fr) • g1) := by
      unfold getOrPanic globalOf
      rw [List.getElem?_map, List.getElem?_range hi]
      rfl
    dsimp only
    rw [hgp, lift_bind, eval_verify keccak h2c t n F hi]
    rfl
  have hmap : ((List.range n).map (fun i => (shareOf F i, i))).map
        (fun si => DkgShareKey.evaluate keccak h2c si.1 input (nonce si.2)) =
      (List.range n).map (fun i => DkgShareKey.evaluate keccak h2c (shareOf F i) input (nonce i)) := by
    rw [List.map_map]
    rfl
  unfold mockRandom
  dsimp only at e1 ⊢
  rw [e0, ok_bind, hg1, file_bind, hg2, lift_bind, range_zipIdx, e1, ok_bind, hmap,
    if_neg (by rw [List.length_map, List.length_range]; omega),
    combine_first keccak h2c t n ht htn hn F hl, lift_bind]
  have hv := (C07_pseudorandom_verify_iff E keccak h2c
    ⟨Spec.poly F 0 • h2c input, hashPoint keccak (Spec.poly F 0 • h2c input)⟩ input (Spec.poly F 0)).1.2
    ⟨rfl, hashPoint_eq _ _⟩
  rw [show (globalOf n F).g2a = smul2 (Spec.poly F 0) g2 from rfl, hv, lift_bind]
  unfold saveEvals afterRandom
  rw [List.map_map]
  rfl

end Verif.Mock
