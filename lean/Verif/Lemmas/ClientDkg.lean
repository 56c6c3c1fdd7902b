import Verif.Lemmas.Client
import Verif.Lemmas.ZkdvrfLive
import Verif.Model.ClientDkg

/-! Lemmas about the DKG commands of the client. -/

namespace Verif.Client
open Verif

/-! ### Words and strings -/

theorem wordOfHex_hexOfWord (w : Word) : wordOfHex (hexOfWord w) = some w := by
  have hd : hexDecode (trim0x (hexOfWord w)) = some (minBytes w) := hexDecode_encode _
  unfold wordOfHex
  rw [hd]
  change (if (minBytes w).length ≤ 32 then some (BitVec.ofNat 256 (ofBE (minBytes w))) else none) = _
  rw [if_pos (length_minBytes w), ofBE_minBytes]
  exact congrArg some (BitVec.eq_of_toNat_eq (by
    rw [BitVec.toNat_ofNat]; exact Nat.mod_eq_of_lt w.isLt))

theorem wordOfHex_write {p : ℕ} (hp : ∀ x : ZMod p, x.val < 256 ^ 32) (x : ZMod p) :
    wordOfHex (writeField x) = some (wordOf x) := by
  have hd : hexDecode (trim0x (writeField x)) = some (feBytes x).reverse := hexDecode_encode _
  unfold wordOfHex
  rw [hd]
  change (if (feBytes x).reverse.length ≤ 32 then
    some (BitVec.ofNat 256 (ofBE (feBytes x).reverse)) else none) = _
  rw [if_pos (by simp), show (feBytes x).reverse = beBytes 32 x.val from rfl, ofBE_beBytes,
    Nat.mod_eq_of_lt (hp x)]
  rfl

theorem wordOfHex_Fq (x : Fq) : wordOfHex (writeField x) = some (wordOf x) :=
  wordOfHex_write Fq_val_lt x

theorem wordOfHex_Fr (x : Fr) : wordOfHex (writeField x) = some (wordOf x) :=
  wordOfHex_write Fr_val_lt x

theorem readField_word_Fr (x : Fr) : readField r (hexOfWord (wordOf x)) = .ok x := by
  rw [readField_hexOfWord, word_val, if_pos (ZMod.val_lt x), ZMod.natCast_zmod_val]

/-- Reading an instance downloaded from the contract. -/
theorem read_words (ins : List Fr) :
    ((wordsOf ins).map hexOfWord).mapM (readField r) = .ok ins := by
  rw [wordsOf, List.map_map]
  refine (mapM_map_ok (readField r) _ (fun x : Fr => x) ins ?_).trans ?_
  · intro x _
    exact readField_word_Fr x
  · rw [List.map_id']

/-! ### Dealings -/

/-- The words of an instance of a dealing of `d.1` with randomness `d.2` to the keys `pks`. -/
def Dealt (t n : ℕ) (pks : List Gk) (w : List Word) (d : List Fr × ℕ) : Prop :=
  d.1.length = t ∧ ∃ ins, Spec.DealingCells n d.1 d.2 pks ins ∧ w = wordsOf ins

/-- The parameters the library reads from the words. -/
noncomputable def paramsOf (n : ℕ) (pks : List Gk) (d : List Fr × ℕ) : DkgMemberPublicParams :=
  DkgCircuit.dealtParams n d.1 d.2 pks

theorem sum_poly (t : ℕ) : ∀ Cs : List (List Fr), (∀ c ∈ Cs, c.length = t) →
    ∃ F : List Fr, F.length = t ∧ ∀ x, (Cs.map (fun c => Spec.poly c x)).sum = Spec.poly F x
  | [], _ => ⟨List.replicate t 0, List.length_replicate, fun x => by
      rw [poly_replicate_zero, List.map_nil, List.sum_nil]⟩
  | c :: Cs, h => by
    obtain ⟨F, h1, h2⟩ := sum_poly t Cs (fun c hc => h c (List.mem_cons_of_mem _ hc))
    have hl : c.length = F.length := by rw [h1, h c List.mem_cons_self]
    refine ⟨List.zipWith (· + ·) c F, by simp [hl, h1], fun x => ?_⟩
    rw [List.map_cons, List.sum_cons, h2, poly_zipWith_add _ _ hl]

theorem sum_smul_g1 {α : Type} (f : α → Fr) : ∀ l : List α,
    (l.map (fun a => f a • g1)).sum = (l.map f).sum • g1
  | [] => by rw [List.map_nil, List.map_nil, List.sum_nil, List.sum_nil]; exact (zero_smul Fr g1).symm
  | a :: l => by
    rw [List.map_cons, List.sum_cons, List.map_cons, List.sum_cons, sum_smul_g1 f l, add_smul]

theorem sum_smul2_g2 {α : Type} (f : α → Fr) : ∀ l : List α,
    (l.map (fun a => smul2 (f a) g2)).sum = smul2 (l.map f).sum g2
  | [] => by rw [List.map_nil, List.map_nil, List.sum_nil, List.sum_nil]; exact smul2_zero'.symm
  | a :: l => by
    rw [List.map_cons, List.sum_cons, List.map_cons, List.sum_cons, sum_smul2_g2 f l, smul2_add]

/-- Reading all the instances. -/
theorem read_instances {t n : ℕ} {pks : List Gk} (hp : pks.length = n) :
    ∀ {pl : List (List Word)} {ds : List (List Fr × ℕ)}, List.Forall₂ (Dealt t n pks) pl ds →
      ∃ inss, (pl.map (fun l => l.map hexOfWord)).mapM (fun l => l.mapM (readField r)) = .ok inss ∧
        inss.mapM (fun s => do let p ← fromInstance ⟨t, n⟩ s; return p.1) =
          .ok (ds.map (paramsOf n pks))
  | _, _, .nil => ⟨[], rfl, rfl⟩
  | _, _, .cons (a := w) (b := d) (l₁ := pl) (l₂ := ds) h1 h2 => by
    obtain ⟨inss, e1, e2⟩ := read_instances hp h2
    obtain ⟨hl, ins, hd, rfl⟩ := h1
    refine ⟨ins :: inss, ?_, ?_⟩
    · rw [List.map_cons, List.mapM_cons, e1, read_words]
      rfl
    · rw [List.mapM_cons, e2, DkgCircuit.dealingCells_fromInstance hd hp]
      rfl

theorem paramsOf_shares (n : ℕ) (pks : List Gk) (d : List Fr × ℕ) (i : ℕ) (hi : i < n) :
    (paramsOf n pks d).publicShares.getD i 0 = Spec.poly d.1 ((i + 1 : ℕ) : Fr) • g1 := by
  change ((List.range' 1 n).map (fun i : ℕ => Spec.poly d.1 (i : Fr) • g1)).getD i 0 = _
  rw [List.getD_eq_getElem?_getD, List.getElem?_map, List.getElem?_range' hi]
  simp only [Option.map_some, Option.getD_some, one_mul, Nat.add_comm 1 i]

/-- The library's global parameters of dealings. -/
theorem global_dealt {n : ℕ} {pks : List Gk} {ds : List (List Fr × ℕ)} (hne : ds ≠ [])
    {F : List Fr} (hF : ∀ x, (ds.map (fun d => Spec.poly d.1 x)).sum = Spec.poly F x) :
    dkgGlobalPublicParams (ds.map (paramsOf n pks)) = .ok ⟨Spec.poly F 0 • g1,
      smul2 (Spec.poly F 0) g2,
      (List.range n).map (fun i => Spec.poly F ((i + 1 : ℕ) : Fr) • g1)⟩ := by
  rw [global_eq _ (by simpa using hne) n (by
    intro pp hpp
    obtain ⟨d, _, rfl⟩ := List.mem_map.1 hpp
    exact (DkgCircuit.length_dealt n d.1 d.2 pks).1)]
  have e1 : ((ds.map (paramsOf n pks)).map (fun pp => pp.ga)).sum = Spec.poly F 0 • g1 := by
    rw [List.map_map, ← hF 0]
    exact sum_smul_g1 (fun d : List Fr × ℕ => Spec.poly d.1 0) ds
  have e2 : ((ds.map (paramsOf n pks)).map (fun pp => pp.g2a)).sum = smul2 (Spec.poly F 0) g2 := by
    rw [List.map_map, ← hF 0]
    exact sum_smul2_g2 (fun d : List Fr × ℕ => Spec.poly d.1 0) ds
  have e3 : (List.range n).map (fun i =>
      ((ds.map (paramsOf n pks)).map (fun pp => pp.publicShares.getD i 0)).sum) =
      (List.range n).map (fun i => Spec.poly F ((i + 1 : ℕ) : Fr) • g1) := by
    apply List.map_congr_left
    intro i hi
    rw [List.map_map, ← hF, ← sum_smul_g1 (fun d : List Fr × ℕ => Spec.poly d.1 ((i + 1 : ℕ) : Fr))]
    congr 1
    apply List.map_congr_left
    intro d _
    exact paramsOf_shares n pks d i (List.mem_range.1 hi)
  rw [e1, e2, e3]

theorem decrypt_dealt {n : ℕ} {pks : List Gk} {d : List Fr × ℕ} {sk : Fq} {i : ℕ} (hi : i < n)
    (hk : pks[i]? = some (sk • gk)) :
    (MemberKey.random sk).decryptShare Poseidon.hash2 (paramsOf n pks d).gr
      ((paramsOf n pks d).ciphers.getD i 0) = Spec.poly d.1 ((i + 1 : ℕ) : Fr) := by
  have e : (paramsOf n pks d).ciphers.getD i 0 =
      maskOf Poseidon.hash2 ((MemberKey.random sk).sk • (paramsOf n pks d).gr) +
        Spec.poly d.1 ((i + 1 : ℕ) : Fr) := by
    change ((List.range n).map (fun i => Spec.poly d.1 ((i + 1 : ℕ) : Fr) +
        Poseidon.hash2 (coords (d.2 • pks.getD i 0)).1 (coords (d.2 • pks.getD i 0)).2)).getD i 0 =
      maskOf Poseidon.hash2 (sk • (d.2 • gk)) + Spec.poly d.1 ((i + 1 : ℕ) : Fr)
    have e2 : d.2 • sk • gk = sk • d.2 • gk := smul_comm _ _ _
    generalize Poseidon.hash2 = H
    rw [List.getD_eq_getElem?_getD, List.getElem?_map, List.getElem?_range hi, Option.map_some,
      Option.getD_some, List.getD_eq_getElem?_getD, hk, Option.getD_some, e2, maskOf, add_comm]
  rw [e]
  exact decrypt_mask _ _ _ _

/-- The member's share key from dealings. -/
theorem share_dealt {t n : ℕ} {pks : List Gk} {ds : List (List Fr × ℕ)}
    {F : List Fr} (hF : ∀ x, (ds.map (fun d => Spec.poly d.1 x)).sum = Spec.poly F x)
    {sk : Fq} {i : ℕ} (hi : i < n) (hk : pks[i]? = some (sk • gk)) :
    (MemberKey.random sk).dkgShareKey Poseidon.hash2 ⟨t, n⟩ (i + 1) (ds.map (paramsOf n pks)) =
      .ok ⟨i + 1, Spec.poly F ((i + 1 : ℕ) : Fr), Spec.poly F ((i + 1 : ℕ) : Fr) • g1⟩ := by
  rw [dkgShareKey_eq Poseidon.hash2 _ ⟨t, n⟩ (i + 1) (by omega) (by simp only; omega) _ (by
    intro pp hpp
    obtain ⟨d, _, rfl⟩ := List.mem_map.1 hpp
    rw [show (paramsOf n pks d).ciphers.length = n from
      (DkgCircuit.length_dealt n d.1 d.2 pks).2]
    omega)]
  have e : ((ds.map (paramsOf n pks)).map (fun pp => (MemberKey.random sk).decryptShare
      Poseidon.hash2 pp.gr (pp.ciphers.getD (i + 1 - 1) 0))).sum =
      Spec.poly F ((i + 1 : ℕ) : Fr) := by
    rw [List.map_map, ← hF]
    exact congrArg List.sum (List.map_congr_left (fun d _ => decrypt_dealt hi hk))
  rw [e]

end Verif.Client
