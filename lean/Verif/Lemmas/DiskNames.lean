import Verif.Spec.Files
import Verif.Lemmas.Disk
import Verif.Lemmas.JsonTyped

/-! Different data files have different names. -/

namespace Verif.Disk

theorem components_ne_nil (s : List Char) : components s ≠ [] := by
  match s with
  | [] => simp [components]
  | c :: cs =>
    rw [components]
    split
    · simp
    · split <;> simp

theorem components_append (a b : List Char) : components (a ++ '/' :: b) = components a ++ components b := by
  induction a with
  | nil => simp [components]
  | cons c a ih =>
    rw [List.cons_append, components, components, ih]
    split
    · rfl
    · cases h : components a with
      | nil => exact absurd h (components_ne_nil a)
      | cons w ws => rfl

theorem components_plain {n : List Char} (h : '/' ∉ n) : components n = [n] := by
  induction n with
  | nil => rfl
  | cons c n ih =>
    rw [List.mem_cons, not_or] at h
    rw [components, if_neg (fun e => h.1 e.symm), ih h.2]

/-- A plain name in a directory. -/
theorem resolve_sub (dir : List Char) {n : List Char} (h : '/' ∉ n) (h0 : n ≠ []) (h1 : n ≠ ['.'])
    (h2 : n ≠ ['.', '.']) : resolve (dir ++ '/' :: n) = n :: resolve dir := by
  unfold resolve
  rw [components_append, List.foldl_append, components_plain h, List.foldl_cons, List.foldl_nil]
  generalize List.foldl enter [] (components dir) = x
  unfold enter
  rw [if_neg (by
    rintro (e | e)
    · exact h0 e
    · exact h1 e), if_neg h2]

end Verif.Disk

namespace Verif.ClientFiles
open Disk

theorem slash_decimal (i : ℕ) : '/' ∉ decimalText i := by
  intro h
  have := decimalText_digits i _ h
  exact absurd this (by decide)

theorem resolve_data : resolve dataDir = ["data".toList] := by
  simp [resolve, dataDir, components, enter]

theorem resolve_members : resolve membersDir = ["members".toList, "data".toList] := by
  have h : "/members".toList = '/' :: "members".toList := by simp
  unfold membersDir
  rw [h, resolve_sub _ (by simp) (by simp) (by simp) (by simp), resolve_data]

theorem resolve_dkg : resolve dkgDir = ["dkg".toList, "data".toList] := by
  have h : "/dkg".toList = '/' :: "dkg".toList := by simp
  unfold dkgDir
  rw [h, resolve_sub _ (by simp) (by simp) (by simp) (by simp), resolve_data]

theorem resolve_secrets : resolve secretsDir = ["secrets".toList, "dkg".toList, "data".toList] := by
  have h : "/secrets".toList = '/' :: "secrets".toList := by simp
  unfold secretsDir
  rw [h, resolve_sub _ (by simp) (by simp) (by simp) (by simp), resolve_dkg]

theorem resolve_proofs : resolve proofsDir = ["proofs".toList, "dkg".toList, "data".toList] := by
  have h : "/proofs".toList = '/' :: "proofs".toList := by simp
  unfold proofsDir
  rw [h, resolve_sub _ (by simp) (by simp) (by simp) (by simp), resolve_dkg]

theorem resolve_shares : resolve sharesDir = ["shares".toList, "dkg".toList, "data".toList] := by
  have h : "/shares".toList = '/' :: "shares".toList := by simp
  unfold sharesDir
  rw [h, resolve_sub _ (by simp) (by simp) (by simp) (by simp), resolve_dkg]

theorem resolve_random : resolve randomDir = ["random".toList, "data".toList] := by
  have h : randomDir = dataDir ++ '/' :: "random".toList := by decide +kernel
  rw [h, resolve_sub _ (by simp) (by simp) (by simp) (by simp), resolve_data]

/-- An indexed name. -/
theorem resolve_indexed (dir pre post : List Char) (i : ℕ) (h1 : '/' ∉ pre) (h2 : '/' ∉ post)
    (h3 : 3 ≤ pre.length) :
    resolve (dir ++ '/' :: (pre ++ decimalText i ++ post)) = (pre ++ decimalText i ++ post) :: resolve dir := by
  have hl : ∀ n : List Char, n.length < 3 → pre ++ decimalText i ++ post ≠ n := by
    rintro n hn rfl
    simp only [List.length_append] at hn
    omega
  refine resolve_sub dir ?_ (hl _ (by simp)) (hl _ (by simp)) (hl _ (by simp))
  simp only [List.mem_append, not_or]
  exact ⟨⟨h1, slash_decimal i⟩, h2⟩

theorem indexed_inj {pre post : List Char} {i j : ℕ}
    (h : pre ++ decimalText i ++ post = pre ++ decimalText j ++ post) : i = j :=
  decimalText_inj (List.append_cancel_left (List.append_cancel_right h))

theorem name_mpks : resolve mpksPath = ["mpks.json".toList, "data".toList] := by
  have h : "/mpks.json".toList = '/' :: "mpks.json".toList := by simp
  unfold mpksPath
  rw [h, resolve_sub _ (by simp) (by simp) (by simp) (by simp), resolve_data]

theorem name_member {f : List Char} (h : '/' ∉ f) :
    resolve (memberPath f) = (f ++ ".json".toList) :: ["members".toList, "data".toList] := by
  unfold memberPath
  rw [← resolve_members]
  have hl : ∀ n : List Char, n.length < 3 → f ++ ".json".toList ≠ n := by
    rintro n hn rfl
    simp at hn
    omega
  refine resolve_sub membersDir ?_ (hl _ (by simp)) (hl _ (by simp)) (hl _ (by simp))
  simp only [List.mem_append, not_or]
  exact ⟨h, by simp⟩

theorem name_proof (i : ℕ) : resolve (proofPath i) = ("proof_".toList ++ decimalText i ++ ".dat".toList) ::
    ["proofs".toList, "dkg".toList, "data".toList] := by
  rw [← resolve_proofs]
  exact resolve_indexed _ _ _ i (by simp) (by simp) (by simp)

theorem name_instance (i : ℕ) : resolve (instancePath i) =
    ("instance_".toList ++ decimalText i ++ ".json".toList) ::
      ["proofs".toList, "dkg".toList, "data".toList] := by
  rw [← resolve_proofs]
  exact resolve_indexed _ _ _ i (by simp) (by simp) (by simp)

theorem name_share (i : ℕ) : resolve (sharePath i) =
    ("share_".toList ++ decimalText i ++ ".json".toList) ::
      ["shares".toList, "dkg".toList, "data".toList] := by
  rw [← resolve_shares]
  exact resolve_indexed _ _ _ i (by simp) (by simp) (by simp)

theorem name_secret (i : ℕ) : resolve (secretPath i) =
    ("secret_".toList ++ decimalText i ++ ".json".toList) ::
      ["secrets".toList, "dkg".toList, "data".toList] := by
  rw [← resolve_secrets]
  exact resolve_indexed _ _ _ i (by simp) (by simp) (by simp)

theorem name_eval (i : ℕ) : resolve (evalPath i) =
    ("eval_".toList ++ decimalText i ++ ".json".toList) :: ["random".toList, "data".toList] := by
  rw [← resolve_random]
  exact resolve_indexed _ _ _ i (by simp) (by simp) (by simp)

theorem name_allInstances : resolve allInstancesPath =
    ["all_instances.json".toList, "dkg".toList, "data".toList] := by
  rw [← resolve_dkg]
  exact resolve_sub _ (by simp) (by simp) (by simp) (by simp)

theorem name_gpk : resolve gpkPath = ["gpk.json".toList, "dkg".toList, "data".toList] := by
  rw [← resolve_dkg]
  exact resolve_sub _ (by simp) (by simp) (by simp) (by simp)

theorem name_vks : resolve vksPath = ["vks.json".toList, "dkg".toList, "data".toList] := by
  rw [← resolve_dkg]
  exact resolve_sub _ (by simp) (by simp) (by simp) (by simp)

theorem name_dkgsPublic : resolve dkgsPublicPath = ["dkgs_public.json".toList, "dkg".toList, "data".toList] := by
  rw [← resolve_dkg]
  exact resolve_sub _ (by simp) (by simp) (by simp) (by simp)

theorem name_gpp : resolve gppPath = ["gpp.json".toList, "dkg".toList, "data".toList] := by
  rw [← resolve_dkg]
  exact resolve_sub _ (by simp) (by simp) (by simp) (by simp)

theorem name_evals : resolve evalsPath = ["evals.json".toList, "random".toList, "data".toList] := by
  rw [← resolve_random]
  exact resolve_sub _ (by simp) (by simp) (by simp) (by simp)

theorem name_pseudo : resolve pseudoPath = ["pseudo.json".toList, "random".toList, "data".toList] := by
  rw [← resolve_random]
  exact resolve_sub _ (by simp) (by simp) (by simp) (by simp)

end Verif.ClientFiles

namespace Verif.Spec
open ClientFiles Disk

/-- The file name of a data file with a plain name, innermost first. -/
def DataFile.parts : DataFile → Name
  | memberKeys => ["mpks.json".toList, "data".toList]
  | member f => (f ++ ".json".toList) :: ["members".toList, "data".toList]
  | proof i => ("proof_".toList ++ decimalText i ++ ".dat".toList) ::
      ["proofs".toList, "dkg".toList, "data".toList]
  | instance_ i => ("instance_".toList ++ decimalText i ++ ".json".toList) ::
      ["proofs".toList, "dkg".toList, "data".toList]
  | allInstances => ["all_instances.json".toList, "dkg".toList, "data".toList]
  | gpk => ["gpk.json".toList, "dkg".toList, "data".toList]
  | vks => ["vks.json".toList, "dkg".toList, "data".toList]
  | share i => ("share_".toList ++ decimalText i ++ ".json".toList) ::
      ["shares".toList, "dkg".toList, "data".toList]
  | eval i => ("eval_".toList ++ decimalText i ++ ".json".toList) :: ["random".toList, "data".toList]
  | evals => ["evals.json".toList, "random".toList, "data".toList]
  | pseudo => ["pseudo.json".toList, "random".toList, "data".toList]
  | secret i => ("secret_".toList ++ decimalText i ++ ".json".toList) ::
      ["secrets".toList, "dkg".toList, "data".toList]
  | dkgsPublic => ["dkgs_public.json".toList, "dkg".toList, "data".toList]
  | gpp => ["gpp.json".toList, "dkg".toList, "data".toList]

theorem DataFile.name_eq {x : DataFile} (h : x.Plain) : x.name = x.parts := by
  cases x
  · exact name_mpks
  · exact name_member h
  · exact name_proof _
  · exact name_instance _
  · exact name_allInstances
  · exact name_gpk
  · exact name_vks
  · exact name_share _
  · exact name_eval _
  · exact name_evals
  · exact name_pseudo
  · exact name_secret _
  · exact name_dkgsPublic
  · exact name_gpp

set_option maxHeartbeats 1000000 in
theorem DataFile.parts_inj {x y : DataFile} (h : x.parts = y.parts) : x = y := by
  cases x <;> cases y <;> simp [DataFile.parts] at h ⊢ <;> first | exact h | exact decimalText_inj h

theorem DataFile.name_inj {x y : DataFile} (hx : x.Plain) (hy : y.Plain) (h : x.name = y.name) : x = y := by
  rw [name_eq hx, name_eq hy] at h
  exact parts_inj h

end Verif.Spec
