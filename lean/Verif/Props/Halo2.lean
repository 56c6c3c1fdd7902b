import Verif.Lemmas.Halo2Run
import Verif.Lemmas.Halo2Key
import Verif.Lemmas.Halo2Domain
import Verif.Props.Contract
import Verif.Model.MainGate

/-!
The on-chain verifier of DKG proofs, contracts/Halo2Verifier.sol, with the verifying key of the
repository.
-/

namespace Verif.Props
open Spec.Halo2 Halo2 Polynomial

/-! ### C59 -/

/-- C59. The verifying key contract returns the words of a well-formed key for 49 public inputs and
2^18 rows, over the generators of the two groups. -/
theorem C59_deployed_key : vkWords = deployedKey.words ∧ deployedKey.Valid ∧ deployedKey.instances = 49 ∧
    deployedKey.k = 18 ∧ deployedKey.g1 = g1 ∧ deployedKey.g2 = g2 ∧
    (∀ i, deployedKey.fixed i ≠ 0) ∧ (∀ i, deployedKey.perm i ≠ 0) ∧
    ∃ s : Fr, deployedKey.negSG2 = -smul2 s g2 := by
  refine ⟨deployed_words.symm, deployed_valid, rfl, rfl, rfl, rfl, fun i => (fixed_spec i).1,
    fun i => (perm_spec i).1, ?_⟩
  obtain ⟨m, hm⟩ := torsion_eq_smul2 deployed_valid.negSG2
  refine ⟨-m, ?_⟩
  rw [hm, eq_neg_iff_add_eq_zero, ← smul2_add, add_neg_cancel, smul2_zero']

/-- C59. The verifier never answers false: it answers true or reverts.  What it accepts is the
encoding of exactly one proof, all of whose commitments are points of the curve other than infinity,
and as many reduced public inputs as the key asks for. -/
theorem C59_accepted_format (E : BnPairing) (keccak : Keccak) (V : Key) (hV : V.Valid) (sel : List Byte)
    (hs : sel.length = 4) (addr : Word) (proof : List Byte) (ins : List Word) {b : Bool}
    (h : verifyProof E keccak V.words sel addr proof ins = some b) :
    b = true ∧ proof.length = 4480 ∧ ins.length = V.instances ∧ (∀ w ∈ ins, w.toNat < r) ∧
      ∃! π : Proof, π.Finite ∧ proof = π.bytes := by
  obtain ⟨hb, π, inst, hfin, hp, hi, hl⟩ := verifyProof_format E keccak V hV sel hs addr proof ins h
  refine ⟨hb, by rw [hp, length_bytes], by rw [hi, wordsOf, List.length_map, hl], ?_, π, ⟨hfin, hp⟩, ?_⟩
  · rw [hi]
    intro w hw
    obtain ⟨x, _, rfl⟩ := List.mem_map.1 hw
    exact wordOf_lt_r x
  · rintro π' ⟨_, hp'⟩
    refine words_inj (wordBytes_inj' ?_)
    rw [← bytes_eq, ← bytes_eq, ← hp', ← hp]

/-- C59. A DKG contract that uses this verifier with the key of the repository stores public
parameters only if it has five members, whatever is submitted. -/
theorem C59_five_members (E : BnPairing) (keccak : Keccak) (sel : List Byte) (hs : sel.length = 4)
    (addr : Word) (env : Env) (henv : env.verifyProof = verifyProof E keccak vkWords sel addr)
    {s : Zkdvrf.State} (hr : Zkdvrf.Reachable env s) {pp : List Word} (hpp : pp ∈ s.ppList) :
    s.memberCount = 5 ∧ ∀ w ∈ pp, w.toNat < r := by
  obtain ⟨proof, h1, h2, _⟩ := (Zkdvrf.dkgInv hr).ppOk pp hpp
  rw [henv, ← deployed_words] at h1
  have h := C59_accepted_format E keccak deployedKey deployed_valid sel hs addr proof pp h1
  refine ⟨?_, h.2.2.2.1⟩
  have h3 := h.2.2.1
  rw [h2, show deployedKey.instances = 49 from rfl] at h3
  omega

/-! ### C60 -/

theorem bytesOf_inj {a b : List Word} (h : bytesOf a = bytesOf b) : a = b := wordBytes_inj' h

theorem take_step {pw pw' : List Word} {m : ℕ} (k : ℕ) (h : pw.take m = pw'.take m)
    (h2 : (pw.drop m).take k = (pw'.drop m).take k) : pw.take (m + k) = pw'.take (m + k) := by
  rw [List.take_add, List.take_add, h, h2]

/-- C60. Each challenge determines the digest of the key, the public inputs and all parts of the proof
sent before it (138 of the 140 words for the last one, all but the last point): if two runs agree on
a challenge but not on these, they contain a collision of the hash function at the same position. -/
theorem C60_transcript_binding (keccak : Keccak) (d d' : Word) (ins ins' pw pw' : List Word)
    (hl : pw.length = 140) (hl' : pw'.length = 140) (i : ℕ) (hi : i < 8)
    (h : (hashes keccak d ins pw).getD i 0 = (hashes keccak d' ins' pw').getD i 0) :
    (d = d' ∧ ins = ins' ∧ pw.take (seen.getD i 0) = pw'.take (seen.getD i 0)) ∨
    ∃ j ≤ i, (hashInputs keccak d ins pw).getD j [] ≠ (hashInputs keccak d' ins' pw').getD j [] ∧
      keccak ((hashInputs keccak d ins pw).getD j []) = keccak ((hashInputs keccak d' ins' pw').getD j []) := by
  by_contra hno
  rw [not_or] at hno
  obtain ⟨hne, hno⟩ := hno
  have inj : ∀ j ≤ i, keccak ((hashInputs keccak d ins pw).getD j []) =
      keccak ((hashInputs keccak d' ins' pw').getD j []) →
      (hashInputs keccak d ins pw).getD j [] = (hashInputs keccak d' ins' pw').getD j [] := by
    intro j hj he
    by_contra hc
    exact hno ⟨j, hj, hc, he⟩
  clear hno
  -- the word at the head of an input and the rest
  have cons : ∀ {a b : Word} {l l' : List Word}, bytesOf (a :: l) = bytesOf (b :: l') → a = b ∧ l = l' := by
    intro a b l l' hb
    exact List.cons.inj (bytesOf_inj hb)
  have sep : ∀ {a b : Word}, Word.bytes a ++ [1] = Word.bytes b ++ [1] → a = b := by
    intro a b hb
    exact wordBytes_inj (List.append_cancel_right hb)
  have s1 : 0 ≤ i → (hashes keccak d ins pw).getD 0 0 = (hashes keccak d' ins' pw').getD 0 0 →
      d = d' ∧ ins = ins' ∧ pw.take 10 = pw'.take 10 := by
    intro h0 he
    have hb : bytesOf (d :: (ins ++ pw.take 10)) = bytesOf (d' :: (ins' ++ pw'.take 10)) := inj 0 h0 he
    obtain ⟨hd, hb⟩ := cons hb
    have hlen := congrArg List.length hb
    rw [List.length_append, List.length_append, List.length_take, List.length_take, hl, hl'] at hlen
    exact ⟨hd, List.append_inj hb (by omega)⟩
  have s2 : 1 ≤ i → (hashes keccak d ins pw).getD 1 0 = (hashes keccak d' ins' pw').getD 1 0 →
      d = d' ∧ ins = ins' ∧ pw.take 30 = pw'.take 30 := by
    intro h0 he
    obtain ⟨hp, hc⟩ := cons (inj 1 h0 he)
    obtain ⟨a, b, c⟩ := s1 (by omega) hp
    exact ⟨a, b, take_step 20 c hc⟩
  have s3 : 2 ≤ i → (hashes keccak d ins pw).getD 2 0 = (hashes keccak d' ins' pw').getD 2 0 →
      d = d' ∧ ins = ins' ∧ pw.take 30 = pw'.take 30 :=
    fun h0 he => s2 (by omega) (sep (inj 2 h0 he))
  have s4 : 3 ≤ i → (hashes keccak d ins pw).getD 3 0 = (hashes keccak d' ins' pw').getD 3 0 →
      d = d' ∧ ins = ins' ∧ pw.take 48 = pw'.take 48 := by
    intro h0 he
    obtain ⟨hp, hc⟩ := cons (inj 3 h0 he)
    obtain ⟨a, b, c⟩ := s3 (by omega) hp
    exact ⟨a, b, take_step 18 c hc⟩
  have s5 : 4 ≤ i → (hashes keccak d ins pw).getD 4 0 = (hashes keccak d' ins' pw').getD 4 0 →
      d = d' ∧ ins = ins' ∧ pw.take 58 = pw'.take 58 := by
    intro h0 he
    obtain ⟨hp, hc⟩ := cons (inj 4 h0 he)
    obtain ⟨a, b, c⟩ := s4 (by omega) hp
    exact ⟨a, b, take_step 10 c hc⟩
  have s6 : 5 ≤ i → (hashes keccak d ins pw).getD 5 0 = (hashes keccak d' ins' pw').getD 5 0 →
      d = d' ∧ ins = ins' ∧ pw.take 136 = pw'.take 136 := by
    intro h0 he
    obtain ⟨hp, hc⟩ := cons (inj 5 h0 he)
    obtain ⟨a, b, c⟩ := s5 (by omega) hp
    exact ⟨a, b, take_step 78 c hc⟩
  have s7 : 6 ≤ i → (hashes keccak d ins pw).getD 6 0 = (hashes keccak d' ins' pw').getD 6 0 →
      d = d' ∧ ins = ins' ∧ pw.take 136 = pw'.take 136 :=
    fun h0 he => s6 (by omega) (sep (inj 6 h0 he))
  have s8 : 7 ≤ i → (hashes keccak d ins pw).getD 7 0 = (hashes keccak d' ins' pw').getD 7 0 →
      d = d' ∧ ins = ins' ∧ pw.take 138 = pw'.take 138 := by
    intro h0 he
    obtain ⟨hp, hc⟩ := cons (inj 7 h0 he)
    obtain ⟨a, b, c⟩ := s7 (by omega) hp
    exact ⟨a, b, take_step 2 c hc⟩
  refine hne ?_
  match i, hi with
  | 0, _ => exact s1 le_rfl h
  | 1, _ => exact s2 le_rfl h
  | 2, _ => exact s3 le_rfl h
  | 3, _ => exact s4 le_rfl h
  | 4, _ => exact s5 le_rfl h
  | 5, _ => exact s6 le_rfl h
  | 6, _ => exact s7 le_rfl h
  | 7, _ => exact s8 le_rfl h

/-! ### C61 -/

/-- C61. What the verifier uses for the public inputs is the value at the evaluation point of the
polynomial of degree below `n` that takes the public inputs as its values in the first rows of the
domain and 0 in the others. -/
theorem C61_public_inputs (V : Key) (hV : V.Valid) (inst : List Fr) (hlen : inst.length ≤ V.n) (x : Fr)
    (hx : x ^ V.n ≠ 1) :
    ∃ I : Fr[X], I.degree < V.n ∧ (∀ i < V.n, I.eval (V.omega ^ i) = inst.getD i 0) ∧
      I.eval x = instanceAt V inst x := by
  have hn : V.n ≠ 0 := pow_ne_zero _ two_ne_zero
  have hrow : ∀ i, x ≠ V.omega ^ i := by
    rintro i rfl
    exact hx (row_pow hV.root i)
  refine ⟨Lagrange.interpolate (Finset.range V.n) (fun i => V.omega ^ i) (fun i => inst.getD i 0), ?_, ?_, ?_⟩
  · have := Lagrange.degree_interpolate_lt (fun i => inst.getD i 0) (pow_injOn hV.root)
    rwa [Finset.card_range] at this
  · intro i hi
    exact Lagrange.eval_interpolate_at_node _ (pow_injOn hV.root) (Finset.mem_range.2 hi)
  · rw [Lagrange.interpolate_apply, eval_finsetSum]
    unfold instanceAt
    have h1 : ∀ i ∈ Finset.range V.n, eval x (C (inst.getD i 0) *
        Lagrange.basis (Finset.range V.n) (fun i => V.omega ^ i) i) =
        lagrangeAt V.n x (V.omega ^ i) * inst.getD i 0 := by
      intro i hi
      rw [eval_mul, eval_C, eval_basis_rows hV.root hn (Finset.mem_range.1 hi) (hrow i), mul_comm]
      rfl
    rw [Finset.sum_congr rfl h1]
    refine (Finset.sum_subset (fun i hi => ?_) ?_).symm
    · exact Finset.mem_range.2 ((Finset.mem_range.1 hi).trans_le hlen)
    · intro i _ hi
      rw [List.getD_eq_default _ _ (not_lt.1 fun h => hi (Finset.mem_range.2 h)), mul_zero]

/-! ### C62 -/

/-- C62. The first constraint of the verifier is the equation of a row of the main gate, with the
coefficients in the fixed columns. -/
theorem C62_main_gate (e : Evals) (ts : List MainGate.Term) (hts : ts.length ≤ 5) (const : Fr)
    (o : MainGate.Comb) (ha : ∀ i : Fin 5, e.a i = (ts.getD i ⟨0, 0⟩).val)
    (hf : ∀ i : Fin 5, e.f (Fin.castLE (by decide) i) = (ts.getD i ⟨0, 0⟩).coeff)
    (h5 : e.f 5 = o.ab) (h6 : e.f 6 = o.cd) (h7 : e.f 7 = o.next) (h8 : e.f 8 = const) :
    mainGate e = 0 ↔ MainGate.apply ts const o e.a4Next := by
  have hsum : (ts.map fun t => t.coeff * t.val).sum =
      e.a 0 * e.f 0 + e.a 1 * e.f 1 + e.a 2 * e.f 2 + e.a 3 * e.f 3 + e.a 4 * e.f 4 := by
    have f0 := hf 0
    have f1 := hf 1
    have f2 := hf 2
    have f3 := hf 3
    have f4 := hf 4
    rw [show (Fin.castLE (by decide : 5 ≤ 23) 0) = 0 from rfl] at f0
    rw [show (Fin.castLE (by decide : 5 ≤ 23) 1) = 1 from rfl] at f1
    rw [show (Fin.castLE (by decide : 5 ≤ 23) 2) = 2 from rfl] at f2
    rw [show (Fin.castLE (by decide : 5 ≤ 23) 3) = 3 from rfl] at f3
    rw [show (Fin.castLE (by decide : 5 ≤ 23) 4) = 4 from rfl] at f4
    rw [ha 0, ha 1, ha 2, ha 3, ha 4, f0, f1, f2, f3, f4]
    match ts, hts with
    | [], _ => simp
    | [_], _ => simp [mul_comm]
    | [_, _], _ => simp [mul_comm]
    | [_, _, _], _ => simp [mul_comm, add_assoc]
    | [_, _, _, _], _ => simp [mul_comm, add_assoc]
    | [_, _, _, _, _], _ => simp [mul_comm, add_assoc]
  unfold mainGate MainGate.apply MainGate.cell
  rw [hsum, ← h5, ← h6, ← h7, ← h8]
  have a0 := ha 0
  have a1 := ha 1
  have a2 := ha 2
  have a3 := ha 3
  rw [show ((0 : Fin 5) : ℕ) = 0 from rfl] at a0
  rw [show ((1 : Fin 5) : ℕ) = 1 from rfl] at a1
  rw [show ((2 : Fin 5) : ℕ) = 2 from rfl] at a2
  rw [show ((3 : Fin 5) : ℕ) = 3 from rfl] at a3
  rw [← a0, ← a1, ← a2, ← a3]
  constructor <;> intro h <;> linear_combination h

/-- C62. The next three constraints are, in enabled rows, those of a full round of Poseidon with the
constants in the fixed columns, and hold in the other rows. -/
theorem C62_full_round (e : Evals) : (e.f 20 = 0 → ∀ i, fullRound e i = 0) ∧
    (e.f 20 ≠ 0 → ((∀ i, fullRound e i = 0) ↔
      Poseidon.FullGate (rcA e) ![e.a 0, e.a 1, e.a 2] e.aNext)) := by
  refine ⟨fun h i => by rw [fullRound, h, zero_mul], fun h => ?_⟩
  refine forall_congr' fun i => ?_
  rw [fullRound, mul_eq_zero, or_iff_right h, sub_eq_zero]
  rfl

/-- C62. The next four constraints are, in enabled rows, those of two partial rounds. -/
theorem C62_partial_rounds (e : Evals) : (e.f 21 = 0 → ∀ c ∈ partialRounds e, c = 0) ∧
    (e.f 21 ≠ 0 → ((∀ c ∈ partialRounds e, c = 0) ↔
      Poseidon.PartialGate (rcA e) (rcB e) ![e.a 0, e.a 1, e.a 2] (e.a 3) e.aNext)) := by
  have key : ∀ t : Fr, e.f 21 ≠ 0 → (e.f 21 * t = 0 ↔ t = 0) := fun t h => by
    rw [mul_eq_zero, or_iff_right h]
  constructor
  · intro h c hc
    simp only [partialRounds, h, zero_mul, List.mem_cons, List.not_mem_nil, or_false, or_self] at hc
    exact hc
  · intro h
    simp only [partialRounds, List.forall_mem_cons, List.not_mem_nil, false_implies, implies_true, and_true,
      key _ h, sub_eq_zero]
    rfl

/-- C62. The next three constraints are, in enabled rows, the absorption of an input of the sponge. -/
theorem C62_absorb (e : Evals) (h : e.f 22 ≠ 0) : (∀ c ∈ padAndAdd e, c = 0) ↔
    e.aNext = ![e.aPrev 0 + e.a 0, e.aPrev 1 + e.a 1, e.aPrev 2] := by
  have key : ∀ t : Fr, (e.f 22 * t = 0 ↔ t = 0) := fun t => by
    rw [mul_eq_zero, or_iff_right h]
  simp only [padAndAdd, List.forall_mem_cons, List.not_mem_nil, false_implies, implies_true, and_true,
      key, sub_eq_zero]
  constructor
  · rintro ⟨h0, h1, h2⟩
    funext i
    fin_cases i
    · exact h0.symm
    · exact h1.symm
    · exact h2.symm
  · intro hh
    rw [hh]
    exact ⟨rfl, rfl, rfl⟩

/-! ### C63 -/

/-- C63. On a proof of the right format the verifier accepts exactly if the opening equation holds,
provided the challenges do not fall into a small set for which it is not meaningful (the evaluation
point is a row of the domain or zero, or the last challenge is one of the points opened). -/
theorem C63_verify_iff (E : BnPairing) (keccak : Keccak) (V : Key) (hV : V.Valid) (sel : List Byte)
    (hs : sel.length = 4) (addr : Word) (π : Proof) (inst : List Fr) (hlen : inst.length = V.instances)
    (hfin : π.Finite) (hG : (challengesOf keccak V inst π.words).Good V) :
    (verifyProof E keccak V.words sel addr π.bytes (wordsOf inst) = some true ↔
      Spec.Halo2.Accepts E V (challengesOf keccak V inst π.words) inst π) ∧
    (verifyProof E keccak V.words sel addr π.bytes (wordsOf inst) = none ↔
      ¬ Spec.Halo2.Accepts E V (challengesOf keccak V inst π.words) inst π) := by
  classical
  rw [verifyProof_spec E keccak V hV sel hs addr π inst hlen hfin hG]
  split
  · rename_i h
    exact ⟨⟨fun _ => h, fun _ => rfl⟩, ⟨fun hh => (by cases hh), fun hh => absurd h hh⟩⟩
  · rename_i h
    exact ⟨⟨fun hh => (by cases hh), fun hh => absurd hh h⟩, ⟨fun _ => h, fun _ => rfl⟩⟩

/-! ### Examples -/

/-- A hash that gives the same challenges to all proofs: 2 for the last one, else 5. -/
def exHash : Keccak := fun l => if l.length = 96 then 2 else 5

/-- A proof with generators as commitments and zeros as values. -/
noncomputable def exProof (w w' : G1) : Proof where
  advice _ := g1
  lookupInput _ := g1
  lookupTable _ := g1
  permProduct _ := g1
  lookupProduct _ := g1
  random := g1
  quotient _ := g1
  evals := ⟨0, 0, 0, 0, 0, 0, 0, 0, 0, 0, 0, 0, 0, 0, 0⟩
  w := w
  w' := w'

/-- The challenges of all these proofs. -/
def exChallenges : Challenges := ⟨5, 5, 5, 5, 5, 5, 5, 2⟩

theorem exChallenges_eq (V : Key) (π : Proof) (inst : List Fr) (hl : inst.length = 49) :
    challengesOf exHash V inst π.words = exChallenges := by
  have hb : ∀ l : List Word, (bytesOf l).length = 32 * l.length := length_wordBytes'
  have hw := length_words π
  have c5 : Spec.Halo2.challenge 5 = 5 := show ((5 : ℕ) : Fr) = 5 by decide +kernel
  have c2 : Spec.Halo2.challenge 2 = 2 := show ((2 : ℕ) : Fr) = 2 by decide +kernel
  have no : ∀ l : List Byte, l.length ≠ 96 → exHash l = 5 := fun l h => if_neg h
  have yes : ∀ l : List Byte, l.length = 96 → exHash l = 2 := fun l h => if_pos h
  unfold challengesOf hashes exChallenges
  simp only [List.getD_cons_zero, List.getD_cons_succ]
  rw [no _ (by rw [hb, List.length_append, List.length_cons, wordsOf, List.length_map, hl]; omega),
    no _ (by rw [hb, List.length_cons, List.length_take, List.length_drop, hw]; decide),
    no _ (by rw [List.length_append, length_wordBytes]; decide),
    no _ (by rw [hb, List.length_cons, List.length_take, List.length_drop, hw]; decide),
    no _ (by rw [hb, List.length_cons, List.length_take, List.length_drop, hw]; decide),
    no _ (by rw [hb, List.length_cons, List.length_take, List.length_drop, hw]; decide),
    no _ (by rw [List.length_append, length_wordBytes]; decide),
    yes _ (by rw [hb, List.length_cons, List.length_take, List.length_drop, hw]; decide), c5, c2]

theorem exChallenges_good : exChallenges.Good deployedKey := by
  have h5 : exChallenges.x = ((5 : ℕ) : Fr) := by decide +kernel
  have h2 : exChallenges.mu = ((2 : ℕ) : Fr) := by decide +kernel
  have hne : ∀ a b : ℕ, a % r ≠ b % r → ((a : ℕ) : Fr) ≠ ((b : ℕ) : Fr) := by
    intro a b h he
    exact h ((ZMod.natCast_eq_natCast_iff' _ _ r).1 he)
  have hn : deployedKey.n = 2 ^ 18 := rfl
  refine ⟨?_, ?_, ?_, ?_, ?_, ?_⟩
  · rw [h5, ← Nat.cast_zero]
    exact hne _ _ (by decide +kernel)
  · rw [h5, hn, powMod_fr (c := powMod 5 (2 ^ 18) r) (by decide +kernel) rfl, ← Nat.cast_one]
    exact hne _ _ (by decide +kernel)
  · rw [h5, h2]
    exact hne _ _ (by decide +kernel)
  · rw [h5, h2, show deployedKey.omega = ((vkNat 4 : ℕ) : Fr) from rfl, ← Nat.cast_mul]
    exact hne _ _ (by decide +kernel)
  · rw [h5, h2, omega_inv, ← Nat.cast_mul]
    exact hne _ _ (by decide +kernel)
  · rw [h5, h2, omega_inv6, ← Nat.cast_mul]
    exact hne _ _ (by decide +kernel)

theorem negSG2_ne : deployedKey.negSG2 + smul2 2 g2 ≠ 0 := by
  intro h
  have e2 : smul2 2 g2 = g2 + g2 := by
    have h3 : smul2 1 g2 = g2 := by rw [smul2, ZMod.val_one, one_smul]
    exact (congrArg (fun k => smul2 k g2) one_add_one_eq_two.symm).trans
      ((smul2_add 1 1).trans (congrArg₂ (· + ·) h3 h3))
  obtain ⟨c, hc⟩ : ∃ c, dbl2N g2N = some c := Option.isSome_iff_exists.1 (by decide +kernel)
  obtain ⟨hns, hd⟩ := dbl2N_rep g2_rep hc
  have h1 := eq_neg_of_add_eq_zero_left h
  obtain ⟨h', hneg⟩ := shortW_neg_some hns
  rw [e2, hd, hneg, show deployedKey.negSG2 = negSG2 from rfl, negSG2] at h1
  have hx := (WeierstrassCurve.Affine.Point.some.inj h1).1
  rw [← eq2N_iff] at hx
  have : ∀ c, dbl2N g2N = some c → eq2N negSG2N.1 c.1 = false := by
    intro c hc
    have : (dbl2N g2N).map (fun c => eq2N negSG2N.1 c.1) = some false := by decide +kernel
    rw [hc] at this
    exact Option.some.inj this
  rw [this c hc] at hx
  cases hx

/-- With that hash the verifier accepts some of these proofs (and rejects others) for every list of 49
public inputs. -/
theorem ex_accepts_key (E : BnPairing) (V : Key) (hV : V.Valid) (hi : V.instances = 49) (e1 : V.g1 = g1)
    (e2 : V.g2 = g2) (hgood : exChallenges.Good V) (hne : V.negSG2 + smul2 2 g2 ≠ 0) (inst : List Fr)
    (hl : inst.length = 49) :
    (∃ w w' : G1, (exProof w w').Finite ∧
      verifyProof E exHash V.words [1, 2, 3, 4] 7 (exProof w w').bytes (wordsOf inst) = some true) ∧
    ∃ w w' : G1, (exProof w w').Finite ∧
      verifyProof E exHash V.words [1, 2, 3, 4] 7 (exProof w w').bytes (wordsOf inst) = none := by
  have hfin : ∀ w w' : G1, w ≠ 0 → w' ≠ 0 → (exProof w w').Finite := by
    intro w w' h h'
    refine ⟨?_, h, h'⟩
    intro p hp
    have : ∀ p ∈ List.replicate 29 g1, p ≠ 0 := by
      intro p hp
      rw [List.eq_of_mem_replicate hp]
      exact g1_ne_zero
    exact this p hp
  obtain ⟨t, ht⟩ := torsion_eq_smul2 hV.negSG2
  obtain ⟨c, hc⟩ := g1_generates
    (totalClaim (openSets V exChallenges inst (exProof 0 0)) g1 5 5 2)
  have hscale : ((openSets V exChallenges inst (exProof 0 0)).getD 0 ⟨0, 0, []⟩).vanish
      exChallenges.mu ≠ 0 := by
    have h := hgood.mu
    refine Finset.prod_ne_zero_iff.2 fun i _ => ?_
    have h3 : ∀ i : Fin 3, exChallenges.mu - (![exChallenges.x * V.omega⁻¹, exChallenges.x,
        exChallenges.x * V.omega] : Fin 3 → Fr) i ≠ 0 := by
      intro i
      fin_cases i
      · exact sub_ne_zero.2 h.2.2.1
      · exact sub_ne_zero.2 h.1
      · exact sub_ne_zero.2 h.2.1
    exact h3 i
  generalize hsc : ((openSets V exChallenges inst (exProof 0 0)).getD 0 ⟨0, 0, []⟩).vanish
      exChallenges.mu = k at hscale
  have key : ∀ a b : Fr, a ≠ 0 → b ≠ 0 →
      (verifyProof E exHash V.words [1, 2, 3, 4] 7 (exProof (a • g1) (b • g1)).bytes (wordsOf inst) = some true ↔
        k * (c - a) + (2 + t) * b = 0) ∧
      (verifyProof E exHash V.words [1, 2, 3, 4] 7 (exProof (a • g1) (b • g1)).bytes (wordsOf inst) = none ↔
        ¬ k * (c - a) + (2 + t) * b = 0) := by
    intro a b ha hb
    have hz : ∀ d : Fr, d ≠ 0 → d • g1 ≠ 0 := fun d hd h =>
      (smul_G1_eq_zero h).elim hd g1_ne_zero
    have h := C63_verify_iff E exHash V hV [1, 2, 3, 4] rfl 7
      (exProof (a • g1) (b • g1)) inst (hl.trans hi.symm) (hfin _ _ (hz a ha) (hz b hb))
      (by rw [exChallenges_eq _ _ _ hl]; exact hgood)
    rw [exChallenges_eq _ _ _ hl] at h
    have hA : Spec.Halo2.Accepts E V exChallenges inst (exProof (a • g1) (b • g1)) ↔
        k * (c - a) + (2 + t) * b = 0 := by
      unfold Spec.Halo2.Accepts openEquation
      simp only
      rw [show openSets V exChallenges inst (exProof (a • g1) (b • g1)) =
        openSets V exChallenges inst (exProof 0 0) from rfl, hsc,
        e1, e2,
        show exChallenges.zeta = 5 from rfl, show exChallenges.nu = 5 from rfl,
        show exChallenges.mu = 2 from rfl,
        hc, ht, show (exProof (a • g1) (b • g1)).w = a • g1 from rfl,
        show (exProof (a • g1) (b • g1)).w' = b • g1 from rfl,
        ← sub_smul, smul_smul, smul_smul, ← add_smul, E.e_smul_g2, E.e_smul, ← map_add, E.T_eq_zero_iff]
      constructor <;> intro h <;> linear_combination h
    rw [hA] at h
    exact h
  have h2t : 2 + t ≠ 0 := by
    intro h0
    have e : V.negSG2 + smul2 2 g2 = 0 := by
      rw [ht, ← smul2_add, add_comm t 2, h0, smul2_zero']
    exact hne e
  have h2 : (2 : Fr) ≠ 0 := by decide +kernel
  have hz : ∀ d : Fr, d ≠ 0 → d • g1 ≠ 0 := fun d hd h => (smul_G1_eq_zero h).elim hd g1_ne_zero
  clear hsc hc ht
  generalize 2 + t = u at *
  constructor
  · by_cases h1 : c + k⁻¹ * u = 0
    · have h3 : c + k⁻¹ * (u * 2) ≠ 0 := by
        intro h3
        have : k⁻¹ * u = 0 := by linear_combination h3 - h1
        exact (mul_ne_zero (inv_ne_zero hscale) h2t) this
      refine ⟨_, _, hfin _ _ (hz _ h3) (hz _ h2), (key _ 2 h3 h2).1.2 ?_⟩
      field_simp
      ring
    · refine ⟨_, _, hfin _ _ (hz _ h1) (hz _ one_ne_zero), (key _ 1 h1 one_ne_zero).1.2 ?_⟩
      field_simp
      ring
  · by_cases h1 : k * (c - 1) + u * 1 = 0
    · refine ⟨_, _, hfin _ _ (hz _ one_ne_zero) (hz _ h2), (key _ 2 one_ne_zero h2).2.2 ?_⟩
      intro h3
      exact h2t (by linear_combination h3 - h1)
    · exact ⟨_, _, hfin _ _ (hz _ one_ne_zero) (hz _ one_ne_zero), (key _ 1 one_ne_zero one_ne_zero).2.2 h1⟩

/-- The deployed key. -/
theorem ex_accepts (E : BnPairing) (inst : List Fr) (hl : inst.length = 49) :
    (∃ w w' : G1, (exProof w w').Finite ∧
      verifyProof E exHash vkWords [1, 2, 3, 4] 7 (exProof w w').bytes (wordsOf inst) = some true) ∧
    ∃ w w' : G1, (exProof w w').Finite ∧
      verifyProof E exHash vkWords [1, 2, 3, 4] 7 (exProof w w').bytes (wordsOf inst) = none := by
  have h := ex_accepts_key E deployedKey deployed_valid rfl rfl rfl exChallenges_good negSG2_ne inst hl
  rw [deployed_words] at h
  exact h

/-- `C59_accepted_format` and `C63_verify_iff` apply: there are accepted proofs. -/
example : ∃ proof ins, verifyProof toyPairing exHash deployedKey.words [1, 2, 3, 4] 7 proof ins = some true := by
  obtain ⟨⟨w, w', _, h⟩, _⟩ := ex_accepts toyPairing (List.replicate 49 3) List.length_replicate
  exact ⟨_, _, by rw [deployed_words]; exact h⟩

open Zkdvrf in
/-- `C59_five_members` applies: a contract with five members reaches the end of the parameter phase
with this verifier. -/
example : ∃ env s, env.verifyProof = verifyProof toyPairing exHash vkWords [1, 2, 3, 4] 7 ∧ Reachable env s ∧
    s.contractPhase = .NidkgComplete ∧ s.ppList.length = 5 := by
  obtain ⟨env, henv⟩ : ∃ env : Env, env.verifyProof = verifyProof toyPairing exHash vkWords [1, 2, 3, 4] 7 :=
    ⟨⟨toyPairing, exHash, _⟩, rfl⟩
  refine ⟨env, ?_⟩
  have hc : Zkdvrf.constructor ⟨7, 0⟩ 3 5 true true true 5 = some _ :=
    constructor_some.2 ⟨rfl, by decide, rfl, by norm_num, by norm_num, by norm_num, by norm_num, rfl⟩
  have hr : Reachable env _ := .deploy (m := ⟨7, 0⟩) (by decide) hc
  obtain ⟨s1, a1, a2, a3, d, a4, a5⟩ := start (keyWords gk) (key_on_curve gk_ne_zero) hr rfl
    (show (7 : Address) ≠ 0 by decide)
  have r1 := a1.reachable hr
  have hm : s1.memberCount = 5 := (a1.keeps hr).memberCount
  have hpk : s1.pkList.length = 5 := by
    have := regInv r1
    rw [this.pkLen, this.started (by rw [a2]; exact Phase.noConfusion), hm]
  have hd : s1.pkList = List.replicate 5 (keyWords gk) := by
    have h : s1.pkList = List.replicate d (keyWords gk) := a4
    rw [h, List.length_replicate] at hpk
    rw [h, hpk]
  have hl : (List.replicate 39 (0 : Fr) ++ (List.replicate 5 gk).flatMap encGk).length = 49 := by
    rw [List.length_append, List.length_replicate]
    rfl
  obtain ⟨⟨w, w', _, hv⟩, _⟩ := ex_accepts toyPairing _ hl
  rw [← henv] at hv
  obtain ⟨s2, b1, b2, _, _⟩ := submit_all (env := env) (t := 3) _ _ hv _ s1 r1 a2 (by rw [hm]; decide)
    ((checkPublicParams_true (regInv r1).len (regInv r1).bound _).2 ⟨by rw [hpk, hm],
      by rw [wordsOf, List.length_map, hl, hm],
      by
        rw [hm, hd, wordsOf, List.map_append, List.drop_left' (by rw [List.length_map, List.length_replicate])]
        exact words_keys (List.replicate 5 gk)⟩) rfl
  have r2 := b1.reachable r1
  refine ⟨s2, henv, r2, b2, ?_⟩
  rw [(C32_parameters env r2 (Or.inl b2)).1, (b1.keeps r1).memberCount, hm]

/-- `C60_transcript_binding` applies to runs that agree and to runs that do not. -/
example : (hashes exHash 1 [] (List.replicate 140 0)).getD 3 0 = (hashes exHash 2 [] (List.replicate 140 0)).getD 3 0 := by
  decide +kernel

/-- `C61_public_inputs` applies. -/
example : deployedKey.Valid ∧ (List.replicate 49 (3 : Fr)).length ≤ deployedKey.n ∧
    exChallenges.x ^ deployedKey.n ≠ 1 :=
  ⟨deployed_valid, by rw [List.length_replicate, Key.n, show deployedKey.k = 18 from rfl]; norm_num,
    exChallenges_good.x_row⟩

/-- `C62_main_gate` applies: the row of a multiplication `2 * 3 = 6`. -/
example : ∃ e : Evals, (∀ i : Fin 5, e.a i = (([MainGate.toMul 2, MainGate.toMul 3, MainGate.toSub 6] :
      List MainGate.Term).getD i ⟨0, 0⟩).val) ∧
    (∀ i : Fin 5, e.f (Fin.castLE (by decide) i) = (([MainGate.toMul 2, MainGate.toMul 3, MainGate.toSub 6] :
      List MainGate.Term).getD i ⟨0, 0⟩).coeff) ∧ e.f 5 = MainGate.Comb.oneLinerMul.ab ∧
    e.f 6 = MainGate.Comb.oneLinerMul.cd ∧ e.f 7 = MainGate.Comb.oneLinerMul.next ∧ e.f 8 = 0 :=
  ⟨⟨fun i => (([MainGate.toMul 2, MainGate.toMul 3, MainGate.toSub 6] : List MainGate.Term).getD i ⟨0, 0⟩).val,
    0, 0, 0, fun i => if (i : ℕ) < 5 then (([MainGate.toMul 2, MainGate.toMul 3, MainGate.toSub 6] :
      List MainGate.Term).getD i ⟨0, 0⟩).coeff else if i = 5 then 1 else 0,
    0, 0, 0, 0, 0, 0, 0, 0, 0, 0⟩, fun _ => rfl, fun i => if_pos i.2, rfl, rfl, rfl, rfl⟩

/-- `C62_absorb` applies. -/
example : ∃ e : Evals, e.f 22 ≠ 0 ∧ e.f 21 ≠ 0 ∧ e.f 20 ≠ 0 :=
  ⟨⟨0, 0, 0, 0, fun _ => 1, 0, 0, 0, 0, 0, 0, 0, 0, 0, 0⟩, one_ne_zero, one_ne_zero, one_ne_zero⟩

end Verif.Props
