import Verif.Spec.Halo2Poly

/-! Provers in the transcript: challenges and proof can be computed one after the other. -/

namespace Verif.Spec.Halo2
open Polynomial

/-- Words of the columns. -/
def adviceWords (a : Fin 5 → G1) : List Word :=
  pointWords (a 0) ++ pointWords (a 1) ++ pointWords (a 2) ++ pointWords (a 3) ++ pointWords (a 4)
/-- Words of the permuted lookups. -/
def lookupWords (i t : Fin 5 → G1) : List Word :=
  pointWords (i 0) ++ pointWords (t 0) ++ pointWords (i 1) ++ pointWords (t 1) ++ pointWords (i 2) ++ pointWords (t 2) ++
  pointWords (i 3) ++ pointWords (t 3) ++ pointWords (i 4) ++ pointWords (t 4)
/-- Words of the products and the random polynomial. -/
def productWords (p : Fin 3 → G1) (z : Fin 5 → G1) (ra : G1) : List Word :=
  pointWords (p 0) ++ pointWords (p 1) ++ pointWords (p 2) ++ pointWords (z 0) ++ pointWords (z 1) ++ pointWords (z 2) ++
  pointWords (z 3) ++ pointWords (z 4) ++ pointWords ra

theorem words_parts (P : Proof) : P.words = adviceWords P.advice ++ (lookupWords P.lookupInput P.lookupTable ++
    (productWords P.permProduct P.lookupProduct P.random ++ (adviceWords P.quotient ++
    (P.evals.list.map wordOf ++ (pointWords P.w ++ pointWords P.w'))))) := by
  unfold Proof.words
  have h : P.points.flatMap pointWords = adviceWords P.advice ++ (lookupWords P.lookupInput P.lookupTable ++
    (productWords P.permProduct P.lookupProduct P.random ++ adviceWords P.quotient)) := rfl
  rw [h]
  simp only [List.append_assoc]

theorem take_drop_append {α : Type*} (a b : List α) (n : ℕ) (h : a.length = n) :
    (a ++ b).take n = a ∧ (a ++ b).drop n = b := by
  subst h
  exact ⟨List.take_left, List.drop_left⟩

theorem hashes_parts (keccak : Keccak) (dg : Word) (ins a b c d e f g : List Word) (ha : a.length = 10)
    (hb : b.length = 20) (hc : c.length = 18) (hd : d.length = 10) (he : e.length = 78) (hf : f.length = 2) :
    hashes keccak dg ins (a ++ (b ++ (c ++ (d ++ (e ++ (f ++ g)))))) =
      let h1 := keccak (bytesOf (dg :: ins ++ a))
      let h2 := keccak (bytesOf (h1 :: b))
      let h3 := keccak (Word.bytes h2 ++ [1])
      let h4 := keccak (bytesOf (h3 :: c))
      let h5 := keccak (bytesOf (h4 :: d))
      let h6 := keccak (bytesOf (h5 :: e))
      let h7 := keccak (Word.bytes h6 ++ [1])
      let h8 := keccak (bytesOf (h7 :: f))
      [h1, h2, h3, h4, h5, h6, h7, h8] := by
  have s1 := take_drop_append a (b ++ (c ++ (d ++ (e ++ (f ++ g))))) 10 ha
  have s2 := take_drop_append b (c ++ (d ++ (e ++ (f ++ g)))) 20 hb
  have s3 := take_drop_append c (d ++ (e ++ (f ++ g))) 18 hc
  have s4 := take_drop_append d (e ++ (f ++ g)) 10 hd
  have s5 := take_drop_append e (f ++ g) 78 he
  have s6 := take_drop_append f g 2 hf
  unfold hashes
  have d30 : ∀ l : List Word, l.drop 30 = (l.drop 10).drop 20 := fun l => by rw [List.drop_drop]
  have d48 : ∀ l : List Word, l.drop 48 = ((l.drop 10).drop 20).drop 18 := fun l => by rw [List.drop_drop, List.drop_drop]
  have d58 : ∀ l : List Word, l.drop 58 = (((l.drop 10).drop 20).drop 18).drop 10 := fun l => by
    rw [List.drop_drop, List.drop_drop, List.drop_drop]
  have d136 : ∀ l : List Word, l.drop 136 = ((((l.drop 10).drop 20).drop 18).drop 10).drop 78 := fun l => by
    rw [List.drop_drop, List.drop_drop, List.drop_drop, List.drop_drop]
  rw [d30, d48, d58, d136, s1.1, s1.2, s2.1, s2.2, s3.1, s3.2, s4.1, s4.2, s5.1, s5.2, s6.1]

/-- The challenges of the transcript of a prover's own proof: there are such challenges, and only one choice. -/
theorem transcript_challenges (keccak : Keccak) (V : Key) (inst : List Fr) (A : Prover) (s : Fr) :
    ∃! C : Challenges, challengesOf keccak V inst (A.proof s C).words = C := by
  have hcomp : ∀ C : Challenges, challengesOf keccak V inst (A.proof s C).words =
      (let h1 := keccak (bytesOf (V.digest :: wordsOf inst ++ adviceWords fun i => commit s (A.advice i)))
       let h2 := keccak (bytesOf (h1 :: lookupWords (fun i => commit s (A.lookupInput C.theta i))
         fun i => commit s (A.lookupTable C.theta i)))
       let h3 := keccak (Word.bytes h2 ++ [1])
       let h4 := keccak (bytesOf (h3 :: productWords (fun i => commit s (A.permProduct C.theta C.beta C.gamma i))
         (fun i => commit s (A.lookupProduct C.theta C.beta C.gamma i)) (commit s (A.random C.theta C.beta C.gamma))))
       let h5 := keccak (bytesOf (h4 :: adviceWords fun i => commit s (A.quotient C.theta C.beta C.gamma C.y i)))
       let h6 := keccak (bytesOf (h5 :: (A.evals C.theta C.beta C.gamma C.y C.x).list.map wordOf))
       let h7 := keccak (Word.bytes h6 ++ [1])
       let h8 := keccak (bytesOf (h7 :: pointWords (commit s (A.w C.theta C.beta C.gamma C.y C.x C.zeta C.nu))))
       ⟨challenge h1, challenge h2, challenge h3, challenge h4, challenge h5, challenge h6, challenge h7, challenge h8⟩) := by
    intro C
    unfold challengesOf
    rw [words_parts, hashes_parts keccak _ _ _ _ _ _ _ _ _ rfl rfl rfl rfl rfl rfl]
    rfl
  simp only [hcomp]
  refine ⟨?C, ?hC, ?_⟩
  case C =>
    exact
      let h1 := keccak (bytesOf (V.digest :: wordsOf inst ++ adviceWords fun i => commit s (A.advice i)))
      let theta := challenge h1
      let h2 := keccak (bytesOf (h1 :: lookupWords (fun i => commit s (A.lookupInput theta i))
         fun i => commit s (A.lookupTable theta i)))
      let beta := challenge h2
      let h3 := keccak (Word.bytes h2 ++ [1])
      let gamma := challenge h3
      let h4 := keccak (bytesOf (h3 :: productWords (fun i => commit s (A.permProduct theta beta gamma i))
         (fun i => commit s (A.lookupProduct theta beta gamma i)) (commit s (A.random theta beta gamma))))
      let y := challenge h4
      let h5 := keccak (bytesOf (h4 :: adviceWords fun i => commit s (A.quotient theta beta gamma y i)))
      let x := challenge h5
      let h6 := keccak (bytesOf (h5 :: (A.evals theta beta gamma y x).list.map wordOf))
      let zeta := challenge h6
      let h7 := keccak (Word.bytes h6 ++ [1])
      let nu := challenge h7
      let h8 := keccak (bytesOf (h7 :: pointWords (commit s (A.w theta beta gamma y x zeta nu))))
      ⟨theta, beta, gamma, y, x, zeta, nu, challenge h8⟩
  case hC => rfl
  · rintro ⟨theta, beta, gamma, y, x, zeta, nu, mu⟩ h
    simp only [Challenges.mk.injEq] at h
    obtain ⟨rfl, rfl, rfl, rfl, rfl, rfl, rfl, rfl⟩ := h
    rfl

end Verif.Spec.Halo2
