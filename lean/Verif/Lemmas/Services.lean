import Verif.Spec.Services
import Verif.Lemmas.ZkdvrfPre

/-! Lemmas about the services. -/

namespace Verif.Services
open ZkdvrfPre

/-! ### Comparison of decimal strings -/

theorem lexLt_irrefl : ∀ l : List Byte, lexLt l l = false
  | [] => rfl
  | x :: xs => by unfold lexLt; simp [lexLt_irrefl xs]

theorem jsGreater_ne {a b : ℕ} (h : jsGreater a b = true) : a ≠ b := by
  rintro rfl
  unfold jsGreater at h
  rw [lexLt_irrefl] at h
  cases h

theorem digit_cmp : ∀ a ≤ 9, ∀ b ≤ 9, jsGreater a b = decide (b < a) := by decide +kernel

theorem ten_cmp : ∀ b ≤ 10, jsGreater 10 b = true → b ≤ 1 := by decide +kernel

/-! ### What the passes send -/

theorem registerNode_send {f f' : Files} {d : Draw} {c : Zkdvrf.Call} (h : registerNode f d = .send f' c) :
    ∃ pk, c = .registerNode pk := by
  unfold registerNode at h
  dsimp only at h
  split at h
  · cases h
  · cases h; exact ⟨_, rfl⟩

theorem submitPP_send {M : Machine} {p : State} {a : Address} {f f' : Files} {d : Draw}
    {c : Zkdvrf.Call} (h : submitPP M p a f d = .send f' c) : ∃ pp pr, c = .submitPublicParams pp pr := by
  unfold submitPP at h
  dsimp only at h
  split at h
  · cases h
  · split at h
    · cases h
    · split at h
      · cases h
      · split at h
        · cases h
        · cases h; exact ⟨_, _, rfl⟩

theorem submitPartialEval_send {M : Machine} {p : State} {a : Address} {f f' : Files} {d : Draw}
    {c : Zkdvrf.Call} (h : submitPartialEval M p a f d = .send f' c) : ∃ w, c = .submitPartialEval w := by
  unfold submitPartialEval at h
  dsimp only at h
  split at h
  · split at h
    · cases h
    · split at h
      · cases h
      · split at h
        · cases h
        · cases h; exact ⟨_, rfl⟩
  · cases h

/-- A node sends a registration, parameters, or an evaluation; the last only after comparing the
round numbers. -/
theorem nodePass_send {M : Machine} {p : State} {a : Address} {f f' : Files} {d : Draw}
    {c : Zkdvrf.Call} (h : nodePass M p a f d = .send f' c) :
    (∃ pk, c = .registerNode pk) ∨ (∃ pp pr, c = .submitPublicParams pp pr) ∨
    ((∃ w, c = .submitPartialEval w) ∧ p.contractPhase = .Ready ∧
      jsGreater p.currentRoundNum (p.lastSubmittedRound a) = true ∧
      p.roundSubmissionCount p.currentRoundNum < p.threshold) := by
  unfold nodePass at h
  dsimp only at h
  split at h
  · split at h
    · split at h
      · exact Or.inl (registerNode_send h)
      · cases h
    · split at h
      · exact Or.inr (Or.inl (submitPP_send h))
      · cases h
    · next hp =>
      split at h
      · next hc =>
        rw [Bool.and_eq_true, decide_eq_true_eq] at hc
        refine Or.inr (Or.inr ⟨?_, hp, hc.1, hc.2⟩)
        split at h
        · split at h
          · cases h
          · exact submitPartialEval_send h
        · exact submitPartialEval_send h
      · cases h
    · cases h
  · cases h

theorem adminPass_send {M : Machine} {p : State} {f f' : Files} {b : Bool}
    {c : Zkdvrf.Call} (h : adminPass M p f b = .send f' c) :
    c = .startNidkg ∨ (∃ g, c = .computeVk g) ∨ c = .initiateRandom ∨ ∃ x, c = .submitRandom x := by
  unfold adminPass at h
  split at h
  · cases h; exact Or.inl rfl
  · unfold createGpp at h
    split at h
    · cases h
    · dsimp only at h
      split at h
      · cases h
      · cases h; exact Or.inr (Or.inl ⟨_, rfl⟩)
  · split at h
    · cases h
    · split at h
      · cases h; exact Or.inr (Or.inr (Or.inl rfl))
      · split at h
        · unfold createRandom at h
          dsimp only at h
          split at h
          · split at h
            · cases h
            · split at h
              · cases h
              · split at h
                · cases h
                · cases h; exact Or.inr (Or.inr (Or.inr ⟨_, rfl⟩))
          · cases h
        · cases h
  · cases h

theorem adminTick_send {p : State} {f f' : Files} {b e : Bool}
    {c : Zkdvrf.Call} (h : adminTick p f b e = .send f' c) : c = .initiateRandom := by
  unfold adminTick at h
  split at h
  · split at h
    · cases h; rfl
    · cases h
  · cases h

/-! ### What one call changes -/

/-- Calls of the services do not touch the owner or the list of added nodes. -/
theorem exec_ids {env : Env} {p p' : State} {m : Msg} {c : Zkdvrf.Call}
    (he : exec env p m c = some p')
    (hc : (∃ pk, c = .registerNode pk) ∨ (∃ pp pr, c = .submitPublicParams pp pr) ∨
      (∃ w, c = .submitPartialEval w) ∨ c = .startNidkg ∨ (∃ g, c = .computeVk g) ∨
      c = .initiateRandom ∨ ∃ x, c = .submitRandom x) :
    p'.owner = p.owner ∧ ∀ a, (p'.addrToNode a).nodeAddress = (p.addrToNode a).nodeAddress := by
  rcases hc with ⟨pk, rfl⟩ | ⟨pp, pr, rfl⟩ | ⟨w, rfl⟩ | rfl | ⟨g, rfl⟩ | rfl | ⟨x, rfl⟩
  · obtain ⟨_, _, _, _, _, _, _, rfl⟩ := registerNode_some.1 he
    refine ⟨rfl, fun a => ?_⟩
    simp only [Function.update_apply]
    split
    · next h => rw [h]
    · rfl
  · obtain ⟨_, _, _, _, _, _, _, rfl⟩ := submitPublicParams_some.1 he
    refine ⟨rfl, fun a => ?_⟩
    simp only [Function.update_apply]
    split
    · next h => rw [h]
    · rfl
  · obtain ⟨_, _, _, _, _, _, _, _, rfl⟩ := submitPartialEval_some.1 he
    exact ⟨rfl, fun _ => rfl⟩
  · obtain ⟨_, _, _, rfl⟩ := startNidkg_some.1 he
    exact ⟨rfl, fun _ => rfl⟩
  · obtain ⟨_, _, _, _, rfl⟩ := computeVk_some.1 he
    exact ⟨rfl, fun _ => rfl⟩
  · obtain ⟨_, _, _, _, _, _, _, rfl⟩ := initiateRandom_some.1 he
    exact ⟨rfl, fun _ => rfl⟩
  · obtain ⟨_, _, _, _, _, _, rfl⟩ := submitRandom_some.1 he
    exact ⟨rfl, fun _ => rfl⟩

/-- Evaluations change only through `submitPartialEval`. -/
theorem exec_evals {env : Env} {p p' : State} {m : Msg} {c : Zkdvrf.Call}
    (he : exec env p m c = some p') (hc : ∀ w, c ≠ .submitPartialEval w) :
    p'.roundToEval = p.roundToEval := by
  cases c with
  | addPermissionedNodes a => obtain ⟨_, _, _, _, _, _, rfl⟩ := addPermissionedNodes_some.1 he; rfl
  | registerNode pk => obtain ⟨_, _, _, _, _, _, _, rfl⟩ := registerNode_some.1 he; rfl
  | startNidkg => obtain ⟨_, _, _, rfl⟩ := startNidkg_some.1 he; rfl
  | submitPublicParams pp pr => obtain ⟨_, _, _, _, _, _, _, rfl⟩ := submitPublicParams_some.1 he; rfl
  | computeVk g => obtain ⟨_, _, _, _, rfl⟩ := computeVk_some.1 he; rfl
  | initiateRandom => obtain ⟨_, _, _, _, _, _, _, rfl⟩ := initiateRandom_some.1 he; rfl
  | submitPartialEval w => exact absurd rfl (hc w)
  | submitRandom x => obtain ⟨_, _, _, _, _, _, rfl⟩ := submitRandom_some.1 he; rfl
  | transferOwnership a => obtain ⟨_, _, _, rfl⟩ := transferOwnership_some.1 he; rfl
  | renounceOwnership => obtain ⟨_, _, rfl⟩ := renounceOwnership_some.1 he; rfl

theorem sub_iff {p : State} {k i : ℕ} : Submitted p k i ↔ (p.roundToEval k i).indexPlus ≠ 0 := Iff.rfl

end Verif.Services
