import Verif.Lemmas.CommandLine
import Verif.Lemmas.ServicesFilesSim
import Verif.Spec.CommandLine
import Verif.Props.Config

/-! The passes with command lines as text are the passes on files. -/

namespace Verif.ServicesText
open Disk Disk.Prog ClientFiles CommandLine
open Services (Machine Draw config)
open ServicesFiles (tools random orThrow memberName sending World mined addressText checkDigit mem_zipWith sent)
open ZkdvrfPre (State)
open Zkdvrf (Call)
open Config (Options Vars)

/-! ### Names and inputs -/

theorem memberName_arg (keccak : Keccak) (a : Address) : FileArg (memberName keccak a) := by
  have h : ∀ n < 16, plainChar (hexDigit n) = true ∧ plainChar ((hexDigit n).toUpper) = true := by decide
  have h7 : ("member_".toList).all plainChar = true := by decide
  refine ⟨by unfold memberName; simp, ?_, by unfold memberName; simp⟩
  intro c hc
  unfold memberName addressText at hc
  rw [List.mem_append, List.mem_cons, List.mem_cons] at hc
  rcases hc with h1 | h1 | h1 | h1
  · exact List.all_eq_true.1 h7 c h1
  · rw [h1]; decide
  · rw [h1]; decide
  · obtain ⟨c', hc', d, -, e⟩ := mem_zipWith h1
    obtain ⟨n, hn, rfl⟩ := ServicesFiles.hexEncode_digit _ c' hc'
    rw [e]
    unfold checkDigit
    split
    · exact (h n hn).2
    · exact (h n hn).1

theorem plain_safe {c : Char} (h : plainChar c = true) : safeChar c = true := by
  unfold safeChar
  by_contra hn
  have hb : c = '"' ∨ c = '$' ∨ c = '`' ∨ c = '\\' := by
    simp only [Bool.and_eq_true, decide_eq_true_eq] at hn
    by_contra hh
    exact hn (by simpa [not_or, and_assoc] using hh)
  rcases hb with rfl | rfl | rfl | rfl <;> revert h <;> decide

theorem utf8_ascii {t : List Char} (h : ∀ c ∈ t, c.toNat < 128) : utf8 t = t.map (fun c => Fin.ofNat 256 c.toNat) := by
  induction t with
  | nil => rfl
  | cons c t ih =>
    have hc := h c List.mem_cons_self
    have e : utf8Char c = [Fin.ofNat 256 c.toNat] := by
      unfold utf8Char
      exact if_pos hc
    change utf8Char c ++ utf8 t = _
    rw [e, ih (fun d hd => h d (List.mem_cons_of_mem _ hd))]
    rfl

theorem utf8_decimalText (n : ℕ) : utf8 (decimalText n) = decimal n := by
  have hb : ∀ m, ∀ b ∈ decimal m, 48 ≤ b.val ∧ b.val < 58 := by
    intro m
    induction m using Nat.strong_induction_on with
    | _ m ih =>
      rw [decimal]
      split
      · next h =>
        intro b hb
        rw [List.mem_singleton.1 hb]
        change 48 ≤ (48 + m) % 256 ∧ (48 + m) % 256 < 58
        omega
      · intro b hb
        rcases List.mem_append.1 hb with hb | hb
        · exact ih (m / 10) (by omega) b hb
        · rw [List.mem_singleton.1 hb]
          change 48 ≤ (48 + m % 10) % 256 ∧ (48 + m % 10) % 256 < 58
          omega
  have hv : ∀ b : Byte, 48 ≤ b.val ∧ b.val < 58 → (Char.ofNat b.val).toNat = b.val := by
    intro b _
    exact toNat_ofNat_small (lt_trans b.isLt (by norm_num))
  rw [utf8_ascii]
  · unfold decimalText
    rw [List.map_map]
    conv_rhs => rw [← List.map_id (decimal n)]
    refine List.map_congr_left (fun b h => ?_)
    change Fin.ofNat 256 (Char.ofNat b.val).toNat = b
    rw [hv b (hb n b h)]
    exact Fin.ext (Nat.mod_eq_of_lt b.isLt)
  · intro c hc
    obtain ⟨b, h, rfl⟩ := List.mem_map.1 hc
    have := hb n b h
    rw [hv b this]
    omega

/-- The input of a round as text. -/
def inputText (k : ℕ) : List Char := "zkRand-v1-2024:".toList ++ decimalText k

theorem utf8_inputText (k : ℕ) : utf8 (inputText k) = inputPrefix ++ decimal k := by
  have h : ∀ c ∈ "zkRand-v1-2024:".toList, c.toNat < 128 := by decide
  unfold inputText
  have e : ∀ a b : List Char, utf8 (a ++ b) = utf8 a ++ utf8 b := fun a b => List.flatMap_append
  rw [e, utf8_decimalText, utf8_ascii h]
  rfl

theorem inputText_arg (k : ℕ) : InputArg (inputText k) := by
  have h : ("zkRand-v1-2024:".toList).all safeChar = true := by decide
  refine ⟨?_, by unfold inputText; simp⟩
  intro c hc
  rcases List.mem_append.1 hc with h1 | h1
  · exact List.all_eq_true.1 h c h1
  · exact plain_safe (decimalText_plain k c h1)

theorem round_input {env : Env} {p : State} (hr : ZkdvrfPre.Reachable env p) (ht : 1 ≤ p.threshold) :
    ∃ x, utf8Decode (p.roundInput p.currentRoundNum) = some x ∧ utf8 x = p.roundInput p.currentRoundNum ∧
      InputArg x := by
  obtain ⟨_, o1, o2, hz⟩ := ZkdvrfPre.sim hr ht
  have hi : p.roundInput p.currentRoundNum =
      if 1 ≤ p.currentRoundNum ∧ p.currentRoundNum ≤ p.currentRoundNum then
        inputPrefix ++ decimal p.currentRoundNum else [] := (Zkdvrf.roundInv hz).input p.currentRoundNum
  rw [hi]
  split
  · rw [← utf8_inputText]
    exact ⟨_, utf8Decode_utf8 _, rfl, inputText_arg _⟩
  · exact ⟨[], rfl, rfl, (fun c hc => by cases hc), by simp⟩

theorem index_lt {p : State} {a : Address} {i : ℕ} (h : ZkdvrfPre.getIndexPlus p a = some i) : i < 2 ^ 64 := by
  unfold ZkdvrfPre.getIndexPlus u32 at h
  split at h
  · next hl =>
    cases h
    exact lt_trans hl (by norm_num)
  · cases h

/-! ### Passes -/

theorem orThrow_congr {α β : Type} {x : Option α} {f g : α → Prog β} (h : ∀ i, x = some i → f i = g i) :
    (orThrow x).bind f = (orThrow x).bind g := by
  cases x with
  | none => rfl
  | some a => exact h a rfl

section Passes
variable {M : Machine} {o : Options} {v : Vars} {p : State} {d : Draw} {k : ℕ}

theorem exec_eq (hc : Config.clientConfig (Config.commandVars o v) = .ok (config p, k)) {line : List Char} {c : Command}
    (h : Runs o v line c) : exec M v d line = ServicesFiles.exec M p d c := h.exec hc _ _

variable (hc : Config.clientConfig (Config.commandVars o v) = .ok (config p, k))
include hc

theorem registerNode_eq (a : Address) : registerNode M o v a d = ServicesFiles.registerNode M p a d := by
  unfold registerNode ServicesFiles.registerNode
  rw [exec_eq hc (runs_keygen o v (memberName_arg _ a))]

theorem submitPP_eq (a : Address) : submitPP M o v p a d = ServicesFiles.submitPP M p a d := by
  unfold submitPP ServicesFiles.submitPP
  refine congrArg _ (funext fun _ => orThrow_congr (fun i hi => ?_))
  rw [exec_eq hc (runs_prove o v (index_lt hi)), exec_eq hc (runs_dkgVerify o v (index_lt hi))]

theorem nidkgDerive_eq (a : Address) : nidkgDerive M o v p a d = ServicesFiles.nidkgDerive M p a d := by
  unfold nidkgDerive ServicesFiles.nidkgDerive
  refine congrArg _ (funext fun _ => orThrow_congr (fun i hi => ?_))
  rw [exec_eq hc (runs_deriveMember o v (index_lt hi) (memberName_arg _ a))]

theorem deriveFirst_eq (a : Address) : deriveFirst M o v p a d = ServicesFiles.deriveFirst M p a d := by
  unfold deriveFirst ServicesFiles.deriveFirst
  rw [nidkgDerive_eq hc]

theorem submitPartialEval_eq (hr : ZkdvrfPre.Reachable M.env p) (ht : 1 ≤ p.threshold) (a : Address) :
    submitPartialEval M o v p a d = ServicesFiles.submitPartialEval M p a d := by
  obtain ⟨x, h1, h2, h3⟩ := round_input hr ht
  unfold submitPartialEval ServicesFiles.submitPartialEval roundText
  rw [h1]
  refine (orThrow_congr (x := ZkdvrfPre.getIndexPlus p a) (fun i hi => ?_))
  rw [exec_eq hc (runs_eval o v (index_lt hi) h3), exec_eq hc (runs_verifyEval o v (index_lt hi) h3), h2]

theorem createGpp_eq : createGpp M o v p d = ServicesFiles.createGpp M p d := by
  unfold createGpp ServicesFiles.createGpp
  rw [exec_eq hc (runs_derive o v)]

theorem createRandom_eq (hr : ZkdvrfPre.Reachable M.env p) (ht : 1 ≤ p.threshold) :
    createRandom M o v p d = ServicesFiles.createRandom M p d := by
  obtain ⟨x, h1, h2, h3⟩ := round_input hr ht
  unfold createRandom ServicesFiles.createRandom roundText
  rw [h1]
  change (writeJson evalsPath (Client.evalsFile p.memberCount (p.roundToEval p.currentRoundNum))).bind _ = _
  refine congrArg _ (funext fun _ => ?_)
  rw [exec_eq hc (runs_combine o v h3), exec_eq hc (runs_verifyFinal o v h3), h2]

theorem nodePass_eq (hr : ZkdvrfPre.Reachable M.env p) (ht : 1 ≤ p.threshold) (a : Address) :
    nodePass M o v p a d = ServicesFiles.nodePass M p a d := by
  unfold nodePass ServicesFiles.nodePass
  rw [registerNode_eq hc, submitPP_eq hc, deriveFirst_eq hc, submitPartialEval_eq hc hr ht]
  rfl

theorem adminPass_eq (hr : ZkdvrfPre.Reachable M.env p) (ht : 1 ≤ p.threshold) (begun : Bool) :
    adminPass M o v p d begun = ServicesFiles.adminPass M p d begun := by
  unfold adminPass ServicesFiles.adminPass
  rw [createGpp_eq hc, createRandom_eq hc hr ht]
  rfl

end Passes

/-- Options that match the contract configure the client. -/
theorem Start.Matches.config {env : Env} {p : State} (hr : ZkdvrfPre.Reachable env p) (ht : 1 ≤ p.threshold)
    (htn : p.threshold ≤ p.memberCount) {u : Start} (hu : u.Matches p.threshold p.memberCount) :
    ∃ k, Config.clientConfig (Config.commandVars u.options u.vars) = .ok (config p, k) := by
  obtain ⟨h1, h2, k, hk, h3⟩ := hu
  obtain ⟨_, o1, o2, hz⟩ := ZkdvrfPre.sim hr ht
  have hb : 7 * p.memberCount + 14 < 2 ^ 32 := (Zkdvrf.regInv hz).bound
  exact ⟨k, (Props.C70_service_command u.options u.vars).1 _ _ k h1 h2 h3 (by omega) (by omega) hk ht htn⟩

/-! ### Histories -/

section Histories
variable {M : Machine} {A : Start} {U : Address → Start} {o : Address} {ws : List Address} {t n : ℕ}
  {aux1 : G1} {aux2 : G2}

/-- What both kinds of histories keep. -/
structure Kept (M : Machine) (t n : ℕ) (p : State) : Prop where
  reachable : ZkdvrfPre.Reachable M.env p
  threshold : p.threshold = t
  members : p.memberCount = n

theorem Kept.mine {p : State} (h : Kept M t n p) {a : Address} (ha : a ≠ 0) (c : Call) :
    Kept M t n (Services.mine M p a c) :=
  ⟨.step _ ha h.reachable, (ZkdvrfPre.step_threshold _ _ _).1.trans h.threshold,
    (ZkdvrfPre.step_threshold _ _ _).2.trans h.members⟩

theorem Kept.mined {p : State} (h : Kept M t n p) {a : Address} (ha : a ≠ 0) (res : Except Stop (Option Call)) :
    Kept M t n (mined M p a res) := by
  match res with
  | .ok (some c) => exact h.mine ha c
  | .ok none => exact h
  | .error _ => exact h

theorem Kept.tick {w : World} (h : Kept M t n w.p) {a : Address} (ha : a ≠ 0) (begun elapsed : Bool) :
    Kept M t n (w.tickStep M a begun elapsed).p := by
  unfold World.tickStep
  split
  · exact h.mine ha _
  · exact h

theorem Kept.node_eq {p : State} (h : Kept M t n p) (ht : 1 ≤ t) (htn : t ≤ n) {u : Start} (hu : u.Matches t n)
    (a : Address) (d : Draw) : nodePass M u.options u.vars p a d = ServicesFiles.nodePass M p a d := by
  have h1 : 1 ≤ p.threshold := by rw [h.threshold]; exact ht
  obtain ⟨k, hk⟩ := Start.Matches.config h.reachable h1 (by rw [h.threshold, h.members]; exact htn)
    (u := u) (by rw [h.threshold, h.members]; exact hu)
  exact nodePass_eq hk h.reachable h1 a

theorem Kept.admin_eq {p : State} (h : Kept M t n p) (ht : 1 ≤ t) (htn : t ≤ n) {u : Start} (hu : u.Matches t n)
    (d : Draw) (begun : Bool) :
    adminPass M u.options u.vars p d begun = ServicesFiles.adminPass M p d begun := by
  have h1 : 1 ≤ p.threshold := by rw [h.threshold]; exact ht
  obtain ⟨k, hk⟩ := Start.Matches.config h.reachable h1 (by rw [h.threshold, h.members]; exact htn)
    (u := u) (by rw [h.threshold, h.members]; exact hu)
  exact adminPass_eq hk h.reachable h1 begun

theorem wallet_ne {p : State} (h0 : Services.Fresh M o ws t n p) {a : Address} (ha : a ∈ ws) : a ≠ 0 := by
  obtain ⟨_, o1, o2, hz⟩ := ZkdvrfPre.sim h0.reachable (by rw [h0.threshold]; exact h0.t_pos)
  have hadd := (h0.added a).2 ha
  have hself : (p.addrToNode a).nodeAddress = a := (Zkdvrf.regInv hz).addr_self a hadd
  rintro rfl
  exact hadd hself

theorem to_files {w : World} (h0 : Services.Fresh M o ws t n w.p) (hA : A.Matches t n) (hU : ∀ a, (U a).Matches t n)
    {N : ℕ} {w' : World} (h : Honest M A U o ws t n aux1 aux2 w N w') :
    ServicesFiles.Honest M o ws t n aux1 aux2 w N w' ∧ Kept M t n w'.p := by
  induction h with
  | refl => exact ⟨.refl, h0.reachable, h0.threshold, h0.members⟩
  | @node N w' a d ha hd h ih =>
    obtain ⟨ih, hk⟩ := ih
    have e := hk.node_eq h0.t_pos h0.t_le (hU a) a d
    refine ⟨?_, ?_⟩
    · unfold nodeStep
      rw [e]
      exact .node a d ha hd ih
    · exact hk.mined (wallet_ne h0 ha) _
  | @nodeStopped N w' a d s hs h ih =>
    obtain ⟨ih, hk⟩ := ih
    rw [hk.node_eq h0.t_pos h0.t_le (hU a) a d] at hs
    exact ⟨.nodeStopped a d s hs ih, hk⟩
  | @admin N w' d begun h ih =>
    obtain ⟨ih, hk⟩ := ih
    have e := hk.admin_eq h0.t_pos h0.t_le hA d begun
    refine ⟨?_, ?_⟩
    · unfold adminStep
      rw [e]
      exact .admin d begun ih
    · exact hk.mined h0.owner_ne _
  | @adminStopped N w' d begun s hs h ih =>
    obtain ⟨ih, hk⟩ := ih
    rw [hk.admin_eq h0.t_pos h0.t_le hA d begun] at hs
    exact ⟨.adminStopped d begun s hs ih, hk⟩
  | @tick N w' begun elapsed he h ih =>
    obtain ⟨ih, hk⟩ := ih
    exact ⟨.tick begun elapsed he ih, hk.tick h0.owner_ne _ _⟩

theorem of_files {w : World} (h0 : Services.Fresh M o ws t n w.p) (hA : A.Matches t n) (hU : ∀ a, (U a).Matches t n)
    {N : ℕ} {w' : World} (h : ServicesFiles.Honest M o ws t n aux1 aux2 w N w') :
    Honest M A U o ws t n aux1 aux2 w N w' ∧ Kept M t n w'.p := by
  induction h with
  | refl => exact ⟨.refl, h0.reachable, h0.threshold, h0.members⟩
  | @node N w' a d ha hd h ih =>
    obtain ⟨ih, hk⟩ := ih
    have e := hk.node_eq h0.t_pos h0.t_le (hU a) a d
    refine ⟨?_, ?_⟩
    · have := Honest.node a d ha hd ih
      unfold nodeStep at this
      rw [e] at this
      exact this
    · exact hk.mined (wallet_ne h0 ha) _
  | @nodeStopped N w' a d s hs h ih =>
    obtain ⟨ih, hk⟩ := ih
    rw [← hk.node_eq h0.t_pos h0.t_le (hU a) a d] at hs
    exact ⟨.nodeStopped a d s hs ih, hk⟩
  | @admin N w' d begun h ih =>
    obtain ⟨ih, hk⟩ := ih
    have e := hk.admin_eq h0.t_pos h0.t_le hA d begun
    refine ⟨?_, ?_⟩
    · have := Honest.admin d begun ih
      unfold adminStep at this
      rw [e] at this
      exact this
    · exact hk.mined h0.owner_ne _
  | @adminStopped N w' d begun s hs h ih =>
    obtain ⟨ih, hk⟩ := ih
    rw [← hk.admin_eq h0.t_pos h0.t_le hA d begun] at hs
    exact ⟨.adminStopped d begun s hs ih, hk⟩
  | @tick N w' begun elapsed he h ih =>
    obtain ⟨ih, hk⟩ := ih
    exact ⟨.tick begun elapsed he ih, hk.tick h0.owner_ne _ _⟩

end Histories

end Verif.ServicesText
