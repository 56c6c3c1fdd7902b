import Verif.Lemmas.GppReport
import Verif.Props.ServicesProofs

namespace Verif.Props
open Disk Disk.Prog Spec ServicesFiles GppReport
open Services (Machine Draw GoodDraw Faithful Fresh)
open ZkdvrfPre (State Completed Registered indexOf)

/-- C95. On key files written by the client, whatever the keys and whatever is on the chain: the comparison of the admin throws
exactly if the chain has fewer keys; otherwise it reports exactly the differences. -/
theorem C95_reports_differences (P : G2) (Vs : List G1) (p : State) :
    (messages (Point2Serde.ofG2 P) (Vs.map PointSerde.ofG1) p = none ↔ p.vkList.length < Vs.length) ∧
    ∀ ms, messages (Point2Serde.ofG2 P) (Vs.map PointSerde.ofG1) p = some ms →
      (.gpk ∈ ms ↔ p.gpkVal ≠ encodeG2 P) ∧ (.length ∈ ms ↔ p.vkList.length ≠ Vs.length) ∧
      ∀ i, .vk i ∈ ms ↔ ∃ V, Vs[i]? = some V ∧ p.vkList[i]? ≠ some (encodeG1 V) := by
  unfold messages
  rw [differs_G2]
  have h1 := vkMessages_none 0 Vs p.vkList
  cases h : vkMessages 0 (Vs.map PointSerde.ofG1) p.vkList with
  | none => exact ⟨⟨fun _ => h1.1 h, fun _ => rfl⟩, (fun ms h => by cases h)⟩
  | some vs =>
    refine ⟨⟨(fun h => by cases h), fun hlt => by rw [h1.2 hlt] at h; cases h⟩, fun ms hm => ?_⟩
    have h2 := vkMessages_some h
    have e : (if decide (p.gpkVal ≠ encodeG2 P) = true then [Message.gpk] else []) ++
      (if p.vkList.length ≠ (Vs.map PointSerde.ofG1).length then [Message.length] else []) ++ vs = ms := Option.some.inj hm
    rw [List.length_map] at e
    have hg : ∀ m, m ∈ (if decide (p.gpkVal ≠ encodeG2 P) = true then [Message.gpk] else []) ↔
        m = .gpk ∧ p.gpkVal ≠ encodeG2 P := by
      intro m
      by_cases hc : p.gpkVal ≠ encodeG2 P
      · rw [if_pos (decide_eq_true hc), List.mem_singleton]
        exact ⟨fun h => ⟨h, hc⟩, fun h => h.1⟩
      · rw [if_neg (by rw [decide_eq_false hc]; exact Bool.false_ne_true)]
        exact ⟨(fun h => by cases h), fun h => absurd h.2 hc⟩
    have hl : ∀ m, m ∈ (if p.vkList.length ≠ Vs.length then [Message.length] else []) ↔
        m = .length ∧ p.vkList.length ≠ Vs.length := by
      intro m
      by_cases hc : p.vkList.length ≠ Vs.length
      · rw [if_pos hc, List.mem_singleton]
        exact ⟨fun h => ⟨h, hc⟩, fun h => h.1⟩
      · rw [if_neg hc]
        exact ⟨(fun h => by cases h), fun h => absurd h.2 hc⟩
    rw [← e]
    refine ⟨?_, ?_, fun i => ?_⟩
    · rw [List.mem_append, List.mem_append, hg, hl, h2]
      constructor
      · rintro ((h | h) | ⟨_, _, h, _⟩)
        · exact h.2
        · cases h.1
        · cases h
      · exact fun h => Or.inl (Or.inl ⟨rfl, h⟩)
    · rw [List.mem_append, List.mem_append, hg, hl, h2]
      constructor
      · rintro ((h | h) | ⟨_, _, h, _⟩)
        · cases h.1
        · exact h.2
        · cases h
      · exact fun h => Or.inl (Or.inr ⟨rfl, h⟩)
    · rw [List.mem_append, List.mem_append, hg, hl, h2]
      constructor
      · rintro ((h | h) | ⟨j, V, h, h3⟩)
        · cases h.1
        · cases h.1
        · obtain rfl : i = 0 + j := Message.vk.inj h
          rw [zero_add]
          exact ⟨V, h3⟩
      · rintro ⟨V, h⟩
        exact Or.inr ⟨i, V, by rw [zero_add], h⟩

/-- C95. So it is silent exactly when the keys agree. -/
theorem C95_silent (P : G2) (Vs : List G1) (p : State) :
    messages (Point2Serde.ofG2 P) (Vs.map PointSerde.ofG1) p = some [] ↔
      p.gpkVal = encodeG2 P ∧ p.vkList = Vs.map encodeG1 := by
  obtain ⟨h1, h2⟩ := C95_reports_differences P Vs p
  cases h : messages (Point2Serde.ofG2 P) (Vs.map PointSerde.ofG1) p with
  | none =>
    refine ⟨(fun h => by cases h), fun ⟨_, e⟩ => ?_⟩
    have := h1.1 h
    rw [e, List.length_map] at this
    exact absurd this (lt_irrefl _)
  | some ms =>
    obtain ⟨g1, g2, g3⟩ := h2 ms h
    constructor
    · intro e
      obtain rfl := Option.some.inj e
      have k1 : p.gpkVal = encodeG2 P := by
        by_contra hc
        exact absurd (g1.2 hc) List.not_mem_nil
      have k2 : p.vkList.length = Vs.length := by
        by_contra hc
        exact absurd (g2.2 hc) List.not_mem_nil
      refine ⟨k1, List.ext_getElem? (fun i => ?_)⟩
      rw [List.getElem?_map]
      cases hv : Vs[i]? with
      | none =>
        rw [List.getElem?_eq_none_iff] at hv
        exact List.getElem?_eq_none_iff.2 (k2 ▸ hv)
      | some V =>
        by_contra hc
        exact absurd ((g3 i).2 ⟨V, hv, hc⟩) List.not_mem_nil
    · rintro ⟨e1, e2⟩
      cases ms with
      | nil => rfl
      | cons m ms =>
        exfalso
        cases m with
        | gpk => exact g1.1 (List.mem_cons_self) e1
        | length => exact g2.1 (List.mem_cons_self) (by rw [e2, List.length_map])
        | vk i =>
          obtain ⟨V, hv, hc⟩ := (g3 i).1 (List.mem_cons_self)
          rw [e2, List.getElem?_map, hv] at hc
          exact hc rfl

/-- The files of `derive` without a member, if it succeeds. -/
theorem derive_files {cfg : DkgConfig} {inss : List (List (List Char))} {out : Client.DeriveOut}
    (h : Client.derive cfg inss none = .ok out) :
    ∃ (P : G2) (Vs : List G1), out = ⟨Point2Serde.ofG2 P, Vs.map PointSerde.ofG1, none⟩ := by
  unfold Client.derive at h
  cases h1 : inss.mapM (fun l => l.mapM (readField r)) with
  | error e => rw [h1] at h; cases h
  | ok ins =>
    rw [h1, lift_bind] at h
    cases h2 : ins.mapM (fun s => do let p ← fromInstance cfg s; return p.1) with
    | error e => rw [h2] at h; cases h
    | ok pps =>
      rw [h2, lift_bind] at h
      cases h3 : dkgGlobalPublicParams pps with
      | error e => rw [h3] at h; cases h
      | ok gpp =>
        rw [h3, lift_bind] at h
        exact ⟨gpp.g2a, gpp.verifyKeys, (Except.ok.inj h).symm⟩

/-- C95. Whoever deals, with a sound proof system: once the keys are on the chain, the comparison with the files derived from
the chain is silent.  In particular after `computeVk` with the derived key was accepted. -/
theorem C95_chain (env : Env) {p : State} (hr : ZkdvrfPre.Reachable env p) (ht : 1 ≤ p.threshold)
    (hp : p.contractPhase = .Ready) (hs : Spec.SnarkSound env p.threshold p.memberCount) (out : Client.DeriveOut)
    (h : Client.derive ⟨p.threshold, p.memberCount⟩ (Client.instancesFile p.ppList) none = .ok out) :
    messages out.gpk out.vks p = some [] := by
  obtain ⟨_, o1, o2, hz⟩ := ZkdvrfPre.sim hr ht
  obtain ⟨gf, vf, vks, e1, e2, e3, e4⟩ := C52_files_match_contract env hz (ZkdvrfPre.toZk_ready.2 hp) hs
  obtain rfl : out = ⟨gf, vf, none⟩ := Except.ok.inj (h.symm.trans e1)
  obtain ⟨P, Vs, e5⟩ := derive_files h
  obtain ⟨rfl, rfl, -⟩ := Client.DeriveOut.mk.inj e5
  rw [gpkSubmission_of] at e2
  rw [read_vks] at e3
  obtain rfl := Except.ok.inj e3
  exact (C95_silent P Vs p).2 ⟨(Option.some.inj e2).symm, e4.symm⟩

/-- C95. The services, with any proof system: from the moment the keys are on the chain, the admin has key files with which the
comparison is silent. -/
theorem C95_services (M : Machine) {o : Address} {ws : List Address} {t n : ℕ} {aux1 : G1} {aux2 : G2}
    (hM : Sane M aux1 aux2) {w w' : World} (h0 : Fresh M o ws t n w.p) {N : ℕ}
    (h : Accepting M o ws t n aux1 aux2 w N w') (hN : N < 2 ^ 255) (hp : w'.p.contractPhase = .Ready) :
    ∃ gf vf, load w'.admin .gpk = some gf ∧ load w'.admin .vks = some vf ∧ messages gf vf w'.p = some [] := by
  have hi := ideal_faithful (t := t) (n := n) hM
  obtain ⟨v, hv⟩ := simulated hi (ideal_fresh h0) (to_ideal hM h0 h hN) hN
  have hinv := hv.inv hi (ideal_fresh h0) hN
  have h1 := hinv.reach
  have h2 := hinv.thr
  have h3 := hinv.cnt
  have h4 := hinv.adm
  rw [hv.state] at h1 h2 h3 h4
  obtain ⟨gf, vf, e1, e2, e3⟩ := h4 hp
  refine ⟨gf, vf, (hv.admin.gpk hp).trans e2, (hv.admin.vks hp).trans e3, ?_⟩
  refine C95_chain _ h1 (by rw [h2]; exact h0.t_pos) hp (by rw [h2, h3]; exact hi.sound) ⟨gf, vf, none⟩ ?_
  rw [h2, h3]
  exact e1

theorem createGpp_call {M : Machine} {p : State} {d : Draw} {s s' : Store} {c : Zkdvrf.Call}
    (h : (createGpp M p d).run s = (s', .ok c)) : ∃ g, c = .computeVk g := by
  unfold createGpp at h
  simp only [bind_eq, run_bind] at h
  repeat' (split at h)
  all_goals first
    | (cases congrArg Prod.snd h; done)
    | exact ⟨_, (Except.ok.inj (congrArg Prod.snd h)).symm⟩

/-- C95. In particular, the pass that computes the keys ends without a message. -/
theorem C95_pass (M : Machine) {o : Address} {ws : List Address} {t n : ℕ} {aux1 : G1} {aux2 : G2}
    (hM : Sane M aux1 aux2) {w w' : World} (h0 : Fresh M o ws t n w.p) {N : ℕ}
    (h : Accepting M o ws t n aux1 aux2 w N w') (hN : N < 2 ^ 254) (hp : w'.p.contractPhase = .NidkgComplete) (d : Draw)
    (begun : Bool) :
    ∃ gf vf, load (w'.adminStep M o d begun).admin .gpk = some gf ∧ load (w'.adminStep M o d begun).admin .vks = some vf ∧
      messages gf vf (w'.adminStep M o d begun).p = some [] := by
  have hN1 : N < 2 ^ 255 := lt_trans hN (by decide +kernel)
  have hf := (C94_other_passes M hM h0 h hN1).2.1 d begun
  have hacc := Accepting.admin d begun h
  have hle : landed M w'.p o ((adminPass M w'.p d begun).run w'.admin).2 ≤ 1 :=
    (landed_le _ _ _ _).trans (by unfold sent; split <;> norm_num)
  refine C95_services M hM h0 hacc ?_ ?_
  · exact lt_of_le_of_lt (Nat.add_le_add_left hle N) (lt_of_le_of_lt (Nat.succ_le_of_lt hN) (by decide +kernel))
  · unfold World.adminStep
    dsimp only
    have hpass : adminPass M w'.p d begun = sending (createGpp M w'.p d) := by
      unfold adminPass
      rw [hp]
    rw [hpass] at hf ⊢
    unfold sending at hf ⊢
    rw [run_bind] at hf ⊢
    generalize hx : (createGpp M w'.p d).run w'.admin = x at hf ⊢
    obtain ⟨s1, res⟩ := x
    cases res with
    | error e => exact hf.elim
    | ok c =>
      obtain ⟨p', he⟩ := hf
      obtain ⟨g, rfl⟩ : ∃ g, c = .computeVk g := createGpp_call hx
      change (mined M w'.p o (.ok (some (.computeVk g)))).contractPhase = .Ready
      unfold mined
      dsimp only
      rw [mine_some he]
      obtain ⟨_, _, _, _, rfl⟩ := ZkdvrfPre.computeVk_some.1 he
      rfl

/-- The services with a verifier that accepts everything: after eight transactions the keys are there, and the comparison in
that pass prints nothing. -/
example (s₀ : Store) : ∃ w w' gf vf, Fresh gullible 7 [1, 2, 3] 2 3 w.p ∧ (∀ a, w.node a = s₀) ∧
    Accepting gullible 7 [1, 2, 3] 2 3 (5 • g1) FixedPoint.aux2 w 7 w' ∧ w'.p.contractPhase = .NidkgComplete ∧
    load (w'.adminStep gullible 7 toyDraw true).admin .gpk = some gf ∧
    load (w'.adminStep gullible 7 toyDraw true).admin .vks = some vf ∧
    messages gf vf (w'.adminStep gullible 7 toyDraw true).p = some [] := by
  obtain ⟨p, hp⟩ := gullible_fresh
  have h1 : Accepting gullible 7 [1, 2, 3] 2 3 (5 • g1) FixedPoint.aux2 ⟨p, s₀, fun _ => s₀⟩ 0 _ := .refl
  obtain ⟨w', h2⟩ := C94_completes gullible gullible_sane (fun ins _ => ⟨[], rfl, rfl, rfl⟩) toyDraw toy_good hp h1
    7 (by norm_num)
  have hs := ((C94_stage gullible gullible_sane hp h2 (by decide +kernel)).2.2.2.1 rfl).1
  obtain ⟨gf, vf, e1, e2, e3⟩ := C95_pass gullible gullible_sane hp h2 (by decide +kernel) hs toyDraw true
  exact ⟨_, w', gf, vf, hp, fun _ => rfl, h2, hs, e1, e2, e3⟩

/-- A key that differs on the chain is reported, and no other. -/
example (p : State) : messages (Point2Serde.ofG2 g2) ([g1, g1].map PointSerde.ofG1)
    { p with gpkVal := encodeG2 g2, vkList := [encodeG1 g1, encodeG1 0] } = some [.vk 1] := by
  have h : encodeG1 0 ≠ encodeG1 g1 := fun e => g1_ne_zero (encodeG1_inj e).symm
  unfold messages
  rw [differs_G2, List.map_cons, List.map_cons, List.map_nil, vkMessages, vkMessages, differs_G1, differs_G1,
    decide_eq_false (not_not.2 rfl), decide_eq_false (not_not.2 rfl), decide_eq_true h]
  rfl

end Verif.Props
