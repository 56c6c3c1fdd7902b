import Verif.Lemmas.KeyExists
import Verif.Props.LayoutHonest
import Verif.Props.Halo2Complete
import Verif.Props.Liveness

/-!
Property C82: an honest member's public parameters come with a proof that the deployed contract accepts.
-/

namespace Verif.Props
open Verif Verif.Spec Verif.Layout Verif.DkgCircuit Polynomial

/-- C82 (keys and layouts). If a key belongs to a layout and to nothing more, columns satisfy the key's constraint
system exactly if the table of their values satisfies the layout. -/
theorem C82_satisfied_iff (V : Halo2.Key) (hV : V.Valid) (K : Halo2.KeyPolys) (S : Shape) (start : ℕ → ℕ)
    (hR : RealizesExactly V K S start) (advice : Fin 5 → Fr[X]) (inst : List Fr) :
    Halo2.Satisfied V K advice inst ↔ Layout.Holds S (tableOf V K start advice inst) :=
  ⟨holds_of_satisfied (hV.root.ne_zero (pow_ne_zero _ two_ne_zero)) hR.toRealizes, satisfied_of_holds (hV.root.ne_zero (pow_ne_zero _ two_ne_zero)) hR⟩

/-- C82 (columns). If a table satisfies the layout, with pairs in the range table only that the key has there, then
there are columns with the same values in the cells of the layout, and any values in the rows for blinding, that satisfy
the key's constraint system. -/
theorem C82_columns (V : Halo2.Key) (hV : V.Valid) (K : Halo2.KeyPolys) (S : Shape) (start : ℕ → ℕ)
    (hR : RealizesExactly V K S start) (T : Table) (hT : Layout.Holds S T) (inst : List Fr)
    (hi : ∀ j, T.inst j = inst.getD j 0) (hr : ∀ t x, T.range t x → keyRange V K t x) (rows : Fin 5 → ℕ → Fr) :
    ∃ advice : Fin 5 → Fr[X], (∀ j, (advice j).natDegree ≤ V.n - 1) ∧
      (∀ j i, V.usable ≤ i → i < V.n → (advice j).eval (V.omega ^ i) = rows j i) ∧
      (∀ c, S.Reads c → (tableOf V K start advice inst).cell c = T.cell c) ∧ Halo2.Satisfied V K advice inst := by
  have hc : ∀ c, S.Reads c → (tableOf V K start (fun j => Halo2.interp V (grid S start T rows j)) inst).cell c = T.cell c :=
    fun c hc => (Halo2.interp_row V hV _ (usable_lt (hR.rows c hc))).trans (grid_reads hR T rows hc)
  refine ⟨fun j => Halo2.interp V (grid S start T rows j), fun j => Halo2.interp_natDegree V hV _, fun j i h1 h2 => ?_, hc,
    satisfied_of_holds (hV.root.ne_zero (pow_ne_zero _ two_ne_zero)) hR (holds_agree hr (fun j => (hi j).symm) hc hT)⟩
  exact (Halo2.interp_row V hV _ h2).trans (grid_rest hR T rows j h1)

/-- C82 (submission). Let the key belong exactly to the layout of the circuit.  For all but few first coefficients, an
honest member's dealing for the registered keys has public parameters for which, with all but few auxiliary points, the
prover's table gives columns of a prover (with any blinding) whose proof the contract accepts in any reachable state of
the DKG phase in which those keys are registered and the member has not submitted; unless a challenge is one of few
exceptions or a commitment is the point at infinity. -/
theorem C82_honest_submission (V : Halo2.Key) (hV : V.Valid) (K : Halo2.KeyPolys) (hKD : K.Bound (V.n - 1))
    (hp : K.Permutes V) (hi : V.instances ≤ V.n) (J : IntegerImpl)
    (hJ : ∀ inp inst, ∃ Is, J.Complete ⟨inp, inst, keyRange V K⟩ Is) (ip : Bool) (t n : ℕ) (ht : 0 < t) (hn : 1 ≤ n)
    (auxG1 : G1) (auxG2 : G2) (h1 : TableFits 3 g1 auxG1) (h2 : r • auxG2 = 0) (h3 : TableFits 3 g2 auxG2)
    (S : Shape) (hL : layout J ⟨t, n⟩ auxG1 auxG2 = some (S, V.instances)) (start : ℕ → ℕ)
    (hR : RealizesExactly V K S start) (pks : List Gk) (hl : pks.length = n) (hpk : ∀ pk ∈ pks, pk ≠ 0) (draw : ℕ → Fr)
    (hr : draw t ≠ 0) :
    ∃ badSecret : Finset Fr, badSecret.card ≤ 69 * (n + 2) ∧ ∀ a ∉ badSecret, ∃ mp ins,
      DkgMemberParams.new Poseidon.hash2 ⟨t, n⟩ pks (Function.update draw 0 a) = .ok mp ∧
      mp.publicParams.toInstance ip pks = .ok ins ∧
      ∃ bad : Finset Gk, bad.card ≤ 510 * (n + 1) + 1 ∧ ∀ A ∉ bad, ∀ rows : Fin 5 → ℕ → Fr, ∃ inp T advice,
        circuitOf mp A = some inp ∧
        honestTable J ⟨t, n⟩ auxG1 auxG2 inp ins (keyRange V K) (fun _ => 0) = some (S, T) ∧
        (∀ c, S.Reads c → (tableOf V K start advice ins).cell c = T.cell c) ∧
        (∀ j i, V.usable ≤ i → i < V.n → (advice j).eval (V.omega ^ i) = rows j i) ∧
        ∃ (Bβ : Fr → Finset Fr) (Bγ : Fr → Fr → Finset Fr), (∀ theta, (Bβ theta).card ≤ 5 * V.usable) ∧
          (∀ theta beta, (Bγ theta beta).card ≤ 10 * V.usable) ∧
          ∀ b : Halo2.Blinding, b.random.natDegree ≤ V.n - 1 → ∃ P : Halo2.Prover, P.advice = advice ∧ P.Blinded V b ∧
            ∀ (env : Env) (s : Fr) (sel : List Byte) (addr : Word), Halo2.KeyFor V s K → sel.length = 4 →
              env.verifyProof = Verif.Halo2.verifyProof env.E env.keccak V.words sel addr →
              (∃! C : Halo2.Challenges, Halo2.challengesOf env.keccak V ins (P.proof s C).words = C) ∧
              ∀ C : Halo2.Challenges, Halo2.challengesOf env.keccak V ins (P.proof s C).words = C →
                C.Good V → C.beta ∉ Bβ C.theta → C.gamma ∉ Bγ C.theta C.beta → (P.proof s C).Finite →
                  ∀ (st : Zkdvrf.State) (m : Msg), Zkdvrf.Reachable env st → st.contractPhase = .Nidkg →
                    st.pkList = pks.map Zkdvrf.keyWords → (st.addrToNode m.sender).nodeAddress = m.sender →
                    (st.addrToNode m.sender).statusPP = false → m.value = 0 →
                    ∃ st', Zkdvrf.exec env st m (.submitPublicParams (wordsOf ins) (P.proof s C).bytes) = some st' ∧
                      st'.ppList = st.ppList ++ [wordsOf ins] := by
  obtain ⟨badSecret, hb, hgood⟩ := C80_most_secrets J (keyRange V K) hJ ip t n ht hn auxG1 auxG2 h1 h2 h3 pks hl hpk draw hr
  refine ⟨badSecret, hb, fun a ha => ?_⟩
  obtain ⟨mp, ins, e1, e2, bad, hb2, hgood⟩ := hgood a ha
  refine ⟨mp, ins, e1, e2, bad, hb2, fun A hA rows => ?_⟩
  obtain ⟨inp, S', T, e3, e4, e5, hT⟩ := hgood A hA (fun _ => 0)
  have e6 := Option.some.inj (e5.symm.trans hL)
  have e7 : S' = S := congrArg Prod.fst e6
  have e8 : ins.length = V.instances := congrArg Prod.snd e6
  subst e7
  have e9 : T.inst = (fun j => ins.getD j 0) ∧ T.range = keyRange V K := by
    unfold honestTable at e4
    obtain ⟨o, -, ho⟩ := Option.map_eq_some_iff.1 e4
    have ho : _ = T := congrArg Prod.snd ho
    rw [← ho]
    exact ⟨rfl, rfl⟩
  obtain ⟨advice, a1, a2, a3, a4⟩ := C82_columns V hV K S' start hR T hT ins (fun j => by rw [e9.1])
    (fun t x h => by rw [e9.2] at h; exact h) rows
  obtain ⟨Bβ, Bγ, b1, b2, b3⟩ := C65_on_chain V hV K hKD hp ins e8 hi advice a1 a4
  refine ⟨inp, T, advice, e3, e4, a3, a2, Bβ, Bγ, b1, b2, fun b hb => ?_⟩
  obtain ⟨P, p1, p2, p3⟩ := b3 b hb
  refine ⟨P, p1, p2, fun env s sel addr hK hsel hv => ?_⟩
  obtain ⟨c1, c2⟩ := p3 env.E s hK env.keccak
  refine ⟨c1, fun C hC g1 g2 g3 g4 st m hr hph hks hreg hst hval => ?_⟩
  have hv2 : env.verifyProof (P.proof s C).bytes (wordsOf ins) = some true := by
    rw [hv]
    exact c2 C hC g1 g2 g3 g4 sel addr hsel
  have hri := Zkdvrf.regInv hr
  have hmc : st.memberCount = n := by
    have h := hri.pkLen
    rw [hks, List.length_map, hl] at h
    rw [h]
    exact (hri.started (by rw [hph]; exact Zkdvrf.Phase.noConfusion)).symm
  have hd := new_eq_dealt t n ht hn pks hl _ mp e1
  obtain ⟨hls, hlc⟩ := length_dealt n ((List.range t).map (Function.update draw 0 a))
    (Function.update draw 0 a t).val pks
  rw [← hd] at hls hlc
  obtain ⟨k1, k2⟩ := Zkdvrf.instance_keys hls hlc hl e2
  have hchk : Zkdvrf.checkPublicParams st (wordsOf ins) = some true :=
    (Zkdvrf.checkPublicParams_true hri.len hri.bound _).2
      ⟨by rw [hks, List.length_map, hl, hmc], by rw [hmc]; exact k1, by rw [hmc, k2, hks]⟩
  have hcnt : st.ppSubmissionCount + 1 < 2 ^ 32 := by
    have hb := hri.bound
    rcases (Zkdvrf.dkgInv hr).nidkg hph with h | h
    · omega
    · omega
  exact ⟨_, Zkdvrf.submitPublicParams_some.2 ⟨hval, hreg.symm, hph, hst, hchk, hv2, hcnt, rfl⟩, rfl⟩

/-- C82 (keys). Every layout that fits into the usable rows of a domain has keys that belong to it and to nothing more,
whatever the secret of the commitments, with any range table that contains the pair of two zeroes. -/
theorem C82_keys_exist (k instances : ℕ) (h3 : 3 ≤ k) (h28 : k ≤ 28) (hin : instances < 2 ^ 64) (ω : Fr)
    (hω : IsPrimitiveRoot ω (2 ^ k)) (S : Shape) (start : ℕ → ℕ) (crow : Fr → ℕ) (table : List (Fr × Fr))
    (hS : S.Fits (2 ^ k - 6) start crow table) :
    ∃ K : Halo2.KeyPolys, K.Bound (2 ^ k - 1) ∧ ∀ s : Fr, ∃ V : Halo2.Key, V.k = k ∧ V.omega = ω ∧ V.instances = instances ∧
      V.Valid ∧ Halo2.KeyFor V s K ∧ K.Permutes V ∧ RealizesExactly V K S start ∧
      ∀ t x, keyRange V K t x ↔ (t, x) ∈ table := by
  have hV : (⟨0, instances, k, ω, g1, g2, g2, fun _ => 0, fun _ => 0⟩ : Halo2.Key).Valid :=
    ⟨hω, h3, h28, hin, r_nsmul_g2, r_nsmul_g2⟩
  obtain ⟨σ, hσ', hσ⟩ := exists_orbits (tieSetoid S start crow
    (⟨0, instances, k, ω, g1, g2, g2, fun _ => 0, fun _ => 0⟩ : Halo2.Key).usable)
  have hP := keyOf_permutes (S := S) (start := start) (crow := crow) (table := table) (σ := σ) hV
  have hRa := keyOf_range (S := S) (start := start) (crow := crow) (table := table) (σ := σ) hV hS
  have hE := keyOf_exact (table := table) hV hS hσ hσ'
  have hE' := fun (V' : Halo2.Key) (e : k = V'.k) (e' : ω = V'.omega) => exactly_congr (V' := V') e e' hE
  exact ⟨keyOf _ S start crow table σ, keyOf_bound hV, fun s => ⟨⟨0, instances, k, ω, g1, g2, smul2 (-s) g2,
    fun i => Halo2.commit s ((keyOf _ S start crow table σ).fixed i),
    fun i => Halo2.commit s ((keyOf _ S start crow table σ).perm i)⟩, rfl, rfl, rfl,
    ⟨hω, h3, h28, hin, r_nsmul_g2, smul2_torsion _⟩, ⟨rfl, rfl, rfl, fun _ => rfl, fun _ => rfl⟩, hP,
    hE' _ rfl rfl, hRa⟩⟩

/-- A small layout: a product of equal factors, the first of which is 3; the product is a public input. -/
noncomputable def squareShape : Shape :=
  ⟨[(0, 0, .main mulRow)], [(⟨0, 0, 0⟩, ⟨0, 0, 1⟩)], [(⟨0, 0, 0⟩, 3)], [(⟨0, 0, 2⟩, 0)]⟩

/-- The cells of that layout are in its first row. -/
theorem squareShape_reads {c : Cell} (h : squareShape.Reads c) : c.region = 0 ∧ c.offset = 0 := by
  rcases h with ⟨k, i, g, hg, h⟩ | ⟨c', h | h⟩ | ⟨x, h⟩ | ⟨j, h⟩
  · obtain ⟨rfl, rfl, rfl⟩ : k = 0 ∧ i = 0 ∧ g = .main mulRow := by
      have := List.mem_singleton.1 hg
      exact ⟨congrArg Prod.fst this, congrArg (fun p => p.2.1) this, congrArg (fun p => p.2.2) this⟩
    obtain ⟨h1, h2 | ⟨h2, -⟩⟩ := h
    · exact ⟨h1, h2⟩
    · exact absurd rfl h2
  · have e : c = ⟨0, 0, 0⟩ := congrArg Prod.fst (List.mem_singleton.1 h)
    rw [e]; exact ⟨rfl, rfl⟩
  · have e : c = ⟨0, 0, 1⟩ := congrArg Prod.snd (List.mem_singleton.1 h)
    rw [e]; exact ⟨rfl, rfl⟩
  · have e : c = ⟨0, 0, 0⟩ := congrArg Prod.fst (List.mem_singleton.1 h)
    rw [e]; exact ⟨rfl, rfl⟩
  · have e : c = ⟨0, 0, 2⟩ := congrArg Prod.fst (List.mem_singleton.1 h)
    rw [e]; exact ⟨rfl, rfl⟩

theorem squareShape_fits : squareShape.Fits 2 (fun k => k) (fun _ => 1) [(0, 0)] where
  rows c hc := by
    obtain ⟨h1, h2⟩ := squareShape_reads hc
    rw [h1, h2]
    decide
  apart c c' hc hc' h := by
    obtain ⟨h1, h2⟩ := squareShape_reads hc
    obtain ⟨h1', h2'⟩ := squareShape_reads hc'
    obtain ⟨a, b, d⟩ := c
    obtain ⟨a', b', d'⟩ := c'
    dsimp only at h1 h2 h1' h2'
    subst h1 h2 h1' h2'
    have e : (d.castLE (by decide) : Fin 9) = d'.castLE (by decide) := congrArg Prod.fst h
    rw [Fin.castLE_injective _ e]
  single k i g g' h h' _ := by
    have e := List.mem_singleton.1 h
    have e' := List.mem_singleton.1 h'
    exact (congrArg (fun p => p.2.2) e).trans (congrArg (fun p => p.2.2) e').symm
  absorb k i h := by
    have e : Gate.absorb = .main mulRow := congrArg (fun p => p.2.2) (List.mem_singleton.1 h)
    exact absurd e Gate.noConfusion
  publics c j h := by
    have e : j = 0 := congrArg Prod.snd (List.mem_singleton.1 h)
    rw [e]; decide
  constants c x h := by
    refine ⟨by decide, fun k i rcA rcB h => ?_⟩
    have e : Gate.partials rcA rcB = .main mulRow := congrArg (fun p => p.2.2) (List.mem_singleton.1 h)
    exact absurd e Gate.noConfusion
  constantsApart c x c' x' h h' _ :=
    (congrArg Prod.snd (List.mem_singleton.1 h)).trans (congrArg Prod.snd (List.mem_singleton.1 h')).symm
  table := ⟨by decide, List.mem_singleton.2 rfl⟩

/-- The hypotheses of `C82_keys_exist`, `C82_satisfied_iff` and `C82_columns` hold for this layout, with the public
input 9; so do those of `C65_on_chain`. -/
example (s : Fr) : ∃ (V : Halo2.Key) (K : Halo2.KeyPolys) (advice : Fin 5 → Fr[X]), V.Valid ∧ Halo2.KeyFor V s K ∧
    K.Bound (V.n - 1) ∧ K.Permutes V ∧ RealizesExactly V K squareShape (fun k => k) ∧ V.instances = 1 ∧
    (∀ j, (advice j).natDegree ≤ V.n - 1) ∧ Halo2.Satisfied V K advice [9] := by
  have hω : IsPrimitiveRoot (mulKey 0).omega (2 ^ 3) := (mulKey_valid 0).root
  obtain ⟨K, hK, h⟩ := C82_keys_exist 3 1 (le_refl 3) (by decide) (by norm_num) _ hω squareShape _ _ _ squareShape_fits
  obtain ⟨V, e1, e2, e3, hV, hF, hP, hR, -⟩ := h s
  have hT : Layout.Holds squareShape ⟨fun c => if c.col = 2 then 9 else 3, fun j => ([9] : List Fr).getD j 0, fun _ _ => False⟩ := by
    refine ⟨fun k i g hg => ?_, fun c c' h => ?_, fun c x h => ?_, fun c j h => ?_⟩
    · obtain ⟨rfl, rfl, rfl⟩ : k = 0 ∧ i = 0 ∧ g = .main mulRow := by
        have := List.mem_singleton.1 hg
        exact ⟨congrArg Prod.fst this, congrArg (fun p => p.2.1) this, congrArg (fun p => p.2.2) this⟩
      unfold Gate.holds mulRow
      decide +kernel
    · have h := Prod.mk.inj (List.mem_singleton.1 h)
      rw [h.1, h.2]
      rfl
    · have h := Prod.mk.inj (List.mem_singleton.1 h)
      rw [h.1, h.2]
      rfl
    · have h := Prod.mk.inj (List.mem_singleton.1 h)
      rw [h.1, h.2]
      rfl
  obtain ⟨advice, a1, -, -, a4⟩ := C82_columns V hV K squareShape _ hR _ hT [9] (fun _ => rfl) (fun _ _ h => h.elim) 0
  have hn : V.n = 2 ^ 3 := by rw [Halo2.Key.n, e1]
  exact ⟨V, K, advice, hV, hF, by rw [hn]; exact hK, hP, hR, e3, a1, a4⟩

end Verif.Props
