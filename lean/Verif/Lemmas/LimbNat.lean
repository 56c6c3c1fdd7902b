import Mathlib.Algebra.Order.Ring.Nat
import Mathlib.Tactic.Ring
import Mathlib.Tactic.Linarith

/-! Numbers as lists of digits, least significant first: products and carries. -/

namespace Verif.Limb

variable {B : ℕ}

/-- The number with these digits (which may be greater than the base). -/
def ev (B : ℕ) : List ℕ → ℕ
  | [] => 0
  | x :: xs => x + B * ev B xs

/-- The multiple of `bs` by `x` added to `ds`. -/
def addMul (x : ℕ) : List ℕ → List ℕ → List ℕ
  | [], ds => ds
  | _ :: _, [] => []
  | b :: bs, d :: ds => (x * b + d) :: addMul x bs ds

/-- The product of `as` and `bs` added to `ds`. -/
def conv : List ℕ → List ℕ → List ℕ → List ℕ
  | [], _, ds => ds
  | a :: as, bs, ds => match addMul a bs ds with
    | [] => []
    | e :: es => e :: conv as bs es

/-- The last digits of a number. -/
def digits (B : ℕ) : ℕ → ℕ → List ℕ
  | 0, _ => []
  | n + 1, N => N % B :: digits B n (N / B)

theorem length_addMul (x : ℕ) : ∀ bs ds : List ℕ, (addMul x bs ds).length = ds.length
  | [], _ => rfl
  | _ :: _, [] => rfl
  | _ :: bs, _ :: ds => congrArg (· + 1) (length_addMul x bs ds)

theorem ev_addMul (x : ℕ) : ∀ bs ds : List ℕ, bs.length ≤ ds.length → ev B (addMul x bs ds) = x * ev B bs + ev B ds
  | [], ds, _ => by rw [addMul, ev, Nat.mul_zero, Nat.zero_add]
  | _ :: _, [], h => absurd h (Nat.not_succ_le_zero _)
  | b :: bs, d :: ds, h => by
    rw [addMul, ev, ev, ev, ev_addMul x bs ds (Nat.le_of_succ_le_succ h)]
    ring

theorem ev_conv : ∀ as bs ds : List ℕ, as.length + bs.length ≤ ds.length + 1 →
    ev B (conv as bs ds) = ev B as * ev B bs + ev B ds
  | [], bs, ds, _ => by rw [conv, ev, Nat.zero_mul, Nat.zero_add]
  | a :: as, bs, ds, h => by
    rw [List.length_cons] at h
    have h1 := ev_addMul (B := B) a bs ds (by omega)
    have h2 := length_addMul a bs ds
    rw [conv]
    rcases e : addMul a bs ds with _ | ⟨e0, es⟩
    · rw [e] at h2
      have hd : ds = [] := List.length_eq_zero_iff.1 h2.symm
      subst hd
      have hb : bs = [] := List.length_eq_zero_iff.1 (by rw [List.length_nil] at h; omega)
      subst hb
      simp [ev]
    · rw [e] at h1 h2
      rw [List.length_cons] at h2
      dsimp only
      rw [ev, ev_conv as bs es (by omega), ev]
      rw [ev] at h1
      have : e0 + B * (ev B as * ev B bs + ev B es) = (e0 + B * ev B es) + B * (ev B as * ev B bs) := by ring
      rw [this, h1]
      ring

theorem addMul_lt {x M D : ℕ} (hx : x < M) : ∀ bs ds : List ℕ, (∀ b ∈ bs, b < M) → (∀ d ∈ ds, d < D) →
    ∀ e ∈ addMul x bs ds, e < D + M * M
  | [], ds, _, hd, e, he => Nat.lt_add_right _ (hd e he)
  | _ :: _, [], _, _, e, he => absurd he List.not_mem_nil
  | b :: bs, d :: ds, hb, hd, e, he => by
    rw [addMul] at he
    rcases List.mem_cons.1 he with rfl | he
    · have h1 := hb b List.mem_cons_self
      have h2 := hd d List.mem_cons_self
      have : x * b ≤ M * M := Nat.mul_le_mul hx.le h1.le
      omega
    · exact addMul_lt hx bs ds (fun b h => hb b (List.mem_cons_of_mem _ h)) (fun d h => hd d (List.mem_cons_of_mem _ h)) e he

theorem conv_lt {M : ℕ} : ∀ (as bs ds : List ℕ) (D : ℕ), (∀ a ∈ as, a < M) → (∀ b ∈ bs, b < M) → (∀ d ∈ ds, d < D) →
    ∀ e ∈ conv as bs ds, e < D + as.length * (M * M)
  | [], bs, ds, D, _, _, hd, e, he => by
    rw [conv] at he
    exact Nat.lt_add_right _ (hd e he)
  | a :: as, bs, ds, D, ha, hb, hd, e, he => by
    have h1 := addMul_lt (ha a List.mem_cons_self) bs ds hb hd
    rw [conv] at he
    rw [List.length_cons, Nat.succ_mul]
    rcases e' : addMul a bs ds with _ | ⟨e0, es⟩
    · rw [e'] at he
      exact absurd he List.not_mem_nil
    · rw [e'] at he h1
      rcases List.mem_cons.1 he with rfl | he
      · have := h1 e List.mem_cons_self
        omega
      · have := conv_lt as bs es (D + M * M) (fun a h => ha a (List.mem_cons_of_mem _ h)) hb
          (fun d h => h1 d (List.mem_cons_of_mem _ h)) e he
        omega

theorem length_conv : ∀ as bs ds : List ℕ, (conv as bs ds).length = ds.length
  | [], _, _ => rfl
  | a :: as, bs, ds => by
    have h := length_addMul a bs ds
    rw [conv]
    rcases e : addMul a bs ds with _ | ⟨e0, es⟩
    · rw [e] at h
      exact h
    · rw [e] at h
      dsimp only
      rw [List.length_cons, length_conv as bs es, ← h, List.length_cons]

theorem length_digits : ∀ n N : ℕ, (digits B n N).length = n
  | 0, _ => rfl
  | n + 1, N => congrArg (· + 1) (length_digits n _)

theorem digits_lt (hB : 0 < B) : ∀ n N : ℕ, ∀ d ∈ digits B n N, d < B
  | 0, _, d, h => absurd h List.not_mem_nil
  | n + 1, N, d, h => by
    rcases List.mem_cons.1 h with rfl | h
    · exact Nat.mod_lt _ hB
    · exact digits_lt hB n _ d h

theorem ev_digits : ∀ n N : ℕ, ev B (digits B n N) + B ^ n * (N / B ^ n) = N
  | 0, N => by simp [digits, ev]
  | n + 1, N => by
    have h := ev_digits n (N / B)
    rw [digits, ev]
    rw [Nat.div_div_eq_div_mul] at h
    have e : B ^ (n + 1) * (N / B ^ (n + 1)) = B * (B ^ n * (N / (B * B ^ n))) := by
      rw [pow_succ']
      ring
    rw [e]
    have := Nat.mod_add_div N B
    calc N % B + B * ev B (digits B n (N / B)) + B * (B ^ n * (N / (B * B ^ n)))
        = N % B + B * (ev B (digits B n (N / B)) + B ^ n * (N / (B * B ^ n))) := by ring
      _ = N := by rw [h, this]

theorem digits_eq : ∀ n N : ℕ, digits B n N = (List.range n).map fun i => N / B ^ i % B
  | 0, _ => rfl
  | n + 1, N => by
    rw [digits, digits_eq n, List.range_succ_eq_map, List.map_cons, List.map_map, pow_zero, Nat.div_one]
    refine congrArg _ (List.map_congr_left fun i _ => ?_)
    show N / B / B ^ i % B = N / B ^ (i + 1) % B
    rw [Nat.div_div_eq_div_mul, pow_succ']

/-- One step of a chain of carries, shifted by `O`. -/
theorem chain_step {O off l r u v L R P vf : ℕ} (ho : off + O = B * O) (h : l + u + off = r + B * v)
    (h' : L + v + P * O = R + P * vf + O) : (l + B * L) + u + B * P * O = (r + B * R) + B * P * vf + O := by
  have e : B * (L + v + P * O) = B * (R + P * vf + O) := congrArg (B * ·) h'
  nlinarith

/-- The next carry of an honest prover. -/
theorem honest_step {O off D U l r u L R : ℕ} (hB : 0 < B) (ho : off + O = B * O) (hl : l < D) (hr : r < D) (hD : D ≤ off)
    (hu : u < U) (hU : D + U + off ≤ U * B) (h : (l + B * L) + u = (r + B * R) + O) :
    (l + u + off - r) / B + L = R + O ∧ l + u + off = r + B * ((l + u + off - r) / B) ∧ (l + u + off - r) / B < U := by
  obtain ⟨m, hm⟩ : ∃ m, l + u + off = r + m := ⟨l + u + off - r, by omega⟩
  have e1 : l + u + off - r = m := by omega
  rw [e1]
  have e2 : m + B * L = B * (R + O) := by
    rw [Nat.mul_add]
    omega
  have e3 : B ∣ m := by
    have h1 : B ∣ m + B * L := e2 ▸ Dvd.intro _ rfl
    exact (Nat.dvd_add_left (Dvd.intro _ rfl)).1 h1
  obtain ⟨v, rfl⟩ := e3
  rw [Nat.mul_div_cancel_left _ hB]
  refine ⟨Nat.eq_of_mul_eq_mul_left hB (by rw [Nat.mul_add]; exact e2), hm, ?_⟩
  have : B * v < B * U := by
    rw [Nat.mul_comm B U]
    omega
  exact Nat.lt_of_mul_lt_mul_left this

end Verif.Limb
