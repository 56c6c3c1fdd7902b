import Verif.Lemmas.Bytes
import Verif.Model.Evm
import Verif.Model.Dkg

/-!
Model of contracts/Halo2Verifier.sol, the on-chain verifier of the DKG proof.

The assembly works on words of memory and of the call data at fixed addresses.  Memory is modelled
as one word per address: every `mstore`/`mload` of the contract uses an address divisible by 0x20,
so words never overlap; the single `mstore8` (line 106) is modelled as a change of the word at 0x20.
Local variables are `let`s, loops over constant address ranges are folds.  Gas is not modelled.  The
branches for keys with an accumulator (lines 320-356 and 1492-1516) are not modelled: for such keys
the model reverts; the key of the repository has none (contracts/Halo2VerifyingKey-3-5-18-g2.sol:14).
-/

namespace Verif.Halo2

/-- EVM memory, one word for every address divisible by 0x20. -/
abbrev Mem : Type := ℕ → Word

/-- `mstore`. -/
def Mem.store (m : Mem) (a : ℕ) (v : Word) : Mem := fun b => if b = a then v else m b

/-- `calldataload`: 32 bytes, zeros beyond the end. -/
def calldataload (cd : List Byte) (o : ℕ) : Word :=
  BitVec.ofNat 256 (ofBE (((cd.drop o).take 32).rightpad 32 0))

/-- The modulus `q`, contracts/Halo2Verifier.sol:209. -/
def qWord : Word := 21888242871839275222246405745257275088696311157297823662689037894645226208583
/-- The modulus `r`, contracts/Halo2Verifier.sol:210. -/
def rWord : Word := 21888242871839275222246405745257275088548364400416034343698204186575808495617

/-- `mulmod(a, b, r)`. -/
def mulr (a b : Word) : Word := mulmod a b rWord
/-- `addmod(a, b, r)`. -/
def addr (a b : Word) : Word := addmod a b rWord
/-- `sub(r, a)` (wrapping). -/
def subr (a : Word) : Word := rWord - a

/-! ### Addresses, contracts/Halo2Verifier.sol:6-65 -/

abbrev PROOF_LEN_CPTR : ℕ := 0x64
abbrev PROOF_CPTR : ℕ := 0x84
abbrev NUM_INSTANCE_CPTR : ℕ := 0x1204
abbrev INSTANCE_CPTR : ℕ := 0x1224
abbrev FIRST_QUOTIENT_X_CPTR : ℕ := 0x0684
abbrev LAST_QUOTIENT_X_CPTR : ℕ := 0x0784
abbrev VK_MPTR : ℕ := 0x06c0
abbrev VK_DIGEST_MPTR : ℕ := 0x06c0
abbrev NUM_INSTANCES_MPTR : ℕ := 0x06e0
abbrev K_MPTR : ℕ := 0x0700
abbrev N_INV_MPTR : ℕ := 0x0720
abbrev OMEGA_MPTR : ℕ := 0x0740
abbrev OMEGA_INV_MPTR : ℕ := 0x0760
abbrev OMEGA_INV_TO_L_MPTR : ℕ := 0x0780
abbrev HAS_ACCUMULATOR_MPTR : ℕ := 0x07a0
abbrev G1_X_MPTR : ℕ := 0x0820
abbrev G1_Y_MPTR : ℕ := 0x0840
abbrev G2_X_1_MPTR : ℕ := 0x0860
abbrev G2_X_2_MPTR : ℕ := 0x0880
abbrev G2_Y_1_MPTR : ℕ := 0x08a0
abbrev G2_Y_2_MPTR : ℕ := 0x08c0
abbrev NEG_S_G2_X_1_MPTR : ℕ := 0x08e0
abbrev NEG_S_G2_X_2_MPTR : ℕ := 0x0900
abbrev NEG_S_G2_Y_1_MPTR : ℕ := 0x0920
abbrev NEG_S_G2_Y_2_MPTR : ℕ := 0x0940
abbrev CHALLENGE_MPTR : ℕ := 0x1160
abbrev THETA_MPTR : ℕ := 0x1160
abbrev BETA_MPTR : ℕ := 0x1180
abbrev GAMMA_MPTR : ℕ := 0x11a0
abbrev Y_MPTR : ℕ := 0x11c0
abbrev X_MPTR : ℕ := 0x11e0
abbrev ZETA_MPTR : ℕ := 0x1200
abbrev NU_MPTR : ℕ := 0x1220
abbrev MU_MPTR : ℕ := 0x1240
abbrev X_N_MPTR : ℕ := 0x12e0
abbrev X_N_MINUS_1_INV_MPTR : ℕ := 0x1300
abbrev L_LAST_MPTR : ℕ := 0x1320
abbrev L_BLIND_MPTR : ℕ := 0x1340
abbrev L_0_MPTR : ℕ := 0x1360
abbrev INSTANCE_EVAL_MPTR : ℕ := 0x1380
abbrev QUOTIENT_EVAL_MPTR : ℕ := 0x13a0
abbrev QUOTIENT_X_MPTR : ℕ := 0x13c0
abbrev QUOTIENT_Y_MPTR : ℕ := 0x13e0
abbrev R_EVAL_MPTR : ℕ := 0x1400
abbrev PAIRING_LHS_X_MPTR : ℕ := 0x1420
abbrev PAIRING_LHS_Y_MPTR : ℕ := 0x1440
abbrev PAIRING_RHS_X_MPTR : ℕ := 0x1460
abbrev PAIRING_RHS_Y_MPTR : ℕ := 0x1480

/-! ### Reading the proof and the instances -/

/-- The part of the machine state used while reading: memory, `success` and `hash_mptr`. -/
structure Rd where
  mem : Mem
  ok : Bool
  hash : ℕ

/-- `read_ec_point`, contracts/Halo2Verifier.sol:77-87, reading at `cptr`. -/
def readEcPoint (c : ℕ → Word) (s : Rd) (cptr : ℕ) : Rd :=
  let x := c cptr
  let y := c (cptr + 0x20)
  let ok := s.ok && decide (x.toNat < qWord.toNat)
  let ok := ok && decide (y.toNat < qWord.toNat)
  let ok := ok && decide (mulmod y y qWord =
    addmod (mulmod x (mulmod x x qWord) qWord) 3 qWord)
  let mem := s.mem.store s.hash x
  let mem := mem.store (s.hash + 0x20) y
  ⟨mem, ok, s.hash + 0x40⟩

/-- The body of the loops reading instances and evaluations, contracts/Halo2Verifier.sol:235-241 and
291-297. -/
def readScalar (c : ℕ → Word) (s : Rd) (cptr : ℕ) : Rd :=
  let v := c cptr
  ⟨s.mem.store s.hash v, s.ok && decide (v.toNat < rWord.toNat), s.hash + 0x20⟩

/-- Addresses `a, a + step, ..` (`n` of them). -/
def upFrom (a step n : ℕ) : List ℕ := (List.range n).map fun i => a + step * i
/-- Addresses `a, a - step, ..` (`n` of them). -/
def downFrom (a step n : ℕ) : List ℕ := (List.range n).map fun i => a - step * i

/-- The loops of phases 1 to 4, contracts/Halo2Verifier.sol:247-286: `n` points from `cptr` on. -/
def readPoints (c : ℕ → Word) (s : Rd) (cptr n : ℕ) : Rd :=
  (upFrom cptr 0x40 n).foldl (readEcPoint c) s

/-- The loops over the instances and the evaluations. -/
def readScalars (c : ℕ → Word) (s : Rd) (cptr n : ℕ) : Rd :=
  (upFrom cptr 0x20 n).foldl (readScalar c) s

/-- The first `n` words of memory as bytes. -/
def memBytes (m : Mem) (n : ℕ) : List Byte := (List.range n).flatMap fun i => Word.bytes (m (0x20 * i))

/-- `mod(hash, r)`. -/
def modr (w : Word) : Word := BitVec.ofNat 256 (w.toNat % rWord.toNat)

/-- `squeeze_challenge`, contracts/Halo2Verifier.sol:93-99. -/
def squeezeChallenge (keccak : Keccak) (s : Rd) (challengeMptr : ℕ) : Rd :=
  let hash := keccak (memBytes s.mem (s.hash / 0x20))
  ⟨(s.mem.store challengeMptr (modr hash)).store 0x00 hash, s.ok, 0x20⟩

/-- `squeeze_challenge_cont`, contracts/Halo2Verifier.sol:106-112: `mstore8(0x20, 0x01)` replaces the
first byte of the word at 0x20; 0x21 bytes are hashed. -/
def squeezeChallengeCont (keccak : Keccak) (s : Rd) (challengeMptr : ℕ) : Rd :=
  let mem := s.mem.store 0x20
    (BitVec.ofNat 256 (2 ^ 248 + (s.mem 0x20).toNat % 2 ^ 248))
  let hash := keccak (Word.bytes (mem 0x00) ++ [1])
  ⟨(mem.store challengeMptr (modr hash)).store 0x00 hash, s.ok, s.hash⟩

/-- `extcodecopy(vk, VK_MPTR, 0x00, 0x20 * n)`: the code of the key contract is a list of words
(zeros beyond its end). -/
def copyVk (vk : List Word) (n : ℕ) (m : Mem) : Mem :=
  (List.range n).foldl (fun m i => m.store (VK_MPTR + 0x20 * i) (vk.getD i 0)) m

/-- contracts/Halo2Verifier.sol:216-317: checks the format of the call data, computes the challenges
and loads the key.  Fresh memory is zero. -/
def prologue (keccak : Keccak) (vk : List Word) (c : ℕ → Word) : Mem × Bool :=
  let mem := copyVk vk 2 (fun _ => 0)
  let ok := decide (c PROOF_LEN_CPTR = 0x1180)
  let numInstances := mem NUM_INSTANCES_MPTR
  let ok := ok && decide (numInstances = c NUM_INSTANCE_CPTR)
  let mem := mem.store 0x00 (mem VK_DIGEST_MPTR)
  let s : Rd := ⟨mem, ok, 0x20⟩
  let s := readScalars c s INSTANCE_CPTR numInstances.toNat
  -- Phase 1
  let s := readPoints c s PROOF_CPTR 5
  let s := squeezeChallenge keccak s CHALLENGE_MPTR
  -- Phase 2
  let s := readPoints c s (PROOF_CPTR + 0x0140) 10
  let s := squeezeChallenge keccak s (CHALLENGE_MPTR + 0x20)
  let s := squeezeChallengeCont keccak s (CHALLENGE_MPTR + 0x40)
  -- Phase 3
  let s := readPoints c s (PROOF_CPTR + 0x03c0) 9
  let s := squeezeChallenge keccak s (CHALLENGE_MPTR + 0x60)
  -- Phase 4
  let s := readPoints c s (PROOF_CPTR + 0x0600) 5
  let s := squeezeChallenge keccak s (CHALLENGE_MPTR + 0x80)
  -- Evaluations
  let s := readScalars c s (PROOF_CPTR + 0x0740) 78
  -- Batch opening proof
  let s := squeezeChallenge keccak s (CHALLENGE_MPTR + 0xa0)
  let s := squeezeChallengeCont keccak s (CHALLENGE_MPTR + 0xc0)
  let s := readEcPoint c s (PROOF_CPTR + 0x1100)
  let s := squeezeChallenge keccak s (CHALLENGE_MPTR + 0xe0)
  let s := readEcPoint c s (PROOF_CPTR + 0x1140)
  (copyVk vk 85 s.mem, s.ok)

/-! ### Arithmetic on memory -/

/-- Memory and `success`. -/
structure St where
  mem : Mem
  ok : Bool

/-- `mstore`. -/
def St.store (s : St) (a : ℕ) (v : Word) : St := ⟨s.mem.store a v, s.ok⟩

/-- Precompile 5 with 32-byte operands. -/
@[irreducible] def modexp (b e m : Word) : Word :=
  if m = 0 then 0 else BitVec.ofNat 256 (b.toNat ^ e.toNat % m.toNat)

/-- First loop of `batch_invert`, contracts/Halo2Verifier.sol:118-128: memory and `gp`, after the
products of the first `k + 1` values. -/
def batchProducts (start n : ℕ) (m : Mem) : ℕ → Mem × Word
  | 0 => (m, m start)
  | k + 1 =>
    let p := batchProducts start n m k
    let gp := mulr p.2 (p.1 (start + 0x20 * (k + 1)))
    (p.1.store (start + 0x20 * n + 0x20 * k) gp, gp)

/-- Second loop of `batch_invert`, contracts/Halo2Verifier.sol:145-155: `k + 2` values are left, the
last of them is replaced by its inverse. -/
def batchBack (start n : ℕ) : ℕ → Mem × Word → Mem × Word
  | 0, p => p
  | k + 1, (m, allInv) =>
    let inv := mulr allInv (m (start + 0x20 * n + 0x20 * k))
    let allInv := mulr allInv (m (start + 0x20 * (k + 2)))
    batchBack start n k (m.store (start + 0x20 * (k + 2)) inv, allInv)

/-- `batch_invert`, contracts/Halo2Verifier.sol:116-160, on `n ≥ 2` words from `start` on (`mptr_end`
is `start + 0x20 * n`; the products are stored from there on). -/
def St.batchInvert (s : St) (start n : ℕ) : St :=
  let p := batchProducts start n s.mem (n - 2)
  let m := p.1
  let gp := mulr p.2 (m (start + 0x20 * (n - 1)))
  let gpMptr := start + 0x20 * n + 0x20 * (n - 2)
  let m := m.store gpMptr 0x20
  let m := m.store (gpMptr + 0x20) 0x20
  let m := m.store (gpMptr + 0x40) 0x20
  let m := m.store (gpMptr + 0x60) gp
  let m := m.store (gpMptr + 0x80) (rWord - 2)
  let m := m.store (gpMptr + 0xa0) rWord
  let m := m.store gpMptr (modexp gp (rWord - 2) rWord)
  let allInv := m gpMptr
  let p := batchBack start n (n - 2) (m, allInv)
  let m := p.1
  let allInv := p.2
  let invFirst := mulr allInv (m (start + 0x20))
  let invSecond := mulr allInv (m start)
  let m := m.store start invFirst
  let m := m.store (start + 0x20) invSecond
  ⟨m, s.ok⟩

/-- A call of precompile 6 or 7 writing its result at `a`; a failed call writes nothing. -/
def St.result (s : St) (a : ℕ) : Evm SolG1 → St
  | some p => ⟨(s.mem.store a p.x).store (a + 0x20) p.y, s.ok⟩
  | none => ⟨s.mem, false⟩

/-- `ec_add_acc`, contracts/Halo2Verifier.sol:164-168. -/
def St.ecAddAcc (s : St) (x y : Word) : St :=
  let s := s.store 0x40 x
  let s := s.store 0x60 y
  s.result 0x00 (ecAdd ⟨s.mem 0x00, s.mem 0x20⟩ ⟨s.mem 0x40, s.mem 0x60⟩)

/-- `ec_mul_acc`, contracts/Halo2Verifier.sol:171-174. -/
def St.ecMulAcc (s : St) (scalar : Word) : St :=
  let s := s.store 0x40 scalar
  s.result 0x00 (ecMul ⟨s.mem 0x00, s.mem 0x20⟩ (s.mem 0x40))

/-- `ec_add_tmp`, contracts/Halo2Verifier.sol:178-182. -/
def St.ecAddTmp (s : St) (x y : Word) : St :=
  let s := s.store 0xc0 x
  let s := s.store 0xe0 y
  s.result 0x80 (ecAdd ⟨s.mem 0x80, s.mem 0xa0⟩ ⟨s.mem 0xc0, s.mem 0xe0⟩)

/-- `ec_mul_tmp`, contracts/Halo2Verifier.sol:186-189. -/
def St.ecMulTmp (s : St) (scalar : Word) : St :=
  let s := s.store 0xc0 scalar
  s.result 0x80 (ecMul ⟨s.mem 0x80, s.mem 0xa0⟩ (s.mem 0xc0))

/-! ### Lagrange evaluations, contracts/Halo2Verifier.sol:365-443 -/

/-- Lines 388-394: `n` words `x - pow` from `mptr` on. -/
def lagrangeDiffs (x omega : Word) : ℕ → ℕ → Word → Mem → Mem
  | 0, _, _, m => m
  | n + 1, mptr, pow, m =>
    lagrangeDiffs x omega n (mptr + 0x20) (mulr pow omega) (m.store mptr (addr x (subr pow)))

/-- Lines 401-407. -/
def lagrangeScale (common omega : Word) : ℕ → ℕ → Word → Mem → Mem
  | 0, _, _, m => m
  | n + 1, mptr, pow, m =>
    lagrangeScale common omega n (mptr + 0x20) (mulr pow omega)
      (m.store mptr (mulr common (mulr (m mptr) pow)))

/-- contracts/Halo2Verifier.sol:366-443. -/
def lagrange (c : ℕ → Word) (s : St) : St :=
  let m := s.mem
  let k := m K_MPTR
  let x := m X_MPTR
  let x_n := (List.range k.toNat).foldl (fun x_n _ => mulr x_n x_n) x
  let omega := m OMEGA_MPTR
  let num := (m NUM_INSTANCES_MPTR).toNat
  let cnt := if num = 0 then num + 6 + 1 else num + 6
  let mptr_end := X_N_MPTR + 0x20 * cnt
  let m := lagrangeDiffs x omega cnt X_N_MPTR (m OMEGA_INV_TO_L_MPTR) m
  let x_n_minus_1 := addr x_n (subr 1)
  let m := m.store mptr_end x_n_minus_1
  let s := St.batchInvert ⟨m, s.ok⟩ X_N_MPTR (cnt + 1)
  let m := s.mem
  let l_i_common := mulr x_n_minus_1 (m N_INV_MPTR)
  let m := lagrangeScale l_i_common omega cnt X_N_MPTR (m OMEGA_INV_TO_L_MPTR) m
  let l_blind := (upFrom (X_N_MPTR + 0x40) 0x20 4).foldl (fun a p => addr a (m p))
    (m (X_N_MPTR + 0x20))
  let instance_eval := ((upFrom (X_N_MPTR + 0xc0) 0x20 num).zip (upFrom INSTANCE_CPTR 0x20 num)).foldl
    (fun a p => addr a (mulr (m p.1) (c p.2))) 0
  let x_n_minus_1_inv := m mptr_end
  let l_last := m X_N_MPTR
  let l_0 := m (X_N_MPTR + 0xc0)
  let m := m.store X_N_MPTR x_n
  let m := m.store X_N_MINUS_1_INV_MPTR x_n_minus_1_inv
  let m := m.store L_LAST_MPTR l_last
  let m := m.store L_BLIND_MPTR l_blind
  let m := m.store L_0_MPTR l_0
  let m := m.store INSTANCE_EVAL_MPTR instance_eval
  ⟨m, s.ok⟩

/-! ### Quotient evaluation, contracts/Halo2Verifier.sol:445-1011 -/

/-- contracts/Halo2Verifier.sol:448. -/
def delta : Word := 4131629893567559867359510883348571134090853742863529169391034518566172092834

/-- contracts/Halo2Verifier.sol:450-485 (the value added to `quotient_eval_numer`). -/
def term0 (c : ℕ → Word) : Word :=
  let a_0 := c 0x07c4
  let f_0 := c 0x0944
  let var0 := mulr a_0 f_0
  let a_1 := c 0x07e4
  let f_1 := c 0x0964
  let var1 := mulr a_1 f_1
  let var2 := addr var0 var1
  let a_2 := c 0x0804
  let f_2 := c 0x0984
  let var3 := mulr a_2 f_2
  let var4 := addr var2 var3
  let a_3 := c 0x0824
  let f_3 := c 0x09a4
  let var5 := mulr a_3 f_3
  let var6 := addr var4 var5
  let a_4 := c 0x0844
  let f_4 := c 0x09c4
  let var7 := mulr a_4 f_4
  let var8 := addr var6 var7
  let var9 := mulr a_0 a_1
  let f_5 := c 0x0a04
  let var10 := mulr var9 f_5
  let var11 := addr var8 var10
  let var12 := mulr a_2 a_3
  let f_6 := c 0x0a24
  let var13 := mulr var12 f_6
  let var14 := addr var11 var13
  let f_7 := c 0x09e4
  let a_4_next_1 := c 0x0864
  let var15 := mulr f_7 a_4_next_1
  let var16 := addr var14 var15
  let f_8 := c 0x0a44
  let var17 := addr var16 f_8
  var17

/-- contracts/Halo2Verifier.sol:486-516 (the value added to `quotient_eval_numer`). -/
def term1 (c : ℕ → Word) : Word :=
  let f_20 := c 0x0bc4
  let a_0 := c 0x07c4
  let f_12 := c 0x0b24
  let var0 := addr a_0 f_12
  let var1 := mulr var0 var0
  let var2 := mulr var1 var1
  let var3 := mulr var2 var0
  let var4 := mulr var3 0x109b7f411ba0e4c9b2b70caf5c36a7b194be7c11ad24378bfedb68592ba8118b
  let a_1 := c 0x07e4
  let f_13 := c 0x0b44
  let var5 := addr a_1 f_13
  let var6 := mulr var5 var5
  let var7 := mulr var6 var6
  let var8 := mulr var7 var5
  let var9 := mulr var8 0x16ed41e13bb9c0c66ae119424fddbcbc9314dc9fdbdeea55d6c64543dc4903e0
  let var10 := addr var4 var9
  let a_2 := c 0x0804
  let f_14 := c 0x0b64
  let var11 := addr a_2 f_14
  let var12 := mulr var11 var11
  let var13 := mulr var12 var12
  let var14 := mulr var13 var11
  let var15 := mulr var14 0x2b90bba00fca0589f617e7dcbfe82e0df706ab640ceb247b791a93b74e36736d
  let var16 := addr var10 var15
  let a_0_next_1 := c 0x0884
  let var17 := subr a_0_next_1
  let var18 := addr var16 var17
  let var19 := mulr f_20 var18
  var19

/-- contracts/Halo2Verifier.sol:517-547 (the value added to `quotient_eval_numer`). -/
def term2 (c : ℕ → Word) : Word :=
  let f_20 := c 0x0bc4
  let a_0 := c 0x07c4
  let f_12 := c 0x0b24
  let var0 := addr a_0 f_12
  let var1 := mulr var0 var0
  let var2 := mulr var1 var1
  let var3 := mulr var2 var0
  let var4 := mulr var3 0x2969f27eed31a480b9c36c764379dbca2cc8fdd1415c3dded62940bcde0bd771
  let a_1 := c 0x07e4
  let f_13 := c 0x0b44
  let var5 := addr a_1 f_13
  let var6 := mulr var5 var5
  let var7 := mulr var6 var6
  let var8 := mulr var7 var5
  let var9 := mulr var8 0x2e2419f9ec02ec394c9871c832963dc1b89d743c8c7b964029b2311687b1fe23
  let var10 := addr var4 var9
  let a_2 := c 0x0804
  let f_14 := c 0x0b64
  let var11 := addr a_2 f_14
  let var12 := mulr var11 var11
  let var13 := mulr var12 var12
  let var14 := mulr var13 var11
  let var15 := mulr var14 0x101071f0032379b697315876690f053d148d4e109f5fb065c8aacc55a0f89bfa
  let var16 := addr var10 var15
  let a_1_next_1 := c 0x08a4
  let var17 := subr a_1_next_1
  let var18 := addr var16 var17
  let var19 := mulr f_20 var18
  var19

/-- contracts/Halo2Verifier.sol:548-578 (the value added to `quotient_eval_numer`). -/
def term3 (c : ℕ → Word) : Word :=
  let f_20 := c 0x0bc4
  let a_0 := c 0x07c4
  let f_12 := c 0x0b24
  let var0 := addr a_0 f_12
  let var1 := mulr var0 var0
  let var2 := mulr var1 var1
  let var3 := mulr var2 var0
  let var4 := mulr var3 0x143021ec686a3f330d5f9e654638065ce6cd79e28c5b3753326244ee65a1b1a7
  let a_1 := c 0x07e4
  let f_13 := c 0x0b44
  let var5 := addr a_1 f_13
  let var6 := mulr var5 var5
  let var7 := mulr var6 var6
  let var8 := mulr var7 var5
  let var9 := mulr var8 0x176cc029695ad02582a70eff08a6fd99d057e12e58e7d7b6b16cdfabc8ee2911
  let var10 := addr var4 var9
  let a_2 := c 0x0804
  let f_14 := c 0x0b64
  let var11 := addr a_2 f_14
  let var12 := mulr var11 var11
  let var13 := mulr var12 var12
  let var14 := mulr var13 var11
  let var15 := mulr var14 0x19a3fc0a56702bf417ba7fee3802593fa644470307043f7773279cd71d25d5e0
  let var16 := addr var10 var15
  let a_2_next_1 := c 0x08c4
  let var17 := subr a_2_next_1
  let var18 := addr var16 var17
  let var19 := mulr f_20 var18
  var19

/-- contracts/Halo2Verifier.sol:579-592 (the value added to `quotient_eval_numer`). -/
def term4 (c : ℕ → Word) : Word :=
  let f_21 := c 0x0be4
  let a_0 := c 0x07c4
  let f_12 := c 0x0b24
  let var0 := addr a_0 f_12
  let var1 := mulr var0 var0
  let var2 := mulr var1 var1
  let var3 := mulr var2 var0
  let a_3 := c 0x0824
  let var4 := subr a_3
  let var5 := addr var3 var4
  let var6 := mulr f_21 var5
  var6

/-- contracts/Halo2Verifier.sol:593-624 (the value added to `quotient_eval_numer`). -/
def term5 (c : ℕ → Word) : Word :=
  let f_21 := c 0x0be4
  let a_3 := c 0x0824
  let var0 := mulr a_3 0x109b7f411ba0e4c9b2b70caf5c36a7b194be7c11ad24378bfedb68592ba8118b
  let a_1 := c 0x07e4
  let f_13 := c 0x0b44
  let var1 := addr a_1 f_13
  let var2 := mulr var1 0x16ed41e13bb9c0c66ae119424fddbcbc9314dc9fdbdeea55d6c64543dc4903e0
  let var3 := addr var0 var2
  let a_2 := c 0x0804
  let f_14 := c 0x0b64
  let var4 := addr a_2 f_14
  let var5 := mulr var4 0x2b90bba00fca0589f617e7dcbfe82e0df706ab640ceb247b791a93b74e36736d
  let var6 := addr var3 var5
  let f_15 := c 0x0ac4
  let var7 := addr var6 f_15
  let var8 := mulr var7 var7
  let var9 := mulr var8 var8
  let var10 := mulr var9 var7
  let a_0_next_1 := c 0x0884
  let var11 := mulr a_0_next_1 0x203d1d351372bf15b6465d69d3e12806879a5f36b4ba6dd17dfea07d03f82f26
  let a_1_next_1 := c 0x08a4
  let var12 := mulr a_1_next_1 0x29b6537218615bcb4b6ad7fe4620063d48e42ce2096b3a1d6e320628bb032c22
  let var13 := addr var11 var12
  let a_2_next_1 := c 0x08c4
  let var14 := mulr a_2_next_1 0x11551257de3d4b5ab51bd377d7bb55c054f51f711623515b1e2a35a958b93a6a
  let var15 := addr var13 var14
  let var16 := subr var15
  let var17 := addr var10 var16
  let var18 := mulr f_21 var17
  var18

/-- contracts/Halo2Verifier.sol:625-653 (the value added to `quotient_eval_numer`). -/
def term6 (c : ℕ → Word) : Word :=
  let f_21 := c 0x0be4
  let a_3 := c 0x0824
  let var0 := mulr a_3 0x2969f27eed31a480b9c36c764379dbca2cc8fdd1415c3dded62940bcde0bd771
  let a_1 := c 0x07e4
  let f_13 := c 0x0b44
  let var1 := addr a_1 f_13
  let var2 := mulr var1 0x2e2419f9ec02ec394c9871c832963dc1b89d743c8c7b964029b2311687b1fe23
  let var3 := addr var0 var2
  let a_2 := c 0x0804
  let f_14 := c 0x0b64
  let var4 := addr a_2 f_14
  let var5 := mulr var4 0x101071f0032379b697315876690f053d148d4e109f5fb065c8aacc55a0f89bfa
  let var6 := addr var3 var5
  let f_16 := c 0x0ae4
  let var7 := addr var6 f_16
  let a_0_next_1 := c 0x0884
  let var8 := mulr a_0_next_1 0x29dedb1bbf80c8863d569912c20f1f82bf0dc3bc4fb62798dd1319814f833b54
  let a_1_next_1 := c 0x08a4
  let var9 := mulr a_1_next_1 0x130b59143f4e340cd66c7251dc8f56fbbe0367fec1575cb124ca8a66304e3849
  let var10 := addr var8 var9
  let a_2_next_1 := c 0x08c4
  let var11 := mulr a_2_next_1 0x0c2808c9533e2c526087842fb62521a3248c8d6d3b16d4b4108476d2eeda95f9
  let var12 := addr var10 var11
  let var13 := subr var12
  let var14 := addr var7 var13
  let var15 := mulr f_21 var14
  var15

/-- contracts/Halo2Verifier.sol:654-682 (the value added to `quotient_eval_numer`). -/
def term7 (c : ℕ → Word) : Word :=
  let f_21 := c 0x0be4
  let a_3 := c 0x0824
  let var0 := mulr a_3 0x143021ec686a3f330d5f9e654638065ce6cd79e28c5b3753326244ee65a1b1a7
  let a_1 := c 0x07e4
  let f_13 := c 0x0b44
  let var1 := addr a_1 f_13
  let var2 := mulr var1 0x176cc029695ad02582a70eff08a6fd99d057e12e58e7d7b6b16cdfabc8ee2911
  let var3 := addr var0 var2
  let a_2 := c 0x0804
  let f_14 := c 0x0b64
  let var4 := addr a_2 f_14
  let var5 := mulr var4 0x19a3fc0a56702bf417ba7fee3802593fa644470307043f7773279cd71d25d5e0
  let var6 := addr var3 var5
  let f_17 := c 0x0b04
  let var7 := addr var6 f_17
  let a_0_next_1 := c 0x0884
  let var8 := mulr a_0_next_1 0x0173249a1c9eac2591706fe09af22cfd29e1387e706cf0ded2889dc145c61609
  let a_1_next_1 := c 0x08a4
  let var9 := mulr a_1_next_1 0x0abc7f158780841ec82e03ec3cee0cf1d16270b0238f3063d2e5fb5138e59350
  let var10 := addr var8 var9
  let a_2_next_1 := c 0x08c4
  let var11 := mulr a_2_next_1 0x1738a318c8631b6e8305505aaf3b497fe9f2478c2f28ee945413af26963b4700
  let var12 := addr var10 var11
  let var13 := subr var12
  let var14 := addr var7 var13
  let var15 := mulr f_21 var14
  var15

/-- contracts/Halo2Verifier.sol:683-693 (the value added to `quotient_eval_numer`). -/
def term8 (c : ℕ → Word) : Word :=
  let f_22 := c 0x0c04
  let a_0_prev_1 := c 0x0904
  let a_0 := c 0x07c4
  let var0 := addr a_0_prev_1 a_0
  let a_0_next_1 := c 0x0884
  let var1 := subr a_0_next_1
  let var2 := addr var0 var1
  let var3 := mulr f_22 var2
  var3

/-- contracts/Halo2Verifier.sol:694-704 (the value added to `quotient_eval_numer`). -/
def term9 (c : ℕ → Word) : Word :=
  let f_22 := c 0x0c04
  let a_1_prev_1 := c 0x0924
  let a_1 := c 0x07e4
  let var0 := addr a_1_prev_1 a_1
  let a_1_next_1 := c 0x08a4
  let var1 := subr a_1_next_1
  let var2 := addr var0 var1
  let var3 := mulr f_22 var2
  var3

/-- contracts/Halo2Verifier.sol:705-713 (the value added to `quotient_eval_numer`). -/
def term10 (c : ℕ → Word) : Word :=
  let f_22 := c 0x0c04
  let a_2_prev_1 := c 0x08e4
  let a_2_next_1 := c 0x08c4
  let var0 := subr a_2_next_1
  let var1 := addr a_2_prev_1 var0
  let var2 := mulr f_22 var1
  var2

/-- contracts/Halo2Verifier.sol:714-718 (the value added to `quotient_eval_numer`). -/
def term11 (c : ℕ → Word) (m : Mem) : Word :=
  let l_0 := m L_0_MPTR
  let eval := addr l_0 (subr (mulr l_0 (c 0x0d64)))
  eval

/-- contracts/Halo2Verifier.sol:719-723 (the value added to `quotient_eval_numer`). -/
def term12 (c : ℕ → Word) (m : Mem) : Word :=
  let perm_z_last := c 0x0e24
  let eval := mulr (m L_LAST_MPTR) (addr (mulr perm_z_last perm_z_last) (subr perm_z_last))
  eval

/-- contracts/Halo2Verifier.sol:724-727 (the value added to `quotient_eval_numer`). -/
def term13 (c : ℕ → Word) (m : Mem) : Word :=
  let eval := mulr (m L_0_MPTR) (addr (c 0x0dc4) (subr (c 0x0da4)))
  eval

/-- contracts/Halo2Verifier.sol:728-731 (the value added to `quotient_eval_numer`). -/
def term14 (c : ℕ → Word) (m : Mem) : Word :=
  let eval := mulr (m L_0_MPTR) (addr (c 0x0e24) (subr (c 0x0e04)))
  eval

/-- contracts/Halo2Verifier.sol:732-753 (the value added to `quotient_eval_numer`, and the memory:
  `mstore(0x00, ..)` carries `beta * x * delta^k`). -/
def term15 (c : ℕ → Word) (m : Mem) : Mem × Word :=
  let gamma := m GAMMA_MPTR
  let beta := m BETA_MPTR
  let lhs := c 0x0d84
  let rhs := c 0x0d64
  let lhs := mulr lhs (addr (addr (c 0x07c4) (mulr beta (c 0x0c44))) gamma)
  let lhs := mulr lhs (addr (addr (c 0x07e4) (mulr beta (c 0x0c64))) gamma)
  let lhs := mulr lhs (addr (addr (c 0x0804) (mulr beta (c 0x0c84))) gamma)
  let lhs := mulr lhs (addr (addr (c 0x0824) (mulr beta (c 0x0ca4))) gamma)
  let m := m.store 0x00 (mulr beta (m X_MPTR))
  let rhs := mulr rhs (addr (addr (c 0x07c4) (m 0x00)) gamma)
  let m := m.store 0x00 (mulr (m 0x00) delta)
  let rhs := mulr rhs (addr (addr (c 0x07e4) (m 0x00)) gamma)
  let m := m.store 0x00 (mulr (m 0x00) delta)
  let rhs := mulr rhs (addr (addr (c 0x0804) (m 0x00)) gamma)
  let m := m.store 0x00 (mulr (m 0x00) delta)
  let rhs := mulr rhs (addr (addr (c 0x0824) (m 0x00)) gamma)
  let m := m.store 0x00 (mulr (m 0x00) delta)
  let left_sub_right := addr lhs (subr rhs)
  let eval := addr left_sub_right (subr (mulr left_sub_right (addr (m L_LAST_MPTR) (m
    L_BLIND_MPTR))))
  (m, eval)

/-- contracts/Halo2Verifier.sol:754-774 (the value added to `quotient_eval_numer`, and the memory:
  `mstore(0x00, ..)` carries `beta * x * delta^k`). -/
def term16 (c : ℕ → Word) (m : Mem) : Mem × Word :=
  let gamma := m GAMMA_MPTR
  let beta := m BETA_MPTR
  let lhs := c 0x0de4
  let rhs := c 0x0dc4
  let lhs := mulr lhs (addr (addr (c 0x0844) (mulr beta (c 0x0cc4))) gamma)
  let lhs := mulr lhs (addr (addr (m INSTANCE_EVAL_MPTR) (mulr beta (c 0x0ce4))) gamma)
  let lhs := mulr lhs (addr (addr (c 0x0ac4) (mulr beta (c 0x0d04))) gamma)
  let lhs := mulr lhs (addr (addr (c 0x0ae4) (mulr beta (c 0x0d24))) gamma)
  let rhs := mulr rhs (addr (addr (c 0x0844) (m 0x00)) gamma)
  let m := m.store 0x00 (mulr (m 0x00) delta)
  let rhs := mulr rhs (addr (addr (m INSTANCE_EVAL_MPTR) (m 0x00)) gamma)
  let m := m.store 0x00 (mulr (m 0x00) delta)
  let rhs := mulr rhs (addr (addr (c 0x0ac4) (m 0x00)) gamma)
  let m := m.store 0x00 (mulr (m 0x00) delta)
  let rhs := mulr rhs (addr (addr (c 0x0ae4) (m 0x00)) gamma)
  let m := m.store 0x00 (mulr (m 0x00) delta)
  let left_sub_right := addr lhs (subr rhs)
  let eval := addr left_sub_right (subr (mulr left_sub_right (addr (m L_LAST_MPTR) (m
    L_BLIND_MPTR))))
  (m, eval)

/-- contracts/Halo2Verifier.sol:775-785 (the value added to `quotient_eval_numer`). -/
def term17 (c : ℕ → Word) (m : Mem) : Word :=
  let gamma := m GAMMA_MPTR
  let beta := m BETA_MPTR
  let lhs := c 0x0e44
  let rhs := c 0x0e24
  let lhs := mulr lhs (addr (addr (c 0x0b04) (mulr beta (c 0x0d44))) gamma)
  let rhs := mulr rhs (addr (addr (c 0x0b04) (m 0x00)) gamma)
  let left_sub_right := addr lhs (subr rhs)
  let eval := addr left_sub_right (subr (mulr left_sub_right (addr (m L_LAST_MPTR) (m
    L_BLIND_MPTR))))
  eval

/-- contracts/Halo2Verifier.sol:786-790 (the value added to `quotient_eval_numer`). -/
def term18 (c : ℕ → Word) (m : Mem) : Word :=
  let l_0 := m L_0_MPTR
  let eval := addr l_0 (mulr l_0 (subr (c 0x0e64)))
  eval

/-- contracts/Halo2Verifier.sol:791-795 (the value added to `quotient_eval_numer`). -/
def term19 (c : ℕ → Word) (m : Mem) : Word :=
  let l_last := m L_LAST_MPTR
  let eval := mulr l_last (addr (mulr (c 0x0e64) (c 0x0e64)) (subr (c 0x0e64)))
  eval

/-- contracts/Halo2Verifier.sol:796-821 (the value added to `quotient_eval_numer`). -/
def term20 (c : ℕ → Word) (m : Mem) : Word :=
  let theta := m THETA_MPTR
  let f_18 := c 0x0b84
  let var0 := (0x5 : Word)
  let var1 := mulr f_18 var0
  let a_0 := c 0x07c4
  let var2 := mulr f_18 a_0
  let input := var1
  let input := addr (mulr input theta) var2
  let f_9 := c 0x0a64
  let f_10 := c 0x0a84
  let table := f_9
  let table := addr (mulr table theta) f_10
  let beta := m BETA_MPTR
  let gamma := m GAMMA_MPTR
  let lhs := mulr (c 0x0e84) (mulr (addr (c 0x0ea4) beta) (addr (c 0x0ee4) gamma))
  let rhs := mulr (c 0x0e64) (mulr (addr input beta) (addr table gamma))
  let eval := mulr (addr 1 (subr (addr (m L_BLIND_MPTR) (m L_LAST_MPTR)))) (addr lhs (subr rhs))
  eval

/-- contracts/Halo2Verifier.sol:822-825 (the value added to `quotient_eval_numer`). -/
def term21 (c : ℕ → Word) (m : Mem) : Word :=
  let eval := mulr (m L_0_MPTR) (addr (c 0x0ea4) (subr (c 0x0ee4)))
  eval

/-- contracts/Halo2Verifier.sol:826-829 (the value added to `quotient_eval_numer`). -/
def term22 (c : ℕ → Word) (m : Mem) : Word :=
  let eval := mulr (addr 1 (subr (addr (m L_BLIND_MPTR) (m L_LAST_MPTR)))) (mulr (addr (c 0x0ea4)
    (subr (c 0x0ee4))) (addr (c 0x0ea4) (subr (c 0x0ec4))))
  eval

/-- contracts/Halo2Verifier.sol:830-834 (the value added to `quotient_eval_numer`). -/
def term23 (c : ℕ → Word) (m : Mem) : Word :=
  let l_0 := m L_0_MPTR
  let eval := addr l_0 (mulr l_0 (subr (c 0x0f04)))
  eval

/-- contracts/Halo2Verifier.sol:835-839 (the value added to `quotient_eval_numer`). -/
def term24 (c : ℕ → Word) (m : Mem) : Word :=
  let l_last := m L_LAST_MPTR
  let eval := mulr l_last (addr (mulr (c 0x0f04) (c 0x0f04)) (subr (c 0x0f04)))
  eval

/-- contracts/Halo2Verifier.sol:840-865 (the value added to `quotient_eval_numer`). -/
def term25 (c : ℕ → Word) (m : Mem) : Word :=
  let theta := m THETA_MPTR
  let f_18 := c 0x0b84
  let var0 := (0x5 : Word)
  let var1 := mulr f_18 var0
  let a_1 := c 0x07e4
  let var2 := mulr f_18 a_1
  let input := var1
  let input := addr (mulr input theta) var2
  let f_9 := c 0x0a64
  let f_10 := c 0x0a84
  let table := f_9
  let table := addr (mulr table theta) f_10
  let beta := m BETA_MPTR
  let gamma := m GAMMA_MPTR
  let lhs := mulr (c 0x0f24) (mulr (addr (c 0x0f44) beta) (addr (c 0x0f84) gamma))
  let rhs := mulr (c 0x0f04) (mulr (addr input beta) (addr table gamma))
  let eval := mulr (addr 1 (subr (addr (m L_BLIND_MPTR) (m L_LAST_MPTR)))) (addr lhs (subr rhs))
  eval

/-- contracts/Halo2Verifier.sol:866-869 (the value added to `quotient_eval_numer`). -/
def term26 (c : ℕ → Word) (m : Mem) : Word :=
  let eval := mulr (m L_0_MPTR) (addr (c 0x0f44) (subr (c 0x0f84)))
  eval

/-- contracts/Halo2Verifier.sol:870-873 (the value added to `quotient_eval_numer`). -/
def term27 (c : ℕ → Word) (m : Mem) : Word :=
  let eval := mulr (addr 1 (subr (addr (m L_BLIND_MPTR) (m L_LAST_MPTR)))) (mulr (addr (c 0x0f44)
    (subr (c 0x0f84))) (addr (c 0x0f44) (subr (c 0x0f64))))
  eval

/-- contracts/Halo2Verifier.sol:874-878 (the value added to `quotient_eval_numer`). -/
def term28 (c : ℕ → Word) (m : Mem) : Word :=
  let l_0 := m L_0_MPTR
  let eval := addr l_0 (mulr l_0 (subr (c 0x0fa4)))
  eval

/-- contracts/Halo2Verifier.sol:879-883 (the value added to `quotient_eval_numer`). -/
def term29 (c : ℕ → Word) (m : Mem) : Word :=
  let l_last := m L_LAST_MPTR
  let eval := mulr l_last (addr (mulr (c 0x0fa4) (c 0x0fa4)) (subr (c 0x0fa4)))
  eval

/-- contracts/Halo2Verifier.sol:884-909 (the value added to `quotient_eval_numer`). -/
def term30 (c : ℕ → Word) (m : Mem) : Word :=
  let theta := m THETA_MPTR
  let f_18 := c 0x0b84
  let var0 := (0x5 : Word)
  let var1 := mulr f_18 var0
  let a_2 := c 0x0804
  let var2 := mulr f_18 a_2
  let input := var1
  let input := addr (mulr input theta) var2
  let f_9 := c 0x0a64
  let f_10 := c 0x0a84
  let table := f_9
  let table := addr (mulr table theta) f_10
  let beta := m BETA_MPTR
  let gamma := m GAMMA_MPTR
  let lhs := mulr (c 0x0fc4) (mulr (addr (c 0x0fe4) beta) (addr (c 0x1024) gamma))
  let rhs := mulr (c 0x0fa4) (mulr (addr input beta) (addr table gamma))
  let eval := mulr (addr 1 (subr (addr (m L_BLIND_MPTR) (m L_LAST_MPTR)))) (addr lhs (subr rhs))
  eval

/-- contracts/Halo2Verifier.sol:910-913 (the value added to `quotient_eval_numer`). -/
def term31 (c : ℕ → Word) (m : Mem) : Word :=
  let eval := mulr (m L_0_MPTR) (addr (c 0x0fe4) (subr (c 0x1024)))
  eval

/-- contracts/Halo2Verifier.sol:914-917 (the value added to `quotient_eval_numer`). -/
def term32 (c : ℕ → Word) (m : Mem) : Word :=
  let eval := mulr (addr 1 (subr (addr (m L_BLIND_MPTR) (m L_LAST_MPTR)))) (mulr (addr (c 0x0fe4)
    (subr (c 0x1024))) (addr (c 0x0fe4) (subr (c 0x1004))))
  eval

/-- contracts/Halo2Verifier.sol:918-922 (the value added to `quotient_eval_numer`). -/
def term33 (c : ℕ → Word) (m : Mem) : Word :=
  let l_0 := m L_0_MPTR
  let eval := addr l_0 (mulr l_0 (subr (c 0x1044)))
  eval

/-- contracts/Halo2Verifier.sol:923-927 (the value added to `quotient_eval_numer`). -/
def term34 (c : ℕ → Word) (m : Mem) : Word :=
  let l_last := m L_LAST_MPTR
  let eval := mulr l_last (addr (mulr (c 0x1044) (c 0x1044)) (subr (c 0x1044)))
  eval

/-- contracts/Halo2Verifier.sol:928-953 (the value added to `quotient_eval_numer`). -/
def term35 (c : ℕ → Word) (m : Mem) : Word :=
  let theta := m THETA_MPTR
  let f_18 := c 0x0b84
  let var0 := (0x5 : Word)
  let var1 := mulr f_18 var0
  let a_3 := c 0x0824
  let var2 := mulr f_18 a_3
  let input := var1
  let input := addr (mulr input theta) var2
  let f_9 := c 0x0a64
  let f_10 := c 0x0a84
  let table := f_9
  let table := addr (mulr table theta) f_10
  let beta := m BETA_MPTR
  let gamma := m GAMMA_MPTR
  let lhs := mulr (c 0x1064) (mulr (addr (c 0x1084) beta) (addr (c 0x10c4) gamma))
  let rhs := mulr (c 0x1044) (mulr (addr input beta) (addr table gamma))
  let eval := mulr (addr 1 (subr (addr (m L_BLIND_MPTR) (m L_LAST_MPTR)))) (addr lhs (subr rhs))
  eval

/-- contracts/Halo2Verifier.sol:954-957 (the value added to `quotient_eval_numer`). -/
def term36 (c : ℕ → Word) (m : Mem) : Word :=
  let eval := mulr (m L_0_MPTR) (addr (c 0x1084) (subr (c 0x10c4)))
  eval

/-- contracts/Halo2Verifier.sol:958-961 (the value added to `quotient_eval_numer`). -/
def term37 (c : ℕ → Word) (m : Mem) : Word :=
  let eval := mulr (addr 1 (subr (addr (m L_BLIND_MPTR) (m L_LAST_MPTR)))) (mulr (addr (c 0x1084)
    (subr (c 0x10c4))) (addr (c 0x1084) (subr (c 0x10a4))))
  eval

/-- contracts/Halo2Verifier.sol:962-966 (the value added to `quotient_eval_numer`). -/
def term38 (c : ℕ → Word) (m : Mem) : Word :=
  let l_0 := m L_0_MPTR
  let eval := addr l_0 (mulr l_0 (subr (c 0x10e4)))
  eval

/-- contracts/Halo2Verifier.sol:967-971 (the value added to `quotient_eval_numer`). -/
def term39 (c : ℕ → Word) (m : Mem) : Word :=
  let l_last := m L_LAST_MPTR
  let eval := mulr l_last (addr (mulr (c 0x10e4) (c 0x10e4)) (subr (c 0x10e4)))
  eval

/-- contracts/Halo2Verifier.sol:972-996 (the value added to `quotient_eval_numer`). -/
def term40 (c : ℕ → Word) (m : Mem) : Word :=
  let theta := m THETA_MPTR
  let f_11 := c 0x0aa4
  let f_19 := c 0x0ba4
  let a_0 := c 0x07c4
  let var0 := mulr f_19 a_0
  let input := f_11
  let input := addr (mulr input theta) var0
  let f_9 := c 0x0a64
  let f_10 := c 0x0a84
  let table := f_9
  let table := addr (mulr table theta) f_10
  let beta := m BETA_MPTR
  let gamma := m GAMMA_MPTR
  let lhs := mulr (c 0x1104) (mulr (addr (c 0x1124) beta) (addr (c 0x1164) gamma))
  let rhs := mulr (c 0x10e4) (mulr (addr input beta) (addr table gamma))
  let eval := mulr (addr 1 (subr (addr (m L_BLIND_MPTR) (m L_LAST_MPTR)))) (addr lhs (subr rhs))
  eval

/-- contracts/Halo2Verifier.sol:997-1000 (the value added to `quotient_eval_numer`). -/
def term41 (c : ℕ → Word) (m : Mem) : Word :=
  let eval := mulr (m L_0_MPTR) (addr (c 0x1124) (subr (c 0x1164)))
  eval

/-- contracts/Halo2Verifier.sol:1001-1004 (the value added to `quotient_eval_numer`). -/
def term42 (c : ℕ → Word) (m : Mem) : Word :=
  let eval := mulr (addr 1 (subr (addr (m L_BLIND_MPTR) (m L_LAST_MPTR)))) (mulr (addr (c 0x1124)
    (subr (c 0x1164))) (addr (c 0x1124) (subr (c 0x1144))))
  eval

/-- `quotient_eval_numer` with the next value added, e.g. contracts/Halo2Verifier.sol:515. -/
def horner (y acc t : Word) : Word := addr (mulr acc y) t

/-- contracts/Halo2Verifier.sol:445-1011: computes `quotient_eval_numer` and stores the quotient of
it by `x^n - 1`.  -/
def quotientEval (c : ℕ → Word) (m : Mem) : Mem :=
  let y := m Y_MPTR
  let quotient_eval_numer := term0 c
  let quotient_eval_numer := horner y quotient_eval_numer (term1 c)
  let quotient_eval_numer := horner y quotient_eval_numer (term2 c)
  let quotient_eval_numer := horner y quotient_eval_numer (term3 c)
  let quotient_eval_numer := horner y quotient_eval_numer (term4 c)
  let quotient_eval_numer := horner y quotient_eval_numer (term5 c)
  let quotient_eval_numer := horner y quotient_eval_numer (term6 c)
  let quotient_eval_numer := horner y quotient_eval_numer (term7 c)
  let quotient_eval_numer := horner y quotient_eval_numer (term8 c)
  let quotient_eval_numer := horner y quotient_eval_numer (term9 c)
  let quotient_eval_numer := horner y quotient_eval_numer (term10 c)
  let quotient_eval_numer := horner y quotient_eval_numer (term11 c m)
  let quotient_eval_numer := horner y quotient_eval_numer (term12 c m)
  let quotient_eval_numer := horner y quotient_eval_numer (term13 c m)
  let quotient_eval_numer := horner y quotient_eval_numer (term14 c m)
  let t := term15 c m
  let m := t.1
  let quotient_eval_numer := horner y quotient_eval_numer t.2
  let t := term16 c m
  let m := t.1
  let quotient_eval_numer := horner y quotient_eval_numer t.2
  let quotient_eval_numer := horner y quotient_eval_numer (term17 c m)
  let quotient_eval_numer := horner y quotient_eval_numer (term18 c m)
  let quotient_eval_numer := horner y quotient_eval_numer (term19 c m)
  let quotient_eval_numer := horner y quotient_eval_numer (term20 c m)
  let quotient_eval_numer := horner y quotient_eval_numer (term21 c m)
  let quotient_eval_numer := horner y quotient_eval_numer (term22 c m)
  let quotient_eval_numer := horner y quotient_eval_numer (term23 c m)
  let quotient_eval_numer := horner y quotient_eval_numer (term24 c m)
  let quotient_eval_numer := horner y quotient_eval_numer (term25 c m)
  let quotient_eval_numer := horner y quotient_eval_numer (term26 c m)
  let quotient_eval_numer := horner y quotient_eval_numer (term27 c m)
  let quotient_eval_numer := horner y quotient_eval_numer (term28 c m)
  let quotient_eval_numer := horner y quotient_eval_numer (term29 c m)
  let quotient_eval_numer := horner y quotient_eval_numer (term30 c m)
  let quotient_eval_numer := horner y quotient_eval_numer (term31 c m)
  let quotient_eval_numer := horner y quotient_eval_numer (term32 c m)
  let quotient_eval_numer := horner y quotient_eval_numer (term33 c m)
  let quotient_eval_numer := horner y quotient_eval_numer (term34 c m)
  let quotient_eval_numer := horner y quotient_eval_numer (term35 c m)
  let quotient_eval_numer := horner y quotient_eval_numer (term36 c m)
  let quotient_eval_numer := horner y quotient_eval_numer (term37 c m)
  let quotient_eval_numer := horner y quotient_eval_numer (term38 c m)
  let quotient_eval_numer := horner y quotient_eval_numer (term39 c m)
  let quotient_eval_numer := horner y quotient_eval_numer (term40 c m)
  let quotient_eval_numer := horner y quotient_eval_numer (term41 c m)
  let quotient_eval_numer := horner y quotient_eval_numer (term42 c m)
  let quotient_eval := mulr quotient_eval_numer (m X_N_MINUS_1_INV_MPTR)
  m.store QUOTIENT_EVAL_MPTR quotient_eval

/-! ### Quotient commitment, contracts/Halo2Verifier.sol:1013-1032 -/

/-- contracts/Halo2Verifier.sol:1014-1032. -/
def quotientComm (c : ℕ → Word) (s : St) : St :=
  let s := s.store 0x00 (c LAST_QUOTIENT_X_CPTR)
  let s := s.store 0x20 (c (LAST_QUOTIENT_X_CPTR + 0x20))
  let x_n := s.mem X_N_MPTR
  let s := (downFrom (LAST_QUOTIENT_X_CPTR - 0x40) 0x40 4).foldl (init := s) fun s cptr =>
    let s := s.ecMulAcc x_n
    let s := s.ecAddAcc (c cptr) (c (cptr + 0x20))
    s
  let s := s.store QUOTIENT_X_MPTR (s.mem 0x00)
  let s := s.store QUOTIENT_Y_MPTR (s.mem 0x20)
  s

/-! ### Batch opening, contracts/Halo2Verifier.sol:1034-1489 -/

/-- contracts/Halo2Verifier.sol:1036-1051. -/
def open0 (s : St) : St :=
  let x := s.mem X_MPTR
  let omega := s.mem OMEGA_MPTR
  let omega_inv := s.mem OMEGA_INV_MPTR
  let x_pow_of_omega := mulr x omega
  let s := s.store 0x0420 x_pow_of_omega
  let s := s.store 0x0400 x
  let x_pow_of_omega := mulr x omega_inv
  let s := s.store 0x03e0 x_pow_of_omega
  let x_pow_of_omega := mulr x_pow_of_omega omega_inv
  let x_pow_of_omega := mulr x_pow_of_omega omega_inv
  let x_pow_of_omega := mulr x_pow_of_omega omega_inv
  let x_pow_of_omega := mulr x_pow_of_omega omega_inv
  let x_pow_of_omega := mulr x_pow_of_omega omega_inv
  let s := s.store 0x03c0 x_pow_of_omega
  s

/-- contracts/Halo2Verifier.sol:1052-1089. -/
def open1 (s : St) : St :=
  let mu := s.mem MU_MPTR
  let s := ((upFrom 0x0440 0x20 4).zip (upFrom 0x03c0 0x20 4)).foldl (init := s) fun s p =>
    let s := s.store p.1 (addr mu (subr (s.mem p.2)))
    s
  let zs := s.mem 0x0460
  let zs := mulr zs (s.mem 0x0480)
  let zs := mulr zs (s.mem 0x04a0)
  let s := s.store 0x04c0 zs
  let diff := s.mem 0x0440
  let s := s.store 0x04e0 diff
  let s := s.store 0x00 diff
  let diff := s.mem 0x0440
  let diff := mulr diff (s.mem 0x0460)
  let diff := mulr diff (s.mem 0x04a0)
  let s := s.store 0x0500 diff
  let diff := s.mem 0x0440
  let diff := mulr diff (s.mem 0x0460)
  let s := s.store 0x0520 diff
  let diff := s.mem 0x0460
  let s := s.store 0x0540 diff
  let diff := s.mem 0x0440
  let diff := mulr diff (s.mem 0x04a0)
  let s := s.store 0x0560 diff
  s

/-- contracts/Halo2Verifier.sol:1090-1107. -/
def open2 (s : St) : St :=
  let point_1 := s.mem 0x03e0
  let point_2 := s.mem 0x0400
  let point_3 := s.mem 0x0420
  let coeff := addr point_1 (subr point_2)
  let coeff := mulr coeff (addr point_1 (subr point_3))
  let coeff := mulr coeff (s.mem 0x0460)
  let s := s.store 0x20 coeff
  let coeff := addr point_2 (subr point_1)
  let coeff := mulr coeff (addr point_2 (subr point_3))
  let coeff := mulr coeff (s.mem 0x0480)
  let s := s.store 0x40 coeff
  let coeff := addr point_3 (subr point_1)
  let coeff := mulr coeff (addr point_3 (subr point_2))
  let coeff := mulr coeff (s.mem 0x04a0)
  let s := s.store 0x60 coeff
  s

/-- contracts/Halo2Verifier.sol:1108-1114. -/
def open3 (s : St) : St :=
  let coeff := (1 : Word)
  let coeff := mulr coeff (s.mem 0x0480)
  let s := s.store 0x80 coeff
  s

/-- contracts/Halo2Verifier.sol:1115-1125. -/
def open4 (s : St) : St :=
  let point_2 := s.mem 0x0400
  let point_3 := s.mem 0x0420
  let coeff := addr point_2 (subr point_3)
  let coeff := mulr coeff (s.mem 0x0480)
  let s := s.store 0xa0 coeff
  let coeff := addr point_3 (subr point_2)
  let coeff := mulr coeff (s.mem 0x04a0)
  let s := s.store 0xc0 coeff
  s

/-- contracts/Halo2Verifier.sol:1126-1143. -/
def open5 (s : St) : St :=
  let point_0 := s.mem 0x03c0
  let point_2 := s.mem 0x0400
  let point_3 := s.mem 0x0420
  let coeff := addr point_0 (subr point_2)
  let coeff := mulr coeff (addr point_0 (subr point_3))
  let coeff := mulr coeff (s.mem 0x0440)
  let s := s.store 0xe0 coeff
  let coeff := addr point_2 (subr point_0)
  let coeff := mulr coeff (addr point_2 (subr point_3))
  let coeff := mulr coeff (s.mem 0x0480)
  let s := s.store 0x0100 coeff
  let coeff := addr point_3 (subr point_0)
  let coeff := mulr coeff (addr point_3 (subr point_2))
  let coeff := mulr coeff (s.mem 0x04a0)
  let s := s.store 0x0120 coeff
  s

/-- contracts/Halo2Verifier.sol:1144-1154. -/
def open6 (s : St) : St :=
  let point_1 := s.mem 0x03e0
  let point_2 := s.mem 0x0400
  let coeff := addr point_1 (subr point_2)
  let coeff := mulr coeff (s.mem 0x0460)
  let s := s.store 0x0140 coeff
  let coeff := addr point_2 (subr point_1)
  let coeff := mulr coeff (s.mem 0x0480)
  let s := s.store 0x0160 coeff
  s

/-- contracts/Halo2Verifier.sol:1155-1169. -/
def open7 (s : St) : St :=
  let s := s.batchInvert 0 12
  let diff_0_inv := s.mem 0x00
  let s := s.store 0x04e0 diff_0_inv
  let s := (upFrom 0x0500 0x20 4).foldl (init := s) fun s mptr =>
    let s := s.store mptr (mulr (s.mem mptr) diff_0_inv)
    s
  s

/-- contracts/Halo2Verifier.sol:1170-1185. -/
def open8 (c : ℕ → Word) (s : St) : St :=
  let zeta := s.mem ZETA_MPTR
  let r_eval := (0 : Word)
  let r_eval := addr r_eval (mulr (s.mem 0x20) (c 0x08e4))
  let r_eval := addr r_eval (mulr (s.mem 0x40) (c 0x0804))
  let r_eval := addr r_eval (mulr (s.mem 0x60) (c 0x08c4))
  let r_eval := mulr r_eval zeta
  let r_eval := addr r_eval (mulr (s.mem 0x20) (c 0x0924))
  let r_eval := addr r_eval (mulr (s.mem 0x40) (c 0x07e4))
  let r_eval := addr r_eval (mulr (s.mem 0x60) (c 0x08a4))
  let r_eval := mulr r_eval zeta
  let r_eval := addr r_eval (mulr (s.mem 0x20) (c 0x0904))
  let r_eval := addr r_eval (mulr (s.mem 0x40) (c 0x07c4))
  let r_eval := addr r_eval (mulr (s.mem 0x60) (c 0x0884))
  let s := s.store 0x0580 r_eval
  s

/-- contracts/Halo2Verifier.sol:1186-1227. -/
def open9 (c : ℕ → Word) (s : St) : St :=
  let coeff := s.mem 0x80
  let zeta := s.mem ZETA_MPTR
  let r_eval := (0 : Word)
  let r_eval := addr r_eval (mulr coeff (c 0x0c24))
  let r_eval := mulr r_eval zeta
  let r_eval := addr r_eval (mulr coeff (s.mem QUOTIENT_EVAL_MPTR))
  let r_eval := (downFrom 0x0d44 0x20 9).foldl (init := r_eval) fun r_eval mptr =>
    let r_eval := addr (mulr r_eval zeta) (mulr coeff (c mptr))
    r_eval
  let r_eval := (downFrom 0x0c04 0x20 23).foldl (init := r_eval) fun r_eval mptr =>
    let r_eval := addr (mulr r_eval zeta) (mulr coeff (c mptr))
    r_eval
  let r_eval := mulr r_eval zeta
  let r_eval := addr r_eval (mulr coeff (c 0x1164))
  let r_eval := mulr r_eval zeta
  let r_eval := addr r_eval (mulr coeff (c 0x10c4))
  let r_eval := mulr r_eval zeta
  let r_eval := addr r_eval (mulr coeff (c 0x1024))
  let r_eval := mulr r_eval zeta
  let r_eval := addr r_eval (mulr coeff (c 0x0f84))
  let r_eval := mulr r_eval zeta
  let r_eval := addr r_eval (mulr coeff (c 0x0ee4))
  let r_eval := mulr r_eval zeta
  let r_eval := addr r_eval (mulr coeff (c 0x0824))
  let r_eval := mulr r_eval (s.mem 0x0500)
  let s := s.store 0x05a0 r_eval
  s

/-- contracts/Halo2Verifier.sol:1228-1253. -/
def open10 (c : ℕ → Word) (s : St) : St :=
  let zeta := s.mem ZETA_MPTR
  let r_eval := (0 : Word)
  let r_eval := addr r_eval (mulr (s.mem 0xa0) (c 0x10e4))
  let r_eval := addr r_eval (mulr (s.mem 0xc0) (c 0x1104))
  let r_eval := mulr r_eval zeta
  let r_eval := addr r_eval (mulr (s.mem 0xa0) (c 0x1044))
  let r_eval := addr r_eval (mulr (s.mem 0xc0) (c 0x1064))
  let r_eval := mulr r_eval zeta
  let r_eval := addr r_eval (mulr (s.mem 0xa0) (c 0x0fa4))
  let r_eval := addr r_eval (mulr (s.mem 0xc0) (c 0x0fc4))
  let r_eval := mulr r_eval zeta
  let r_eval := addr r_eval (mulr (s.mem 0xa0) (c 0x0f04))
  let r_eval := addr r_eval (mulr (s.mem 0xc0) (c 0x0f24))
  let r_eval := mulr r_eval zeta
  let r_eval := addr r_eval (mulr (s.mem 0xa0) (c 0x0e64))
  let r_eval := addr r_eval (mulr (s.mem 0xc0) (c 0x0e84))
  let r_eval := mulr r_eval zeta
  let r_eval := addr r_eval (mulr (s.mem 0xa0) (c 0x0e24))
  let r_eval := addr r_eval (mulr (s.mem 0xc0) (c 0x0e44))
  let r_eval := mulr r_eval zeta
  let r_eval := addr r_eval (mulr (s.mem 0xa0) (c 0x0844))
  let r_eval := addr r_eval (mulr (s.mem 0xc0) (c 0x0864))
  let r_eval := mulr r_eval (s.mem 0x0520)
  let s := s.store 0x05c0 r_eval
  s

/-- contracts/Halo2Verifier.sol:1254-1266. -/
def open11 (c : ℕ → Word) (s : St) : St :=
  let zeta := s.mem ZETA_MPTR
  let r_eval := (0 : Word)
  let r_eval := addr r_eval (mulr (s.mem 0xe0) (c 0x0e04))
  let r_eval := addr r_eval (mulr (s.mem 0x0100) (c 0x0dc4))
  let r_eval := addr r_eval (mulr (s.mem 0x0120) (c 0x0de4))
  let r_eval := mulr r_eval zeta
  let r_eval := addr r_eval (mulr (s.mem 0xe0) (c 0x0da4))
  let r_eval := addr r_eval (mulr (s.mem 0x0100) (c 0x0d64))
  let r_eval := addr r_eval (mulr (s.mem 0x0120) (c 0x0d84))
  let r_eval := mulr r_eval (s.mem 0x0540)
  let s := s.store 0x05e0 r_eval
  s

/-- contracts/Halo2Verifier.sol:1267-1286. -/
def open12 (c : ℕ → Word) (s : St) : St :=
  let zeta := s.mem ZETA_MPTR
  let r_eval := (0 : Word)
  let r_eval := addr r_eval (mulr (s.mem 0x0140) (c 0x1144))
  let r_eval := addr r_eval (mulr (s.mem 0x0160) (c 0x1124))
  let r_eval := mulr r_eval zeta
  let r_eval := addr r_eval (mulr (s.mem 0x0140) (c 0x10a4))
  let r_eval := addr r_eval (mulr (s.mem 0x0160) (c 0x1084))
  let r_eval := mulr r_eval zeta
  let r_eval := addr r_eval (mulr (s.mem 0x0140) (c 0x1004))
  let r_eval := addr r_eval (mulr (s.mem 0x0160) (c 0x0fe4))
  let r_eval := mulr r_eval zeta
  let r_eval := addr r_eval (mulr (s.mem 0x0140) (c 0x0f64))
  let r_eval := addr r_eval (mulr (s.mem 0x0160) (c 0x0f44))
  let r_eval := mulr r_eval zeta
  let r_eval := addr r_eval (mulr (s.mem 0x0140) (c 0x0ec4))
  let r_eval := addr r_eval (mulr (s.mem 0x0160) (c 0x0ea4))
  let r_eval := mulr r_eval (s.mem 0x0560)
  let s := s.store 0x0600 r_eval
  s

/-- contracts/Halo2Verifier.sol:1287-1292. -/
def open13 (s : St) : St :=
  let sum := s.mem 0x20
  let sum := addr sum (s.mem 0x40)
  let sum := addr sum (s.mem 0x60)
  let s := s.store 0x0620 sum
  s

/-- contracts/Halo2Verifier.sol:1293-1296. -/
def open14 (s : St) : St :=
  let sum := s.mem 0x80
  let s := s.store 0x0640 sum
  s

/-- contracts/Halo2Verifier.sol:1297-1301. -/
def open15 (s : St) : St :=
  let sum := s.mem 0xa0
  let sum := addr sum (s.mem 0xc0)
  let s := s.store 0x0660 sum
  s

/-- contracts/Halo2Verifier.sol:1302-1307. -/
def open16 (s : St) : St :=
  let sum := s.mem 0xe0
  let sum := addr sum (s.mem 0x0100)
  let sum := addr sum (s.mem 0x0120)
  let s := s.store 0x0680 sum
  s

/-- contracts/Halo2Verifier.sol:1308-1312. -/
def open17 (s : St) : St :=
  let sum := s.mem 0x0140
  let sum := addr sum (s.mem 0x0160)
  let s := s.store 0x06a0 sum
  s

/-- contracts/Halo2Verifier.sol:1313-1346. -/
def open18 (s : St) : St :=
  let s := ((upFrom 0x00 0x20 5).zip (upFrom 0x0620 0x20 5)).foldl (init := s) fun s p =>
    let s := s.store p.1 (s.mem p.2)
    s
  let s := s.batchInvert 0 5
  let r_eval := mulr (s.mem 0x80) (s.mem 0x0600)
  let r_eval := ([(0x60, 0x05e0), (0x40, 0x05c0), (0x20, 0x05a0), (0x00, 0x0580)] : List (ℕ × ℕ)).foldl
      (init := r_eval) fun r_eval p =>
    let r_eval := mulr r_eval (s.mem NU_MPTR)
    let r_eval := addr r_eval (mulr (s.mem p.1) (s.mem p.2))
    r_eval
  let s := s.store R_EVAL_MPTR r_eval
  s

/-- `ec_mul_acc(.., mload(ZETA_MPTR))` then `ec_add_acc(.., x, y)`, e.g.
contracts/Halo2Verifier.sol:1351-1352. -/
def St.stepAcc (s : St) (x y : Word) : St :=
  let s := s.ecMulAcc (s.mem ZETA_MPTR)
  s.ecAddAcc x y

/-- `ec_mul_tmp(.., mload(ZETA_MPTR))` then `ec_add_tmp(.., x, y)`, e.g.
contracts/Halo2Verifier.sol:1420-1421. -/
def St.stepTmp (s : St) (x y : Word) : St :=
  let s := s.ecMulTmp (s.mem ZETA_MPTR)
  s.ecAddTmp x y

/-- The same with a point in memory, e.g. contracts/Halo2Verifier.sol:1403-1404. -/
def St.stepTmpMem (s : St) (mptr : ℕ) : St :=
  let s := s.ecMulTmp (s.mem ZETA_MPTR)
  s.ecAddTmp (s.mem mptr) (s.mem (mptr + 0x20))

/-- `mstore(0x80, x)`, `mstore(0xa0, y)`, e.g. contracts/Halo2Verifier.sol:1355-1356. -/
def St.setTmp (s : St) (x y : Word) : St := (s.store 0x80 x).store 0xa0 y

/-- `ec_add_acc(.., mload(0x80), mload(0xa0))`, e.g. contracts/Halo2Verifier.sol:1433. -/
def St.addTmpAcc (s : St) : St := s.ecAddAcc (s.mem 0x80) (s.mem 0xa0)

/-- `ec_mul_tmp(.., mulmod(nu, mload(d), r))` then `ec_add_acc(.., mload(0x80), mload(0xa0))`, e.g.
contracts/Halo2Verifier.sol:1432-1433. -/
def St.close (s : St) (nu : Word) (d : ℕ) : St :=
  (s.ecMulTmp (mulr nu (s.mem d))).addTmpAcc

/-- contracts/Halo2Verifier.sol:1349-1354: advice 2, 1, 0. -/
def comm0 (c : ℕ → Word) (s : St) : St :=
  let s := s.store 0x00 (c 0x0104)
  let s := s.store 0x20 (c 0x0124)
  let s := s.stepAcc (c 0xc4) (c 0xe4)
  s.stepAcc (c 0x84) (c 0xa4)

/-- contracts/Halo2Verifier.sol:1355-1433. -/
def comm1 (c : ℕ → Word) (nu : Word) (s : St) : St :=
  let s := s.setTmp (c 0x0644) (c 0x0664)
  let s := s.stepTmpMem QUOTIENT_X_MPTR
  let s := (downFrom 0x1120 0x40 14).foldl St.stepTmpMem s
  let s := (downFrom 0x0ce0 0x40 3).foldl St.stepTmpMem s
  let s := (downFrom 0x0da0 0x40 3).foldl St.stepTmpMem s
  let s := (downFrom 0x0c20 0x40 4).foldl St.stepTmpMem s
  let s := s.stepTmpMem 0x0ae0
  let s := s.stepTmpMem 0x0aa0
  let s := s.stepTmpMem 0x0b20
  let s := (downFrom 0x0a60 0x40 5).foldl St.stepTmpMem s
  let s := s.stepTmp (c 0x0404) (c 0x0424)
  let s := s.stepTmp (c 0x0384) (c 0x03a4)
  let s := s.stepTmp (c 0x0304) (c 0x0324)
  let s := s.stepTmp (c 0x0284) (c 0x02a4)
  let s := s.stepTmp (c 0x0204) (c 0x0224)
  let s := s.stepTmp (c 0x0144) (c 0x0164)
  s.close nu 0x0500

/-- contracts/Halo2Verifier.sol:1435-1451. -/
def comm2 (c : ℕ → Word) (nu : Word) (s : St) : St :=
  let s := s.setTmp (c 0x0604) (c 0x0624)
  let s := (downFrom 0x05c4 0x40 5).foldl (fun s mptr => s.stepTmp (c mptr) (c (mptr + 0x20))) s
  let s := s.stepTmp (c 0x0184) (c 0x01a4)
  s.close nu 0x0520

/-- contracts/Halo2Verifier.sol:1453-1458. -/
def comm3 (c : ℕ → Word) (nu : Word) (s : St) : St :=
  let s := s.setTmp (c 0x0484) (c 0x04a4)
  let s := s.stepTmp (c 0x0444) (c 0x0464)
  s.close nu 0x0540

/-- contracts/Halo2Verifier.sol:1460-1471. -/
def comm4 (c : ℕ → Word) (nu : Word) (s : St) : St :=
  let s := s.setTmp (c 0x03c4) (c 0x03e4)
  let s := s.stepTmp (c 0x0344) (c 0x0364)
  let s := s.stepTmp (c 0x02c4) (c 0x02e4)
  let s := s.stepTmp (c 0x0244) (c 0x0264)
  let s := s.stepTmp (c 0x01c4) (c 0x01e4)
  s.close nu 0x0560

/-- contracts/Halo2Verifier.sol:1472-1483: minus `r_eval` times the generator, minus `zs` times `w`,
plus `mu` times `w'`. -/
def comm5 (c : ℕ → Word) (s : St) : St :=
  let s := s.setTmp (s.mem G1_X_MPTR) (s.mem G1_Y_MPTR)
  let s := (s.ecMulTmp (subr (s.mem R_EVAL_MPTR))).addTmpAcc
  let s := s.setTmp (c 0x1184) (c 0x11a4)
  let s := (s.ecMulTmp (subr (s.mem 0x04c0))).addTmpAcc
  let s := s.setTmp (c 0x11c4) (c 0x11e4)
  (s.ecMulTmp (s.mem MU_MPTR)).addTmpAcc

/-- contracts/Halo2Verifier.sol:1347-1488. -/
def open19 (c : ℕ → Word) (s : St) : St :=
  let nu := s.mem NU_MPTR
  let s := comm0 c s
  let s := comm1 c nu s
  let nu := mulr nu (s.mem NU_MPTR)
  let s := comm2 c nu s
  let nu := mulr nu (s.mem NU_MPTR)
  let s := comm3 c nu s
  let nu := mulr nu (s.mem NU_MPTR)
  let s := comm4 c nu s
  let s := comm5 c s
  let s := s.store PAIRING_LHS_X_MPTR (s.mem 0x00)
  let s := s.store PAIRING_LHS_Y_MPTR (s.mem 0x20)
  let s := s.store PAIRING_RHS_X_MPTR (c 0x11c4)
  let s := s.store PAIRING_RHS_Y_MPTR (c 0x11e4)
  s

/-- contracts/Halo2Verifier.sol:1034-1489. -/
def batchOpen (c : ℕ → Word) (s : St) : St :=
  let s := open0 s
  let s := open1 s
  let s := open2 s
  let s := open3 s
  let s := open4 s
  let s := open5 s
  let s := open6 s
  let s := open7 s
  let s := open8 c s
  let s := open9 c s
  let s := open10 c s
  let s := open11 c s
  let s := open12 c s
  let s := open13 s
  let s := open14 s
  let s := open15 s
  let s := open16 s
  let s := open17 s
  let s := open18 s
  open19 c s

/-- `ec_pairing`, contracts/Halo2Verifier.sol:192-207, with the arguments of lines 1519-1525. -/
noncomputable def finalPairing (E : BnPairing) (s : St) : Bool :=
  let m := s.mem
  match ecPairing E
    [⟨m PAIRING_LHS_X_MPTR, m PAIRING_LHS_Y_MPTR, m G2_X_1_MPTR, m G2_X_2_MPTR, m G2_Y_1_MPTR,
      m G2_Y_2_MPTR⟩,
     ⟨m PAIRING_RHS_X_MPTR, m PAIRING_RHS_Y_MPTR, m NEG_S_G2_X_1_MPTR, m NEG_S_G2_X_2_MPTR,
      m NEG_S_G2_Y_1_MPTR, m NEG_S_G2_Y_2_MPTR⟩] with
  | some b => s.ok && b
  | none => false

/-- The assembly block of `verifyProof`, contracts/Halo2Verifier.sol:72-1534, on the call data read
by `c`; the code of the contract at address `vk` is the list of words `vk`. -/
noncomputable def run (E : BnPairing) (keccak : Keccak) (vk : List Word) (c : ℕ → Word) : Evm Bool :=
  let p := prologue keccak vk c
  if p.1 HAS_ACCUMULATOR_MPTR ≠ 0 then none
  else if ¬ p.2 then none
  else
    let s : St := ⟨p.1, p.2⟩
    let s := lagrange c s
    let s : St := ⟨quotientEval c s.mem, s.ok⟩
    let s := quotientComm c s
    let s := batchOpen c s
    if finalPairing E s then some true else none

/-- ABI encoding of the call `verifyProof(vk, proof, instances)` made by the contracts
(contracts/zkdvrf.sol:144): selector, address, offsets of `proof` and `instances`, length and bytes of
`proof` padded to words, length and words of `instances`. -/
def callData (selector : List Byte) (addr : Word) (proof : List Byte) (instances : List Word) :
    List Byte :=
  let padded := proof ++ List.replicate ((32 - proof.length % 32) % 32) 0
  selector ++ addr.bytes ++ beBytes 32 0x60 ++ beBytes 32 (0x80 + padded.length) ++
    beBytes 32 proof.length ++ padded ++ beBytes 32 instances.length ++ instances.flatMap Word.bytes

/-- `Halo2Verifier.verifyProof`, contracts/Halo2Verifier.sol:67-1535, as called by the contracts.  The
ABI decoder reverts on lengths of 2^64 or more. -/
noncomputable def verifyProof (E : BnPairing) (keccak : Keccak) (vk : List Word) (selector : List Byte)
    (addr : Word) (proof : List Byte) (instances : List Word) : Evm Bool :=
  if proof.length < 2 ^ 64 ∧ instances.length < 2 ^ 64 then
    run E keccak vk (calldataload (callData selector addr proof instances))
  else none

end Verif.Halo2
