import Verif.Model.Halo2Verifier
import Verif.Model.Halo2Key

/-!
Model of contracts/Halo2Verifier-3-5-g2.sol, the stand-alone verifier with an embedded key.  It has no
argument for the address of a key contract, so all addresses of the call data are 0x20 less than in
contracts/Halo2Verifier.sol.  The functions of lines 75-206 are those of lines 76-207 there,
word for word, and are not repeated; the same holds for the addresses in memory (lines 14-65).  As
there, the branches for accumulators (lines 403-439 and 1575-1598) are not modelled: the embedded
key has none (line 324).
-/

namespace Verif.Halo2.Combi

/-! ### Addresses in the call data, contracts/Halo2Verifier-3-5-g2.sol:6-12 -/

abbrev PROOF_LEN_CPTR : ℕ := 0x44
abbrev PROOF_CPTR : ℕ := 0x64
abbrev NUM_INSTANCE_CPTR : ℕ := 0x11e4
abbrev INSTANCE_CPTR : ℕ := 0x1204
abbrev FIRST_QUOTIENT_X_CPTR : ℕ := 0x0664
abbrev LAST_QUOTIENT_X_CPTR : ℕ := 0x0764

/-- The words stored from `VK_MPTR` on, contracts/Halo2Verifier-3-5-g2.sol:317-401; lines 217-218 store the first two of
them. -/
def key : List Word :=
  [0x10fa432e037aeb212cb11a4cf27da42780d01d0a6e1fc881c85ced8145ec5275 /- vk_digest -/,
   0x0000000000000000000000000000000000000000000000000000000000000031 /- num_instances -/,
   0x0000000000000000000000000000000000000000000000000000000000000012 /- k -/,
   0x30644259cd94e7dd5045d7a27013b7fcd21c9e3b7fa75222e7bda49b729b0401 /- n_inv -/,
   0x0f60c8fe0414cb9379b2d39267945f6bd60d06a05216231b26a9fcf88ddbfebe /- omega -/,
   0x0e1165d221ab96da2bb4efe1b8fbf541b58d00917384a41bc6ab624d6d3e2b76 /- omega_inv -/,
   0x15a9c33a6d34b8fb8e5c3ff61814ca50c878ed14bc17d9442cd5c127bf33fd6d /- omega_inv_to_l -/,
   0x0000000000000000000000000000000000000000000000000000000000000000 /- has_accumulator -/,
   0x0000000000000000000000000000000000000000000000000000000000000000 /- acc_offset -/,
   0x0000000000000000000000000000000000000000000000000000000000000000 /- num_acc_limbs -/,
   0x0000000000000000000000000000000000000000000000000000000000000000 /- num_acc_limb_bits -/,
   0x0000000000000000000000000000000000000000000000000000000000000001 /- g1_x -/,
   0x0000000000000000000000000000000000000000000000000000000000000002 /- g1_y -/,
   0x198e9393920d483a7260bfb731fb5d25f1aa493335a9e71297e485b7aef312c2 /- g2_x_1 -/,
   0x1800deef121f1e76426a00665e5c4479674322d4f75edadd46debd5cd992f6ed /- g2_x_2 -/,
   0x090689d0585ff075ec9e99ad690c3395bc4b313370b38ef355acdadcd122975b /- g2_y_1 -/,
   0x12c85ea5db8c6deb4aab71808dcb408fe3d1e7690c43d37b4ce6cc0166fa7daa /- g2_y_2 -/,
   0x186282957db913abd99f91db59fe69922e95040603ef44c0bd7aa3adeef8f5ac /- neg_s_g2_x_1 -/,
   0x17944351223333f260ddc3b4af45191b856689eda9eab5cbcddbbe570ce860d2 /- neg_s_g2_x_2 -/,
   0x06d971ff4a7467c3ec596ed6efc674572e32fd6f52b721f97e35b0b3d3546753 /- neg_s_g2_y_1 -/,
   0x06ecdb9f9567f59ed2eee36e1e1d58797fd13cc97fafc2910f5e8a12f202fa9a /- neg_s_g2_y_2 -/,
   0x00bc6388571acab02cda68e5a8bc270814901720cfbea81eb8724c7af531c569 /- fixed_comms[0].x -/,
   0x200a4872e44dca25c35665326a6f93e4d9da70ff6973dcb9d5e0b42c3ce116af /- fixed_comms[0].y -/,
   0x282550d9ee373535c2ebf3b036f697019936b55058505d0f6189ec8ea21c9acc /- fixed_comms[1].x -/,
   0x272751b797197a5724f134145c2498e38007e1f95d4be900adadc6d5b1c3b85b /- fixed_comms[1].y -/,
   0x0a983c13efedb3dbde09575a38b084d7cd92bf31ef63a789aa177d6c67496bbd /- fixed_comms[2].x -/,
   0x0612474eab97ce1ae19deb0c16119696af7dfa3370f305bf2ab12c7cce5bbfa1 /- fixed_comms[2].y -/,
   0x27e5aefcf48fab4ca7696853e4bc71988a1cfa552ef96c7a9c87c1373ff18922 /- fixed_comms[3].x -/,
   0x21c6a2115445443dae670a95f07cdb9f4a88fd5c6a4055a07d5bfdf99da1fb1c /- fixed_comms[3].y -/,
   0x0112411ff18c94adbe82d1decc4ced25404ddf0493d5352735f3eb1e577443c8 /- fixed_comms[4].x -/,
   0x20493c257486ef4cf2eb693e7359acbf6713b3d6b534ef747fae4668d2505af7 /- fixed_comms[4].y -/,
   0x15de9e05b85fac65a2c4a7f8778b46fcb7b8bef3f363b35f4ad5385717f7a294 /- fixed_comms[5].x -/,
   0x0852909412087958094606c7579c89ab450c5fad58b710151d9be674658304bd /- fixed_comms[5].y -/,
   0x0659b386cf7ccd875ef11622bd16801e87013b56d4a71f49c41f6b6f93d8f3f9 /- fixed_comms[6].x -/,
   0x0e8975b7bf3282d0f86a202a2761b7ad8a2ec5ee44126eff020da83df3dacabc /- fixed_comms[6].y -/,
   0x248ba7caade3d9c870a0fd86122b4f12d4159fff151e046c7329e29f8670b3f0 /- fixed_comms[7].x -/,
   0x0b53e3ddefc2b34c91767a6bcd90b6ab63986a6fc85ba0f82ff3ede59db95aa3 /- fixed_comms[7].y -/,
   0x0280950dcf4c88569d4ac09d08a64b1d7e5dda9a92025f3a67831b52cc54f5d3 /- fixed_comms[8].x -/,
   0x0159a84799c5a2b70e801b709733a9452e0dbc3bcc5fec2b11a17c246fff8172 /- fixed_comms[8].y -/,
   0x081a1d562f38b857fb7e200bb455094a011510db9ac0352f4a01fee1674d134d /- fixed_comms[9].x -/,
   0x19421a4d1ab26b52bd8d1826af0c406339c8a4859e24c56dd25a7d7a72632b40 /- fixed_comms[9].y -/,
   0x098055bc990ea7766dbcd9e68cab85424dbc1e35b475b828ac74bad04a0e4993 /- fixed_comms[10].x -/,
   0x2dff61482366aedf115b5620ecba51925967fd2b76f882535d3a8440bb9e632e /- fixed_comms[10].y -/,
   0x01eaa7a4310ac5481d5c765ac7c2c7f666aaf00d5a7ee700c9237f27640ce87e /- fixed_comms[11].x -/,
   0x1cf4fb417ac9b7bcbd4c1ae5732bbc4b9c1c7451b3516e4373472a3b7086e042 /- fixed_comms[11].y -/,
   0x129c2d2d6b2ca3abdb966561c4d83b5450580863ede453740aa16236a7d0e950 /- fixed_comms[12].x -/,
   0x221ceefd36ad52d134757be39ef99bd1ac7f7662903f6eec91361c985edc0bdd /- fixed_comms[12].y -/,
   0x2faf1b96f708613100be4ceacf3355f7c17e400039e0f1cfed7ea6e604ff06ab /- fixed_comms[13].x -/,
   0x0c0fda12449a8d3d713fb41226f27ea2c6b5906183098e875d2b94d2d7b96898 /- fixed_comms[13].y -/,
   0x0c13a3ad660e1e595d1e8a5363868a756b46b1170d2c968cfe2dcf2adde2b1fa /- fixed_comms[14].x -/,
   0x239e78146447abab3b8d795fce6242eb93a0c9b3b919b25e07f8a45cc34f3868 /- fixed_comms[14].y -/,
   0x051afc90418b9a6baed57d365ffc501a067eec32836012c08a51763f50d3fab2 /- fixed_comms[15].x -/,
   0x12ddc1d2cf2b2227bfff9ab73f8336caaa1e28b2ad70c8d1a1d78ab85c417e7a /- fixed_comms[15].y -/,
   0x29536a715aee15e71ea8ee40775fec828788e3219b7bcfea25394004544d23f1 /- fixed_comms[16].x -/,
   0x1add119c8075388eb7791920449c32378eb8f17a43043aebb88f498379e4b568 /- fixed_comms[16].y -/,
   0x1426965bfa5443bbdfb8d1101a5ab0e734161ecc1be23820178e219a0975b4e5 /- fixed_comms[17].x -/,
   0x034721b25e503eb1233d61eef6f9102d6c7c975f5fbf181dc8146df122db72d5 /- fixed_comms[17].y -/,
   0x0c520ec975d97565332531a187896cc85216282f781fba4ad72373d3f9091fd6 /- fixed_comms[18].x -/,
   0x224bf5aae92cae9ed520b34bf3657ca187a7d0f37503db8fe385f2b6e358acca /- fixed_comms[18].y -/,
   0x16e3e5fa3f06db1c4b656ded3d30d5ad9c0f340c87f989c32ff8039cb1c194a2 /- fixed_comms[19].x -/,
   0x12fc34ef6aa6abf30bd4b81119f6e9048ccd310523a6026867c5233976781b3a /- fixed_comms[19].y -/,
   0x15e4d60697a9564cb96c64b988d71b510fb41d872ed625fd097a0fa286adca55 /- fixed_comms[20].x -/,
   0x1e97db0425468e005063704e9fdd4a924323ad25180dc97a2bce0db16d5affd9 /- fixed_comms[20].y -/,
   0x269ff0bc3c43011b5c373d79f21808e67d938665b4290f14c0fbd49150ce6b73 /- fixed_comms[21].x -/,
   0x178c99b923272f94ddf9df039b074efa414c4e6759600b744827d4355f15148d /- fixed_comms[21].y -/,
   0x0db0f43b0d089dae35c35c99ecd6195c0235029f6fd7bd9c03e5e78ca6030ec8 /- fixed_comms[22].x -/,
   0x21d212f61ce096cced931103f4dc96f3979b3923351c7becfdedff8c9ac0b697 /- fixed_comms[22].y -/,
   0x1d5f006ae4015b1e4cbc02635a094c8c6de11f0b04eaae28e704a1ead9e9933c /- permutation_comms[0].x -/,
   0x304b38c2f74d9c4eec40422e16941d546b8ddd34d49f2d34256d7d22f2579481 /- permutation_comms[0].y -/,
   0x0c705651a938f92b8a38538eaa996e5867332ef8078478ff5a6aa044207a5ca4 /- permutation_comms[1].x -/,
   0x071ecb2aa841f16186b855dff89e57d0583aa24d18153b1cbba9dbbf0a1bb145 /- permutation_comms[1].y -/,
   0x21ecda48829469f0b2b7b2af1aa4a89cbeedc5666d9ca5d86149f79fcad51b7c /- permutation_comms[2].x -/,
   0x271026109abc06e58f82abe9bcd84f8cad084da5b66f307c1e24c83ca2f5528f /- permutation_comms[2].y -/,
   0x05c4977ef409a1eb678fb80fa466d80fe1aeb5bd63d8fb21d3715f5696b6370f /- permutation_comms[3].x -/,
   0x2aeee08b63d24ffeadf6505b894e1ecfd3e50b33eb5331c290f222d2ef3137cf /- permutation_comms[3].y -/,
   0x2a74e21bdedfb9fd48b95682b006f8292989f80e8e5fc7c7e946d1fa8fd5aa80 /- permutation_comms[4].x -/,
   0x2c883f46d50365189cb3c7b8d31012e97ab3cc0c2f43498808767c3b2c678ae3 /- permutation_comms[4].y -/,
   0x0e598be5b2d6744a589d3f2997a7bf0f033318156a9b2f947946df18a27ff6dc /- permutation_comms[5].x -/,
   0x2e46c59b3c5fc53fbe07026dec3b903debf984f4a48933cc773e9f155abadb10 /- permutation_comms[5].y -/,
   0x1df9d3063bdb368ae737da7b2e62d0ac6af9eadb17e234ae430732c881b7e066 /- permutation_comms[6].x -/,
   0x1af603ccc57869a723e531dfd8ce2f0b1a2c3ae5dc7f2d02e92b2c49bcb6a843 /- permutation_comms[6].y -/,
   0x13ab267051d6a77d28fee208708d3b7e8bb36637e441724a5cb96095ed50187a /- permutation_comms[7].x -/,
   0x262f5493e2aa9d750f56a70fa203b4658b7c9c058097abc6f205bc05941da0aa /- permutation_comms[7].y -/,
   0x01a7837e6470babb230978a3079af34e382588caaf1c0c791e81f37222798929 /- permutation_comms[8].x -/,
   0x155c9bea95acf37b018196229c82254163940010ab902b96a4dcde67c6a99a6f /- permutation_comms[8].y -/]

/-- contracts/Halo2Verifier-3-5-g2.sol:215-401: checks the format of the call data, computes the challenges
and loads the key.  Fresh memory is zero. -/
def prologue (keccak : Keccak) (c : ℕ → Word) : Mem × Bool :=
  let mem := copyVk key 2 (fun _ => 0)
  let ok := decide (c PROOF_LEN_CPTR = 0x1180)
  let numInstances := mem NUM_INSTANCES_MPTR
  let ok := ok && decide (numInstances = c NUM_INSTANCE_CPTR)
  let mem := mem.store 0x00 (mem VK_DIGEST_MPTR)
  let s : Rd := ⟨mem, ok, 0x20⟩
  let s := readScalars c s INSTANCE_CPTR numInstances.toNat
  -- Phase 1
  let s := readPoints c s PROOF_CPTR 5
  let s := squeezeChallenge keccak s CHALLENGE_MPTR
  -- Phase 2
  let s := readPoints c s (PROOF_CPTR + 0x0140) 10
  let s := squeezeChallenge keccak s (CHALLENGE_MPTR + 0x20)
  let s := squeezeChallengeCont keccak s (CHALLENGE_MPTR + 0x40)
  -- Phase 3
  let s := readPoints c s (PROOF_CPTR + 0x03c0) 9
  let s := squeezeChallenge keccak s (CHALLENGE_MPTR + 0x60)
  -- Phase 4
  let s := readPoints c s (PROOF_CPTR + 0x0600) 5
  let s := squeezeChallenge keccak s (CHALLENGE_MPTR + 0x80)
  -- Evaluations
  let s := readScalars c s (PROOF_CPTR + 0x0740) 78
  -- Batch opening proof
  let s := squeezeChallenge keccak s (CHALLENGE_MPTR + 0xa0)
  let s := squeezeChallengeCont keccak s (CHALLENGE_MPTR + 0xc0)
  let s := readEcPoint c s (PROOF_CPTR + 0x1100)
  let s := squeezeChallenge keccak s (CHALLENGE_MPTR + 0xe0)
  let s := readEcPoint c s (PROOF_CPTR + 0x1140)
  (copyVk key 85 s.mem, s.ok)

/-- contracts/Halo2Verifier-3-5-g2.sol:450-527. -/
def lagrange (c : ℕ → Word) (s : St) : St :=
  let m := s.mem
  let k := m K_MPTR
  let x := m X_MPTR
  let x_n := (List.range k.toNat).foldl (fun x_n _ => mulr x_n x_n) x
  let omega := m OMEGA_MPTR
  let num := (m NUM_INSTANCES_MPTR).toNat
  let cnt := if num = 0 then num + 6 + 1 else num + 6
  let mptr_end := X_N_MPTR + 0x20 * cnt
  let m := lagrangeDiffs x omega cnt X_N_MPTR (m OMEGA_INV_TO_L_MPTR) m
  let x_n_minus_1 := addr x_n (subr 1)
  let m := m.store mptr_end x_n_minus_1
  let s := St.batchInvert ⟨m, s.ok⟩ X_N_MPTR (cnt + 1)
  let m := s.mem
  let l_i_common := mulr x_n_minus_1 (m N_INV_MPTR)
  let m := lagrangeScale l_i_common omega cnt X_N_MPTR (m OMEGA_INV_TO_L_MPTR) m
  let l_blind := (upFrom (X_N_MPTR + 0x40) 0x20 4).foldl (fun a p => addr a (m p))
    (m (X_N_MPTR + 0x20))
  let instance_eval := ((upFrom (X_N_MPTR + 0xc0) 0x20 num).zip (upFrom INSTANCE_CPTR 0x20 num)).foldl
    (fun a p => addr a (mulr (m p.1) (c p.2))) 0
  let x_n_minus_1_inv := m mptr_end
  let l_last := m X_N_MPTR
  let l_0 := m (X_N_MPTR + 0xc0)
  let m := m.store X_N_MPTR x_n
  let m := m.store X_N_MINUS_1_INV_MPTR x_n_minus_1_inv
  let m := m.store L_LAST_MPTR l_last
  let m := m.store L_BLIND_MPTR l_blind
  let m := m.store L_0_MPTR l_0
  let m := m.store INSTANCE_EVAL_MPTR instance_eval
  ⟨m, s.ok⟩

/-- contracts/Halo2Verifier-3-5-g2.sol:534-569 (the value added to `quotient_eval_numer`). -/
def term0 (c : ℕ → Word) : Word :=
  let a_0 := c 0x07a4
  let f_0 := c 0x0924
  let var0 := mulr a_0 f_0
  let a_1 := c 0x07c4
  let f_1 := c 0x0944
  let var1 := mulr a_1 f_1
  let var2 := addr var0 var1
  let a_2 := c 0x07e4
  let f_2 := c 0x0964
  let var3 := mulr a_2 f_2
  let var4 := addr var2 var3
  let a_3 := c 0x0804
  let f_3 := c 0x0984
  let var5 := mulr a_3 f_3
  let var6 := addr var4 var5
  let a_4 := c 0x0824
  let f_4 := c 0x09a4
  let var7 := mulr a_4 f_4
  let var8 := addr var6 var7
  let var9 := mulr a_0 a_1
  let f_5 := c 0x09e4
  let var10 := mulr var9 f_5
  let var11 := addr var8 var10
  let var12 := mulr a_2 a_3
  let f_6 := c 0x0a04
  let var13 := mulr var12 f_6
  let var14 := addr var11 var13
  let f_7 := c 0x09c4
  let a_4_next_1 := c 0x0844
  let var15 := mulr f_7 a_4_next_1
  let var16 := addr var14 var15
  let f_8 := c 0x0a24
  let var17 := addr var16 f_8
  var17

/-- contracts/Halo2Verifier-3-5-g2.sol:570-600 (the value added to `quotient_eval_numer`). -/
def term1 (c : ℕ → Word) : Word :=
  let f_20 := c 0x0ba4
  let a_0 := c 0x07a4
  let f_12 := c 0x0b04
  let var0 := addr a_0 f_12
  let var1 := mulr var0 var0
  let var2 := mulr var1 var1
  let var3 := mulr var2 var0
  let var4 := mulr var3 0x109b7f411ba0e4c9b2b70caf5c36a7b194be7c11ad24378bfedb68592ba8118b
  let a_1 := c 0x07c4
  let f_13 := c 0x0b24
  let var5 := addr a_1 f_13
  let var6 := mulr var5 var5
  let var7 := mulr var6 var6
  let var8 := mulr var7 var5
  let var9 := mulr var8 0x16ed41e13bb9c0c66ae119424fddbcbc9314dc9fdbdeea55d6c64543dc4903e0
  let var10 := addr var4 var9
  let a_2 := c 0x07e4
  let f_14 := c 0x0b44
  let var11 := addr a_2 f_14
  let var12 := mulr var11 var11
  let var13 := mulr var12 var12
  let var14 := mulr var13 var11
  let var15 := mulr var14 0x2b90bba00fca0589f617e7dcbfe82e0df706ab640ceb247b791a93b74e36736d
  let var16 := addr var10 var15
  let a_0_next_1 := c 0x0864
  let var17 := subr a_0_next_1
  let var18 := addr var16 var17
  let var19 := mulr f_20 var18
  var19

/-- contracts/Halo2Verifier-3-5-g2.sol:601-631 (the value added to `quotient_eval_numer`). -/
def term2 (c : ℕ → Word) : Word :=
  let f_20 := c 0x0ba4
  let a_0 := c 0x07a4
  let f_12 := c 0x0b04
  let var0 := addr a_0 f_12
  let var1 := mulr var0 var0
  let var2 := mulr var1 var1
  let var3 := mulr var2 var0
  let var4 := mulr var3 0x2969f27eed31a480b9c36c764379dbca2cc8fdd1415c3dded62940bcde0bd771
  let a_1 := c 0x07c4
  let f_13 := c 0x0b24
  let var5 := addr a_1 f_13
  let var6 := mulr var5 var5
  let var7 := mulr var6 var6
  let var8 := mulr var7 var5
  let var9 := mulr var8 0x2e2419f9ec02ec394c9871c832963dc1b89d743c8c7b964029b2311687b1fe23
  let var10 := addr var4 var9
  let a_2 := c 0x07e4
  let f_14 := c 0x0b44
  let var11 := addr a_2 f_14
  let var12 := mulr var11 var11
  let var13 := mulr var12 var12
  let var14 := mulr var13 var11
  let var15 := mulr var14 0x101071f0032379b697315876690f053d148d4e109f5fb065c8aacc55a0f89bfa
  let var16 := addr var10 var15
  let a_1_next_1 := c 0x0884
  let var17 := subr a_1_next_1
  let var18 := addr var16 var17
  let var19 := mulr f_20 var18
  var19

/-- contracts/Halo2Verifier-3-5-g2.sol:632-662 (the value added to `quotient_eval_numer`). -/
def term3 (c : ℕ → Word) : Word :=
  let f_20 := c 0x0ba4
  let a_0 := c 0x07a4
  let f_12 := c 0x0b04
  let var0 := addr a_0 f_12
  let var1 := mulr var0 var0
  let var2 := mulr var1 var1
  let var3 := mulr var2 var0
  let var4 := mulr var3 0x143021ec686a3f330d5f9e654638065ce6cd79e28c5b3753326244ee65a1b1a7
  let a_1 := c 0x07c4
  let f_13 := c 0x0b24
  let var5 := addr a_1 f_13
  let var6 := mulr var5 var5
  let var7 := mulr var6 var6
  let var8 := mulr var7 var5
  let var9 := mulr var8 0x176cc029695ad02582a70eff08a6fd99d057e12e58e7d7b6b16cdfabc8ee2911
  let var10 := addr var4 var9
  let a_2 := c 0x07e4
  let f_14 := c 0x0b44
  let var11 := addr a_2 f_14
  let var12 := mulr var11 var11
  let var13 := mulr var12 var12
  let var14 := mulr var13 var11
  let var15 := mulr var14 0x19a3fc0a56702bf417ba7fee3802593fa644470307043f7773279cd71d25d5e0
  let var16 := addr var10 var15
  let a_2_next_1 := c 0x08a4
  let var17 := subr a_2_next_1
  let var18 := addr var16 var17
  let var19 := mulr f_20 var18
  var19

/-- contracts/Halo2Verifier-3-5-g2.sol:663-676 (the value added to `quotient_eval_numer`). -/
def term4 (c : ℕ → Word) : Word :=
  let f_21 := c 0x0bc4
  let a_0 := c 0x07a4
  let f_12 := c 0x0b04
  let var0 := addr a_0 f_12
  let var1 := mulr var0 var0
  let var2 := mulr var1 var1
  let var3 := mulr var2 var0
  let a_3 := c 0x0804
  let var4 := subr a_3
  let var5 := addr var3 var4
  let var6 := mulr f_21 var5
  var6

/-- contracts/Halo2Verifier-3-5-g2.sol:677-708 (the value added to `quotient_eval_numer`). -/
def term5 (c : ℕ → Word) : Word :=
  let f_21 := c 0x0bc4
  let a_3 := c 0x0804
  let var0 := mulr a_3 0x109b7f411ba0e4c9b2b70caf5c36a7b194be7c11ad24378bfedb68592ba8118b
  let a_1 := c 0x07c4
  let f_13 := c 0x0b24
  let var1 := addr a_1 f_13
  let var2 := mulr var1 0x16ed41e13bb9c0c66ae119424fddbcbc9314dc9fdbdeea55d6c64543dc4903e0
  let var3 := addr var0 var2
  let a_2 := c 0x07e4
  let f_14 := c 0x0b44
  let var4 := addr a_2 f_14
  let var5 := mulr var4 0x2b90bba00fca0589f617e7dcbfe82e0df706ab640ceb247b791a93b74e36736d
  let var6 := addr var3 var5
  let f_15 := c 0x0aa4
  let var7 := addr var6 f_15
  let var8 := mulr var7 var7
  let var9 := mulr var8 var8
  let var10 := mulr var9 var7
  let a_0_next_1 := c 0x0864
  let var11 := mulr a_0_next_1 0x203d1d351372bf15b6465d69d3e12806879a5f36b4ba6dd17dfea07d03f82f26
  let a_1_next_1 := c 0x0884
  let var12 := mulr a_1_next_1 0x29b6537218615bcb4b6ad7fe4620063d48e42ce2096b3a1d6e320628bb032c22
  let var13 := addr var11 var12
  let a_2_next_1 := c 0x08a4
  let var14 := mulr a_2_next_1 0x11551257de3d4b5ab51bd377d7bb55c054f51f711623515b1e2a35a958b93a6a
  let var15 := addr var13 var14
  let var16 := subr var15
  let var17 := addr var10 var16
  let var18 := mulr f_21 var17
  var18

/-- contracts/Halo2Verifier-3-5-g2.sol:709-737 (the value added to `quotient_eval_numer`). -/
def term6 (c : ℕ → Word) : Word :=
  let f_21 := c 0x0bc4
  let a_3 := c 0x0804
  let var0 := mulr a_3 0x2969f27eed31a480b9c36c764379dbca2cc8fdd1415c3dded62940bcde0bd771
  let a_1 := c 0x07c4
  let f_13 := c 0x0b24
  let var1 := addr a_1 f_13
  let var2 := mulr var1 0x2e2419f9ec02ec394c9871c832963dc1b89d743c8c7b964029b2311687b1fe23
  let var3 := addr var0 var2
  let a_2 := c 0x07e4
  let f_14 := c 0x0b44
  let var4 := addr a_2 f_14
  let var5 := mulr var4 0x101071f0032379b697315876690f053d148d4e109f5fb065c8aacc55a0f89bfa
  let var6 := addr var3 var5
  let f_16 := c 0x0ac4
  let var7 := addr var6 f_16
  let a_0_next_1 := c 0x0864
  let var8 := mulr a_0_next_1 0x29dedb1bbf80c8863d569912c20f1f82bf0dc3bc4fb62798dd1319814f833b54
  let a_1_next_1 := c 0x0884
  let var9 := mulr a_1_next_1 0x130b59143f4e340cd66c7251dc8f56fbbe0367fec1575cb124ca8a66304e3849
  let var10 := addr var8 var9
  let a_2_next_1 := c 0x08a4
  let var11 := mulr a_2_next_1 0x0c2808c9533e2c526087842fb62521a3248c8d6d3b16d4b4108476d2eeda95f9
  let var12 := addr var10 var11
  let var13 := subr var12
  let var14 := addr var7 var13
  let var15 := mulr f_21 var14
  var15

/-- contracts/Halo2Verifier-3-5-g2.sol:738-766 (the value added to `quotient_eval_numer`). -/
def term7 (c : ℕ → Word) : Word :=
  let f_21 := c 0x0bc4
  let a_3 := c 0x0804
  let var0 := mulr a_3 0x143021ec686a3f330d5f9e654638065ce6cd79e28c5b3753326244ee65a1b1a7
  let a_1 := c 0x07c4
  let f_13 := c 0x0b24
  let var1 := addr a_1 f_13
  let var2 := mulr var1 0x176cc029695ad02582a70eff08a6fd99d057e12e58e7d7b6b16cdfabc8ee2911
  let var3 := addr var0 var2
  let a_2 := c 0x07e4
  let f_14 := c 0x0b44
  let var4 := addr a_2 f_14
  let var5 := mulr var4 0x19a3fc0a56702bf417ba7fee3802593fa644470307043f7773279cd71d25d5e0
  let var6 := addr var3 var5
  let f_17 := c 0x0ae4
  let var7 := addr var6 f_17
  let a_0_next_1 := c 0x0864
  let var8 := mulr a_0_next_1 0x0173249a1c9eac2591706fe09af22cfd29e1387e706cf0ded2889dc145c61609
  let a_1_next_1 := c 0x0884
  let var9 := mulr a_1_next_1 0x0abc7f158780841ec82e03ec3cee0cf1d16270b0238f3063d2e5fb5138e59350
  let var10 := addr var8 var9
  let a_2_next_1 := c 0x08a4
  let var11 := mulr a_2_next_1 0x1738a318c8631b6e8305505aaf3b497fe9f2478c2f28ee945413af26963b4700
  let var12 := addr var10 var11
  let var13 := subr var12
  let var14 := addr var7 var13
  let var15 := mulr f_21 var14
  var15

/-- contracts/Halo2Verifier-3-5-g2.sol:767-777 (the value added to `quotient_eval_numer`). -/
def term8 (c : ℕ → Word) : Word :=
  let f_22 := c 0x0be4
  let a_0_prev_1 := c 0x08e4
  let a_0 := c 0x07a4
  let var0 := addr a_0_prev_1 a_0
  let a_0_next_1 := c 0x0864
  let var1 := subr a_0_next_1
  let var2 := addr var0 var1
  let var3 := mulr f_22 var2
  var3

/-- contracts/Halo2Verifier-3-5-g2.sol:778-788 (the value added to `quotient_eval_numer`). -/
def term9 (c : ℕ → Word) : Word :=
  let f_22 := c 0x0be4
  let a_1_prev_1 := c 0x0904
  let a_1 := c 0x07c4
  let var0 := addr a_1_prev_1 a_1
  let a_1_next_1 := c 0x0884
  let var1 := subr a_1_next_1
  let var2 := addr var0 var1
  let var3 := mulr f_22 var2
  var3

/-- contracts/Halo2Verifier-3-5-g2.sol:789-797 (the value added to `quotient_eval_numer`). -/
def term10 (c : ℕ → Word) : Word :=
  let f_22 := c 0x0be4
  let a_2_prev_1 := c 0x08c4
  let a_2_next_1 := c 0x08a4
  let var0 := subr a_2_next_1
  let var1 := addr a_2_prev_1 var0
  let var2 := mulr f_22 var1
  var2

/-- contracts/Halo2Verifier-3-5-g2.sol:798-802 (the value added to `quotient_eval_numer`). -/
def term11 (c : ℕ → Word) (m : Mem) : Word :=
  let l_0 := m L_0_MPTR
  let eval := addr l_0 (subr (mulr l_0 (c 0x0d44)))
  eval

/-- contracts/Halo2Verifier-3-5-g2.sol:803-807 (the value added to `quotient_eval_numer`). -/
def term12 (c : ℕ → Word) (m : Mem) : Word :=
  let perm_z_last := c 0x0e04
  let eval := mulr (m L_LAST_MPTR) (addr (mulr perm_z_last perm_z_last) (subr perm_z_last))
  eval

/-- contracts/Halo2Verifier-3-5-g2.sol:808-811 (the value added to `quotient_eval_numer`). -/
def term13 (c : ℕ → Word) (m : Mem) : Word :=
  let eval := mulr (m L_0_MPTR) (addr (c 0x0da4) (subr (c 0x0d84)))
  eval

/-- contracts/Halo2Verifier-3-5-g2.sol:812-815 (the value added to `quotient_eval_numer`). -/
def term14 (c : ℕ → Word) (m : Mem) : Word :=
  let eval := mulr (m L_0_MPTR) (addr (c 0x0e04) (subr (c 0x0de4)))
  eval

/-- contracts/Halo2Verifier-3-5-g2.sol:816-837 (the value added to `quotient_eval_numer`, and the
  memory: `mstore(0x00, ..)` carries `beta * x * delta^k`). -/
def term15 (c : ℕ → Word) (m : Mem) : Mem × Word :=
  let gamma := m GAMMA_MPTR
  let beta := m BETA_MPTR
  let lhs := c 0x0d64
  let rhs := c 0x0d44
  let lhs := mulr lhs (addr (addr (c 0x07a4) (mulr beta (c 0x0c24))) gamma)
  let lhs := mulr lhs (addr (addr (c 0x07c4) (mulr beta (c 0x0c44))) gamma)
  let lhs := mulr lhs (addr (addr (c 0x07e4) (mulr beta (c 0x0c64))) gamma)
  let lhs := mulr lhs (addr (addr (c 0x0804) (mulr beta (c 0x0c84))) gamma)
  let m := m.store 0x00 (mulr beta (m X_MPTR))
  let rhs := mulr rhs (addr (addr (c 0x07a4) (m 0x00)) gamma)
  let m := m.store 0x00 (mulr (m 0x00) delta)
  let rhs := mulr rhs (addr (addr (c 0x07c4) (m 0x00)) gamma)
  let m := m.store 0x00 (mulr (m 0x00) delta)
  let rhs := mulr rhs (addr (addr (c 0x07e4) (m 0x00)) gamma)
  let m := m.store 0x00 (mulr (m 0x00) delta)
  let rhs := mulr rhs (addr (addr (c 0x0804) (m 0x00)) gamma)
  let m := m.store 0x00 (mulr (m 0x00) delta)
  let left_sub_right := addr lhs (subr rhs)
  let eval := addr left_sub_right (subr (mulr left_sub_right (addr (m L_LAST_MPTR) (m
    L_BLIND_MPTR))))
  (m, eval)

/-- contracts/Halo2Verifier-3-5-g2.sol:838-858 (the value added to `quotient_eval_numer`, and the
  memory: `mstore(0x00, ..)` carries `beta * x * delta^k`). -/
def term16 (c : ℕ → Word) (m : Mem) : Mem × Word :=
  let gamma := m GAMMA_MPTR
  let beta := m BETA_MPTR
  let lhs := c 0x0dc4
  let rhs := c 0x0da4
  let lhs := mulr lhs (addr (addr (c 0x0824) (mulr beta (c 0x0ca4))) gamma)
  let lhs := mulr lhs (addr (addr (m INSTANCE_EVAL_MPTR) (mulr beta (c 0x0cc4))) gamma)
  let lhs := mulr lhs (addr (addr (c 0x0aa4) (mulr beta (c 0x0ce4))) gamma)
  let lhs := mulr lhs (addr (addr (c 0x0ac4) (mulr beta (c 0x0d04))) gamma)
  let rhs := mulr rhs (addr (addr (c 0x0824) (m 0x00)) gamma)
  let m := m.store 0x00 (mulr (m 0x00) delta)
  let rhs := mulr rhs (addr (addr (m INSTANCE_EVAL_MPTR) (m 0x00)) gamma)
  let m := m.store 0x00 (mulr (m 0x00) delta)
  let rhs := mulr rhs (addr (addr (c 0x0aa4) (m 0x00)) gamma)
  let m := m.store 0x00 (mulr (m 0x00) delta)
  let rhs := mulr rhs (addr (addr (c 0x0ac4) (m 0x00)) gamma)
  let m := m.store 0x00 (mulr (m 0x00) delta)
  let left_sub_right := addr lhs (subr rhs)
  let eval := addr left_sub_right (subr (mulr left_sub_right (addr (m L_LAST_MPTR) (m
    L_BLIND_MPTR))))
  (m, eval)

/-- contracts/Halo2Verifier-3-5-g2.sol:859-869 (the value added to `quotient_eval_numer`). -/
def term17 (c : ℕ → Word) (m : Mem) : Word :=
  let gamma := m GAMMA_MPTR
  let beta := m BETA_MPTR
  let lhs := c 0x0e24
  let rhs := c 0x0e04
  let lhs := mulr lhs (addr (addr (c 0x0ae4) (mulr beta (c 0x0d24))) gamma)
  let rhs := mulr rhs (addr (addr (c 0x0ae4) (m 0x00)) gamma)
  let left_sub_right := addr lhs (subr rhs)
  let eval := addr left_sub_right (subr (mulr left_sub_right (addr (m L_LAST_MPTR) (m
    L_BLIND_MPTR))))
  eval

/-- contracts/Halo2Verifier-3-5-g2.sol:870-874 (the value added to `quotient_eval_numer`). -/
def term18 (c : ℕ → Word) (m : Mem) : Word :=
  let l_0 := m L_0_MPTR
  let eval := addr l_0 (mulr l_0 (subr (c 0x0e44)))
  eval

/-- contracts/Halo2Verifier-3-5-g2.sol:875-879 (the value added to `quotient_eval_numer`). -/
def term19 (c : ℕ → Word) (m : Mem) : Word :=
  let l_last := m L_LAST_MPTR
  let eval := mulr l_last (addr (mulr (c 0x0e44) (c 0x0e44)) (subr (c 0x0e44)))
  eval

/-- contracts/Halo2Verifier-3-5-g2.sol:880-905 (the value added to `quotient_eval_numer`). -/
def term20 (c : ℕ → Word) (m : Mem) : Word :=
  let theta := m THETA_MPTR
  let f_18 := c 0x0b64
  let var0 := (0x5 : Word)
  let var1 := mulr f_18 var0
  let a_0 := c 0x07a4
  let var2 := mulr f_18 a_0
  let input := var1
  let input := addr (mulr input theta) var2
  let f_9 := c 0x0a44
  let f_10 := c 0x0a64
  let table := f_9
  let table := addr (mulr table theta) f_10
  let beta := m BETA_MPTR
  let gamma := m GAMMA_MPTR
  let lhs := mulr (c 0x0e64) (mulr (addr (c 0x0e84) beta) (addr (c 0x0ec4) gamma))
  let rhs := mulr (c 0x0e44) (mulr (addr input beta) (addr table gamma))
  let eval := mulr (addr 1 (subr (addr (m L_BLIND_MPTR) (m L_LAST_MPTR)))) (addr lhs (subr rhs))
  eval

/-- contracts/Halo2Verifier-3-5-g2.sol:906-909 (the value added to `quotient_eval_numer`). -/
def term21 (c : ℕ → Word) (m : Mem) : Word :=
  let eval := mulr (m L_0_MPTR) (addr (c 0x0e84) (subr (c 0x0ec4)))
  eval

/-- contracts/Halo2Verifier-3-5-g2.sol:910-913 (the value added to `quotient_eval_numer`). -/
def term22 (c : ℕ → Word) (m : Mem) : Word :=
  let eval := mulr (addr 1 (subr (addr (m L_BLIND_MPTR) (m L_LAST_MPTR)))) (mulr (addr (c 0x0e84)
    (subr (c 0x0ec4))) (addr (c 0x0e84) (subr (c 0x0ea4))))
  eval

/-- contracts/Halo2Verifier-3-5-g2.sol:914-918 (the value added to `quotient_eval_numer`). -/
def term23 (c : ℕ → Word) (m : Mem) : Word :=
  let l_0 := m L_0_MPTR
  let eval := addr l_0 (mulr l_0 (subr (c 0x0ee4)))
  eval

/-- contracts/Halo2Verifier-3-5-g2.sol:919-923 (the value added to `quotient_eval_numer`). -/
def term24 (c : ℕ → Word) (m : Mem) : Word :=
  let l_last := m L_LAST_MPTR
  let eval := mulr l_last (addr (mulr (c 0x0ee4) (c 0x0ee4)) (subr (c 0x0ee4)))
  eval

/-- contracts/Halo2Verifier-3-5-g2.sol:924-949 (the value added to `quotient_eval_numer`). -/
def term25 (c : ℕ → Word) (m : Mem) : Word :=
  let theta := m THETA_MPTR
  let f_18 := c 0x0b64
  let var0 := (0x5 : Word)
  let var1 := mulr f_18 var0
  let a_1 := c 0x07c4
  let var2 := mulr f_18 a_1
  let input := var1
  let input := addr (mulr input theta) var2
  let f_9 := c 0x0a44
  let f_10 := c 0x0a64
  let table := f_9
  let table := addr (mulr table theta) f_10
  let beta := m BETA_MPTR
  let gamma := m GAMMA_MPTR
  let lhs := mulr (c 0x0f04) (mulr (addr (c 0x0f24) beta) (addr (c 0x0f64) gamma))
  let rhs := mulr (c 0x0ee4) (mulr (addr input beta) (addr table gamma))
  let eval := mulr (addr 1 (subr (addr (m L_BLIND_MPTR) (m L_LAST_MPTR)))) (addr lhs (subr rhs))
  eval

/-- contracts/Halo2Verifier-3-5-g2.sol:950-953 (the value added to `quotient_eval_numer`). -/
def term26 (c : ℕ → Word) (m : Mem) : Word :=
  let eval := mulr (m L_0_MPTR) (addr (c 0x0f24) (subr (c 0x0f64)))
  eval

/-- contracts/Halo2Verifier-3-5-g2.sol:954-957 (the value added to `quotient_eval_numer`). -/
def term27 (c : ℕ → Word) (m : Mem) : Word :=
  let eval := mulr (addr 1 (subr (addr (m L_BLIND_MPTR) (m L_LAST_MPTR)))) (mulr (addr (c 0x0f24)
    (subr (c 0x0f64))) (addr (c 0x0f24) (subr (c 0x0f44))))
  eval

/-- contracts/Halo2Verifier-3-5-g2.sol:958-962 (the value added to `quotient_eval_numer`). -/
def term28 (c : ℕ → Word) (m : Mem) : Word :=
  let l_0 := m L_0_MPTR
  let eval := addr l_0 (mulr l_0 (subr (c 0x0f84)))
  eval

/-- contracts/Halo2Verifier-3-5-g2.sol:963-967 (the value added to `quotient_eval_numer`). -/
def term29 (c : ℕ → Word) (m : Mem) : Word :=
  let l_last := m L_LAST_MPTR
  let eval := mulr l_last (addr (mulr (c 0x0f84) (c 0x0f84)) (subr (c 0x0f84)))
  eval

/-- contracts/Halo2Verifier-3-5-g2.sol:968-993 (the value added to `quotient_eval_numer`). -/
def term30 (c : ℕ → Word) (m : Mem) : Word :=
  let theta := m THETA_MPTR
  let f_18 := c 0x0b64
  let var0 := (0x5 : Word)
  let var1 := mulr f_18 var0
  let a_2 := c 0x07e4
  let var2 := mulr f_18 a_2
  let input := var1
  let input := addr (mulr input theta) var2
  let f_9 := c 0x0a44
  let f_10 := c 0x0a64
  let table := f_9
  let table := addr (mulr table theta) f_10
  let beta := m BETA_MPTR
  let gamma := m GAMMA_MPTR
  let lhs := mulr (c 0x0fa4) (mulr (addr (c 0x0fc4) beta) (addr (c 0x1004) gamma))
  let rhs := mulr (c 0x0f84) (mulr (addr input beta) (addr table gamma))
  let eval := mulr (addr 1 (subr (addr (m L_BLIND_MPTR) (m L_LAST_MPTR)))) (addr lhs (subr rhs))
  eval

/-- contracts/Halo2Verifier-3-5-g2.sol:994-997 (the value added to `quotient_eval_numer`). -/
def term31 (c : ℕ → Word) (m : Mem) : Word :=
  let eval := mulr (m L_0_MPTR) (addr (c 0x0fc4) (subr (c 0x1004)))
  eval

/-- contracts/Halo2Verifier-3-5-g2.sol:998-1001 (the value added to `quotient_eval_numer`). -/
def term32 (c : ℕ → Word) (m : Mem) : Word :=
  let eval := mulr (addr 1 (subr (addr (m L_BLIND_MPTR) (m L_LAST_MPTR)))) (mulr (addr (c 0x0fc4)
    (subr (c 0x1004))) (addr (c 0x0fc4) (subr (c 0x0fe4))))
  eval

/-- contracts/Halo2Verifier-3-5-g2.sol:1002-1006 (the value added to `quotient_eval_numer`). -/
def term33 (c : ℕ → Word) (m : Mem) : Word :=
  let l_0 := m L_0_MPTR
  let eval := addr l_0 (mulr l_0 (subr (c 0x1024)))
  eval

/-- contracts/Halo2Verifier-3-5-g2.sol:1007-1011 (the value added to `quotient_eval_numer`). -/
def term34 (c : ℕ → Word) (m : Mem) : Word :=
  let l_last := m L_LAST_MPTR
  let eval := mulr l_last (addr (mulr (c 0x1024) (c 0x1024)) (subr (c 0x1024)))
  eval

/-- contracts/Halo2Verifier-3-5-g2.sol:1012-1037 (the value added to `quotient_eval_numer`). -/
def term35 (c : ℕ → Word) (m : Mem) : Word :=
  let theta := m THETA_MPTR
  let f_18 := c 0x0b64
  let var0 := (0x5 : Word)
  let var1 := mulr f_18 var0
  let a_3 := c 0x0804
  let var2 := mulr f_18 a_3
  let input := var1
  let input := addr (mulr input theta) var2
  let f_9 := c 0x0a44
  let f_10 := c 0x0a64
  let table := f_9
  let table := addr (mulr table theta) f_10
  let beta := m BETA_MPTR
  let gamma := m GAMMA_MPTR
  let lhs := mulr (c 0x1044) (mulr (addr (c 0x1064) beta) (addr (c 0x10a4) gamma))
  let rhs := mulr (c 0x1024) (mulr (addr input beta) (addr table gamma))
  let eval := mulr (addr 1 (subr (addr (m L_BLIND_MPTR) (m L_LAST_MPTR)))) (addr lhs (subr rhs))
  eval

/-- contracts/Halo2Verifier-3-5-g2.sol:1038-1041 (the value added to `quotient_eval_numer`). -/
def term36 (c : ℕ → Word) (m : Mem) : Word :=
  let eval := mulr (m L_0_MPTR) (addr (c 0x1064) (subr (c 0x10a4)))
  eval

/-- contracts/Halo2Verifier-3-5-g2.sol:1042-1045 (the value added to `quotient_eval_numer`). -/
def term37 (c : ℕ → Word) (m : Mem) : Word :=
  let eval := mulr (addr 1 (subr (addr (m L_BLIND_MPTR) (m L_LAST_MPTR)))) (mulr (addr (c 0x1064)
    (subr (c 0x10a4))) (addr (c 0x1064) (subr (c 0x1084))))
  eval

/-- contracts/Halo2Verifier-3-5-g2.sol:1046-1050 (the value added to `quotient_eval_numer`). -/
def term38 (c : ℕ → Word) (m : Mem) : Word :=
  let l_0 := m L_0_MPTR
  let eval := addr l_0 (mulr l_0 (subr (c 0x10c4)))
  eval

/-- contracts/Halo2Verifier-3-5-g2.sol:1051-1055 (the value added to `quotient_eval_numer`). -/
def term39 (c : ℕ → Word) (m : Mem) : Word :=
  let l_last := m L_LAST_MPTR
  let eval := mulr l_last (addr (mulr (c 0x10c4) (c 0x10c4)) (subr (c 0x10c4)))
  eval

/-- contracts/Halo2Verifier-3-5-g2.sol:1056-1080 (the value added to `quotient_eval_numer`). -/
def term40 (c : ℕ → Word) (m : Mem) : Word :=
  let theta := m THETA_MPTR
  let f_11 := c 0x0a84
  let f_19 := c 0x0b84
  let a_0 := c 0x07a4
  let var0 := mulr f_19 a_0
  let input := f_11
  let input := addr (mulr input theta) var0
  let f_9 := c 0x0a44
  let f_10 := c 0x0a64
  let table := f_9
  let table := addr (mulr table theta) f_10
  let beta := m BETA_MPTR
  let gamma := m GAMMA_MPTR
  let lhs := mulr (c 0x10e4) (mulr (addr (c 0x1104) beta) (addr (c 0x1144) gamma))
  let rhs := mulr (c 0x10c4) (mulr (addr input beta) (addr table gamma))
  let eval := mulr (addr 1 (subr (addr (m L_BLIND_MPTR) (m L_LAST_MPTR)))) (addr lhs (subr rhs))
  eval

/-- contracts/Halo2Verifier-3-5-g2.sol:1081-1084 (the value added to `quotient_eval_numer`). -/
def term41 (c : ℕ → Word) (m : Mem) : Word :=
  let eval := mulr (m L_0_MPTR) (addr (c 0x1104) (subr (c 0x1144)))
  eval

/-- contracts/Halo2Verifier-3-5-g2.sol:1085-1088 (the value added to `quotient_eval_numer`). -/
def term42 (c : ℕ → Word) (m : Mem) : Word :=
  let eval := mulr (addr 1 (subr (addr (m L_BLIND_MPTR) (m L_LAST_MPTR)))) (mulr (addr (c 0x1104)
    (subr (c 0x1144))) (addr (c 0x1104) (subr (c 0x1124))))
  eval

/-- contracts/Halo2Verifier-3-5-g2.sol:529-1095: computes `quotient_eval_numer` and stores the quotient of
it by `x^n - 1`.  -/
def quotientEval (c : ℕ → Word) (m : Mem) : Mem :=
  let y := m Y_MPTR
  let quotient_eval_numer := term0 c
  let quotient_eval_numer := horner y quotient_eval_numer (term1 c)
  let quotient_eval_numer := horner y quotient_eval_numer (term2 c)
  let quotient_eval_numer := horner y quotient_eval_numer (term3 c)
  let quotient_eval_numer := horner y quotient_eval_numer (term4 c)
  let quotient_eval_numer := horner y quotient_eval_numer (term5 c)
  let quotient_eval_numer := horner y quotient_eval_numer (term6 c)
  let quotient_eval_numer := horner y quotient_eval_numer (term7 c)
  let quotient_eval_numer := horner y quotient_eval_numer (term8 c)
  let quotient_eval_numer := horner y quotient_eval_numer (term9 c)
  let quotient_eval_numer := horner y quotient_eval_numer (term10 c)
  let quotient_eval_numer := horner y quotient_eval_numer (term11 c m)
  let quotient_eval_numer := horner y quotient_eval_numer (term12 c m)
  let quotient_eval_numer := horner y quotient_eval_numer (term13 c m)
  let quotient_eval_numer := horner y quotient_eval_numer (term14 c m)
  let t := term15 c m
  let m := t.1
  let quotient_eval_numer := horner y quotient_eval_numer t.2
  let t := term16 c m
  let m := t.1
  let quotient_eval_numer := horner y quotient_eval_numer t.2
  let quotient_eval_numer := horner y quotient_eval_numer (term17 c m)
  let quotient_eval_numer := horner y quotient_eval_numer (term18 c m)
  let quotient_eval_numer := horner y quotient_eval_numer (term19 c m)
  let quotient_eval_numer := horner y quotient_eval_numer (term20 c m)
  let quotient_eval_numer := horner y quotient_eval_numer (term21 c m)
  let quotient_eval_numer := horner y quotient_eval_numer (term22 c m)
  let quotient_eval_numer := horner y quotient_eval_numer (term23 c m)
  let quotient_eval_numer := horner y quotient_eval_numer (term24 c m)
  let quotient_eval_numer := horner y quotient_eval_numer (term25 c m)
  let quotient_eval_numer := horner y quotient_eval_numer (term26 c m)
  let quotient_eval_numer := horner y quotient_eval_numer (term27 c m)
  let quotient_eval_numer := horner y quotient_eval_numer (term28 c m)
  let quotient_eval_numer := horner y quotient_eval_numer (term29 c m)
  let quotient_eval_numer := horner y quotient_eval_numer (term30 c m)
  let quotient_eval_numer := horner y quotient_eval_numer (term31 c m)
  let quotient_eval_numer := horner y quotient_eval_numer (term32 c m)
  let quotient_eval_numer := horner y quotient_eval_numer (term33 c m)
  let quotient_eval_numer := horner y quotient_eval_numer (term34 c m)
  let quotient_eval_numer := horner y quotient_eval_numer (term35 c m)
  let quotient_eval_numer := horner y quotient_eval_numer (term36 c m)
  let quotient_eval_numer := horner y quotient_eval_numer (term37 c m)
  let quotient_eval_numer := horner y quotient_eval_numer (term38 c m)
  let quotient_eval_numer := horner y quotient_eval_numer (term39 c m)
  let quotient_eval_numer := horner y quotient_eval_numer (term40 c m)
  let quotient_eval_numer := horner y quotient_eval_numer (term41 c m)
  let quotient_eval_numer := horner y quotient_eval_numer (term42 c m)
  let quotient_eval := mulr quotient_eval_numer (m X_N_MINUS_1_INV_MPTR)
  m.store QUOTIENT_EVAL_MPTR quotient_eval

/-- contracts/Halo2Verifier-3-5-g2.sol:1098-1116. -/
def quotientComm (c : ℕ → Word) (s : St) : St :=
  let s := s.store 0x00 (c LAST_QUOTIENT_X_CPTR)
  let s := s.store 0x20 (c (LAST_QUOTIENT_X_CPTR + 0x20))
  let x_n := s.mem X_N_MPTR
  let s := (downFrom (LAST_QUOTIENT_X_CPTR - 0x40) 0x40 4).foldl (init := s) fun s cptr =>
    let s := s.ecMulAcc x_n
    let s := s.ecAddAcc (c cptr) (c (cptr + 0x20))
    s
  let s := s.store QUOTIENT_X_MPTR (s.mem 0x00)
  let s := s.store QUOTIENT_Y_MPTR (s.mem 0x20)
  s

/-- contracts/Halo2Verifier-3-5-g2.sol:1120-1135. -/
def open0 (s : St) : St :=
  let x := s.mem X_MPTR
  let omega := s.mem OMEGA_MPTR
  let omega_inv := s.mem OMEGA_INV_MPTR
  let x_pow_of_omega := mulr x omega
  let s := s.store 0x0420 x_pow_of_omega
  let s := s.store 0x0400 x
  let x_pow_of_omega := mulr x omega_inv
  let s := s.store 0x03e0 x_pow_of_omega
  let x_pow_of_omega := mulr x_pow_of_omega omega_inv
  let x_pow_of_omega := mulr x_pow_of_omega omega_inv
  let x_pow_of_omega := mulr x_pow_of_omega omega_inv
  let x_pow_of_omega := mulr x_pow_of_omega omega_inv
  let x_pow_of_omega := mulr x_pow_of_omega omega_inv
  let s := s.store 0x03c0 x_pow_of_omega
  s

/-- contracts/Halo2Verifier-3-5-g2.sol:1136-1173. -/
def open1 (s : St) : St :=
  let mu := s.mem MU_MPTR
  let s := ((upFrom 0x0440 0x20 4).zip (upFrom 0x03c0 0x20 4)).foldl (init := s) fun s p =>
    let s := s.store p.1 (addr mu (subr (s.mem p.2)))
    s
  let zs := s.mem 0x0460
  let zs := mulr zs (s.mem 0x0480)
  let zs := mulr zs (s.mem 0x04a0)
  let s := s.store 0x04c0 zs
  let diff := s.mem 0x0440
  let s := s.store 0x04e0 diff
  let s := s.store 0x00 diff
  let diff := s.mem 0x0440
  let diff := mulr diff (s.mem 0x0460)
  let diff := mulr diff (s.mem 0x04a0)
  let s := s.store 0x0500 diff
  let diff := s.mem 0x0440
  let diff := mulr diff (s.mem 0x0460)
  let s := s.store 0x0520 diff
  let diff := s.mem 0x0460
  let s := s.store 0x0540 diff
  let diff := s.mem 0x0440
  let diff := mulr diff (s.mem 0x04a0)
  let s := s.store 0x0560 diff
  s

/-- contracts/Halo2Verifier-3-5-g2.sol:1174-1191. -/
def open2 (s : St) : St :=
  let point_1 := s.mem 0x03e0
  let point_2 := s.mem 0x0400
  let point_3 := s.mem 0x0420
  let coeff := addr point_1 (subr point_2)
  let coeff := mulr coeff (addr point_1 (subr point_3))
  let coeff := mulr coeff (s.mem 0x0460)
  let s := s.store 0x20 coeff
  let coeff := addr point_2 (subr point_1)
  let coeff := mulr coeff (addr point_2 (subr point_3))
  let coeff := mulr coeff (s.mem 0x0480)
  let s := s.store 0x40 coeff
  let coeff := addr point_3 (subr point_1)
  let coeff := mulr coeff (addr point_3 (subr point_2))
  let coeff := mulr coeff (s.mem 0x04a0)
  let s := s.store 0x60 coeff
  s

/-- contracts/Halo2Verifier-3-5-g2.sol:1192-1198. -/
def open3 (s : St) : St :=
  let coeff := (1 : Word)
  let coeff := mulr coeff (s.mem 0x0480)
  let s := s.store 0x80 coeff
  s

/-- contracts/Halo2Verifier-3-5-g2.sol:1199-1209. -/
def open4 (s : St) : St :=
  let point_2 := s.mem 0x0400
  let point_3 := s.mem 0x0420
  let coeff := addr point_2 (subr point_3)
  let coeff := mulr coeff (s.mem 0x0480)
  let s := s.store 0xa0 coeff
  let coeff := addr point_3 (subr point_2)
  let coeff := mulr coeff (s.mem 0x04a0)
  let s := s.store 0xc0 coeff
  s

/-- contracts/Halo2Verifier-3-5-g2.sol:1210-1227. -/
def open5 (s : St) : St :=
  let point_0 := s.mem 0x03c0
  let point_2 := s.mem 0x0400
  let point_3 := s.mem 0x0420
  let coeff := addr point_0 (subr point_2)
  let coeff := mulr coeff (addr point_0 (subr point_3))
  let coeff := mulr coeff (s.mem 0x0440)
  let s := s.store 0xe0 coeff
  let coeff := addr point_2 (subr point_0)
  let coeff := mulr coeff (addr point_2 (subr point_3))
  let coeff := mulr coeff (s.mem 0x0480)
  let s := s.store 0x0100 coeff
  let coeff := addr point_3 (subr point_0)
  let coeff := mulr coeff (addr point_3 (subr point_2))
  let coeff := mulr coeff (s.mem 0x04a0)
  let s := s.store 0x0120 coeff
  s

/-- contracts/Halo2Verifier-3-5-g2.sol:1228-1238. -/
def open6 (s : St) : St :=
  let point_1 := s.mem 0x03e0
  let point_2 := s.mem 0x0400
  let coeff := addr point_1 (subr point_2)
  let coeff := mulr coeff (s.mem 0x0460)
  let s := s.store 0x0140 coeff
  let coeff := addr point_2 (subr point_1)
  let coeff := mulr coeff (s.mem 0x0480)
  let s := s.store 0x0160 coeff
  s

/-- contracts/Halo2Verifier-3-5-g2.sol:1239-1253. -/
def open7 (s : St) : St :=
  let s := s.batchInvert 0 12
  let diff_0_inv := s.mem 0x00
  let s := s.store 0x04e0 diff_0_inv
  let s := (upFrom 0x0500 0x20 4).foldl (init := s) fun s mptr =>
    let s := s.store mptr (mulr (s.mem mptr) diff_0_inv)
    s
  s

/-- contracts/Halo2Verifier-3-5-g2.sol:1254-1269. -/
def open8 (c : ℕ → Word) (s : St) : St :=
  let zeta := s.mem ZETA_MPTR
  let r_eval := (0 : Word)
  let r_eval := addr r_eval (mulr (s.mem 0x20) (c 0x08c4))
  let r_eval := addr r_eval (mulr (s.mem 0x40) (c 0x07e4))
  let r_eval := addr r_eval (mulr (s.mem 0x60) (c 0x08a4))
  let r_eval := mulr r_eval zeta
  let r_eval := addr r_eval (mulr (s.mem 0x20) (c 0x0904))
  let r_eval := addr r_eval (mulr (s.mem 0x40) (c 0x07c4))
  let r_eval := addr r_eval (mulr (s.mem 0x60) (c 0x0884))
  let r_eval := mulr r_eval zeta
  let r_eval := addr r_eval (mulr (s.mem 0x20) (c 0x08e4))
  let r_eval := addr r_eval (mulr (s.mem 0x40) (c 0x07a4))
  let r_eval := addr r_eval (mulr (s.mem 0x60) (c 0x0864))
  let s := s.store 0x0580 r_eval
  s

/-- contracts/Halo2Verifier-3-5-g2.sol:1270-1311. -/
def open9 (c : ℕ → Word) (s : St) : St :=
  let coeff := s.mem 0x80
  let zeta := s.mem ZETA_MPTR
  let r_eval := (0 : Word)
  let r_eval := addr r_eval (mulr coeff (c 0x0c04))
  let r_eval := mulr r_eval zeta
  let r_eval := addr r_eval (mulr coeff (s.mem QUOTIENT_EVAL_MPTR))
  let r_eval := (downFrom 0x0d24 0x20 9).foldl (init := r_eval) fun r_eval mptr =>
    let r_eval := addr (mulr r_eval zeta) (mulr coeff (c mptr))
    r_eval
  let r_eval := (downFrom 0x0be4 0x20 23).foldl (init := r_eval) fun r_eval mptr =>
    let r_eval := addr (mulr r_eval zeta) (mulr coeff (c mptr))
    r_eval
  let r_eval := mulr r_eval zeta
  let r_eval := addr r_eval (mulr coeff (c 0x1144))
  let r_eval := mulr r_eval zeta
  let r_eval := addr r_eval (mulr coeff (c 0x10a4))
  let r_eval := mulr r_eval zeta
  let r_eval := addr r_eval (mulr coeff (c 0x1004))
  let r_eval := mulr r_eval zeta
  let r_eval := addr r_eval (mulr coeff (c 0x0f64))
  let r_eval := mulr r_eval zeta
  let r_eval := addr r_eval (mulr coeff (c 0x0ec4))
  let r_eval := mulr r_eval zeta
  let r_eval := addr r_eval (mulr coeff (c 0x0804))
  let r_eval := mulr r_eval (s.mem 0x0500)
  let s := s.store 0x05a0 r_eval
  s

/-- contracts/Halo2Verifier-3-5-g2.sol:1312-1337. -/
def open10 (c : ℕ → Word) (s : St) : St :=
  let zeta := s.mem ZETA_MPTR
  let r_eval := (0 : Word)
  let r_eval := addr r_eval (mulr (s.mem 0xa0) (c 0x10c4))
  let r_eval := addr r_eval (mulr (s.mem 0xc0) (c 0x10e4))
  let r_eval := mulr r_eval zeta
  let r_eval := addr r_eval (mulr (s.mem 0xa0) (c 0x1024))
  let r_eval := addr r_eval (mulr (s.mem 0xc0) (c 0x1044))
  let r_eval := mulr r_eval zeta
  let r_eval := addr r_eval (mulr (s.mem 0xa0) (c 0x0f84))
  let r_eval := addr r_eval (mulr (s.mem 0xc0) (c 0x0fa4))
  let r_eval := mulr r_eval zeta
  let r_eval := addr r_eval (mulr (s.mem 0xa0) (c 0x0ee4))
  let r_eval := addr r_eval (mulr (s.mem 0xc0) (c 0x0f04))
  let r_eval := mulr r_eval zeta
  let r_eval := addr r_eval (mulr (s.mem 0xa0) (c 0x0e44))
  let r_eval := addr r_eval (mulr (s.mem 0xc0) (c 0x0e64))
  let r_eval := mulr r_eval zeta
  let r_eval := addr r_eval (mulr (s.mem 0xa0) (c 0x0e04))
  let r_eval := addr r_eval (mulr (s.mem 0xc0) (c 0x0e24))
  let r_eval := mulr r_eval zeta
  let r_eval := addr r_eval (mulr (s.mem 0xa0) (c 0x0824))
  let r_eval := addr r_eval (mulr (s.mem 0xc0) (c 0x0844))
  let r_eval := mulr r_eval (s.mem 0x0520)
  let s := s.store 0x05c0 r_eval
  s

/-- contracts/Halo2Verifier-3-5-g2.sol:1338-1350. -/
def open11 (c : ℕ → Word) (s : St) : St :=
  let zeta := s.mem ZETA_MPTR
  let r_eval := (0 : Word)
  let r_eval := addr r_eval (mulr (s.mem 0xe0) (c 0x0de4))
  let r_eval := addr r_eval (mulr (s.mem 0x0100) (c 0x0da4))
  let r_eval := addr r_eval (mulr (s.mem 0x0120) (c 0x0dc4))
  let r_eval := mulr r_eval zeta
  let r_eval := addr r_eval (mulr (s.mem 0xe0) (c 0x0d84))
  let r_eval := addr r_eval (mulr (s.mem 0x0100) (c 0x0d44))
  let r_eval := addr r_eval (mulr (s.mem 0x0120) (c 0x0d64))
  let r_eval := mulr r_eval (s.mem 0x0540)
  let s := s.store 0x05e0 r_eval
  s

/-- contracts/Halo2Verifier-3-5-g2.sol:1351-1370. -/
def open12 (c : ℕ → Word) (s : St) : St :=
  let zeta := s.mem ZETA_MPTR
  let r_eval := (0 : Word)
  let r_eval := addr r_eval (mulr (s.mem 0x0140) (c 0x1124))
  let r_eval := addr r_eval (mulr (s.mem 0x0160) (c 0x1104))
  let r_eval := mulr r_eval zeta
  let r_eval := addr r_eval (mulr (s.mem 0x0140) (c 0x1084))
  let r_eval := addr r_eval (mulr (s.mem 0x0160) (c 0x1064))
  let r_eval := mulr r_eval zeta
  let r_eval := addr r_eval (mulr (s.mem 0x0140) (c 0x0fe4))
  let r_eval := addr r_eval (mulr (s.mem 0x0160) (c 0x0fc4))
  let r_eval := mulr r_eval zeta
  let r_eval := addr r_eval (mulr (s.mem 0x0140) (c 0x0f44))
  let r_eval := addr r_eval (mulr (s.mem 0x0160) (c 0x0f24))
  let r_eval := mulr r_eval zeta
  let r_eval := addr r_eval (mulr (s.mem 0x0140) (c 0x0ea4))
  let r_eval := addr r_eval (mulr (s.mem 0x0160) (c 0x0e84))
  let r_eval := mulr r_eval (s.mem 0x0560)
  let s := s.store 0x0600 r_eval
  s

/-- contracts/Halo2Verifier-3-5-g2.sol:1371-1376. -/
def open13 (s : St) : St :=
  let sum := s.mem 0x20
  let sum := addr sum (s.mem 0x40)
  let sum := addr sum (s.mem 0x60)
  let s := s.store 0x0620 sum
  s

/-- contracts/Halo2Verifier-3-5-g2.sol:1377-1380. -/
def open14 (s : St) : St :=
  let sum := s.mem 0x80
  let s := s.store 0x0640 sum
  s

/-- contracts/Halo2Verifier-3-5-g2.sol:1381-1385. -/
def open15 (s : St) : St :=
  let sum := s.mem 0xa0
  let sum := addr sum (s.mem 0xc0)
  let s := s.store 0x0660 sum
  s

/-- contracts/Halo2Verifier-3-5-g2.sol:1386-1391. -/
def open16 (s : St) : St :=
  let sum := s.mem 0xe0
  let sum := addr sum (s.mem 0x0100)
  let sum := addr sum (s.mem 0x0120)
  let s := s.store 0x0680 sum
  s

/-- contracts/Halo2Verifier-3-5-g2.sol:1392-1396. -/
def open17 (s : St) : St :=
  let sum := s.mem 0x0140
  let sum := addr sum (s.mem 0x0160)
  let s := s.store 0x06a0 sum
  s

/-- contracts/Halo2Verifier-3-5-g2.sol:1397-1430. -/
def open18 (s : St) : St :=
  let s := ((upFrom 0x00 0x20 5).zip (upFrom 0x0620 0x20 5)).foldl (init := s) fun s p =>
    let s := s.store p.1 (s.mem p.2)
    s
  let s := s.batchInvert 0 5
  let r_eval := mulr (s.mem 0x80) (s.mem 0x0600)
  let r_eval := [(0x60, 0x05e0), (0x40, 0x05c0), (0x20, 0x05a0), (0x00, 0x0580)].foldl (init := r_eval) fun r_eval p =>
    let r_eval := mulr r_eval (s.mem NU_MPTR)
    let r_eval := addr r_eval (mulr (s.mem p.1) (s.mem p.2))
    r_eval
  let s := s.store R_EVAL_MPTR r_eval
  s

/-- contracts/Halo2Verifier-3-5-g2.sol:1433-1438: advice 2, 1, 0. -/
def comm0 (c : ℕ → Word) (s : St) : St :=
  let s := s.store 0x00 (c 0x00e4)
  let s := s.store 0x20 (c 0x0104)
  let s := s.stepAcc (c 0x00a4) (c 0x00c4)
  s.stepAcc (c 0x0064) (c 0x0084)

/-- contracts/Halo2Verifier-3-5-g2.sol:1439-1517. -/
def comm1 (c : ℕ → Word) (nu : Word) (s : St) : St :=
  let s := s.setTmp (c 0x0624) (c 0x0644)
  let s := s.stepTmpMem QUOTIENT_X_MPTR
  let s := (downFrom 0x1120 0x40 14).foldl St.stepTmpMem s
  let s := (downFrom 0x0ce0 0x40 3).foldl St.stepTmpMem s
  let s := (downFrom 0x0da0 0x40 3).foldl St.stepTmpMem s
  let s := (downFrom 0x0c20 0x40 4).foldl St.stepTmpMem s
  let s := s.stepTmpMem 0x0ae0
  let s := s.stepTmpMem 0x0aa0
  let s := s.stepTmpMem 0x0b20
  let s := (downFrom 0x0a60 0x40 5).foldl St.stepTmpMem s
  let s := s.stepTmp (c 0x03e4) (c 0x0404)
  let s := s.stepTmp (c 0x0364) (c 0x0384)
  let s := s.stepTmp (c 0x02e4) (c 0x0304)
  let s := s.stepTmp (c 0x0264) (c 0x0284)
  let s := s.stepTmp (c 0x01e4) (c 0x0204)
  let s := s.stepTmp (c 0x0124) (c 0x0144)
  s.close nu 0x0500

/-- contracts/Halo2Verifier-3-5-g2.sol:1519-1535. -/
def comm2 (c : ℕ → Word) (nu : Word) (s : St) : St :=
  let s := s.setTmp (c 0x05e4) (c 0x0604)
  let s := (downFrom 0x05a4 0x40 5).foldl (fun s mptr => s.stepTmp (c mptr) (c (mptr + 0x20))) s
  let s := s.stepTmp (c 0x0164) (c 0x0184)
  s.close nu 0x0520

/-- contracts/Halo2Verifier-3-5-g2.sol:1537-1542. -/
def comm3 (c : ℕ → Word) (nu : Word) (s : St) : St :=
  let s := s.setTmp (c 0x0464) (c 0x0484)
  let s := s.stepTmp (c 0x0424) (c 0x0444)
  s.close nu 0x0540

/-- contracts/Halo2Verifier-3-5-g2.sol:1544-1555. -/
def comm4 (c : ℕ → Word) (nu : Word) (s : St) : St :=
  let s := s.setTmp (c 0x03a4) (c 0x03c4)
  let s := s.stepTmp (c 0x0324) (c 0x0344)
  let s := s.stepTmp (c 0x02a4) (c 0x02c4)
  let s := s.stepTmp (c 0x0224) (c 0x0244)
  let s := s.stepTmp (c 0x01a4) (c 0x01c4)
  s.close nu 0x0560

/-- contracts/Halo2Verifier-3-5-g2.sol:1556-1567: minus `r_eval` times the generator, minus `zs` times `w`,
plus `mu` times `w'`. -/
def comm5 (c : ℕ → Word) (s : St) : St :=
  let s := s.setTmp (s.mem G1_X_MPTR) (s.mem G1_Y_MPTR)
  let s := (s.ecMulTmp (subr (s.mem R_EVAL_MPTR))).addTmpAcc
  let s := s.setTmp (c 0x1164) (c 0x1184)
  let s := (s.ecMulTmp (subr (s.mem 0x04c0))).addTmpAcc
  let s := s.setTmp (c 0x11a4) (c 0x11c4)
  (s.ecMulTmp (s.mem MU_MPTR)).addTmpAcc

/-- contracts/Halo2Verifier-3-5-g2.sol:1431-1572. -/
def open19 (c : ℕ → Word) (s : St) : St :=
  let nu := s.mem NU_MPTR
  let s := comm0 c s
  let s := comm1 c nu s
  let nu := mulr nu (s.mem NU_MPTR)
  let s := comm2 c nu s
  let nu := mulr nu (s.mem NU_MPTR)
  let s := comm3 c nu s
  let nu := mulr nu (s.mem NU_MPTR)
  let s := comm4 c nu s
  let s := comm5 c s
  let s := s.store PAIRING_LHS_X_MPTR (s.mem 0x00)
  let s := s.store PAIRING_LHS_Y_MPTR (s.mem 0x20)
  let s := s.store PAIRING_RHS_X_MPTR (c 0x11a4)
  let s := s.store PAIRING_RHS_Y_MPTR (c 0x11c4)
  s

/-- contracts/Halo2Verifier-3-5-g2.sol:1118-1573. -/
def batchOpen (c : ℕ → Word) (s : St) : St :=
  let s := open0 s
  let s := open1 s
  let s := open2 s
  let s := open3 s
  let s := open4 s
  let s := open5 s
  let s := open6 s
  let s := open7 s
  let s := open8 c s
  let s := open9 c s
  let s := open10 c s
  let s := open11 c s
  let s := open12 c s
  let s := open13 s
  let s := open14 s
  let s := open15 s
  let s := open16 s
  let s := open17 s
  let s := open18 s
  open19 c s

/-- The assembly block of `verifyProof`, contracts/Halo2Verifier-3-5-g2.sol:70-1618, on the call data read by
`c`. -/
noncomputable def run (E : BnPairing) (keccak : Keccak) (c : ℕ → Word) : Evm Bool :=
  let p := prologue keccak c
  if p.1 HAS_ACCUMULATOR_MPTR ≠ 0 then none
  else if ¬ p.2 then none
  else
    let s : St := ⟨p.1, p.2⟩
    let s := lagrange c s
    let s : St := ⟨quotientEval c s.mem, s.ok⟩
    let s := quotientComm c s
    let s := batchOpen c s
    if finalPairing E s then some true else none

/-- ABI encoding of a call `verifyProof(proof, instances)`: selector, offsets of `proof` and
`instances`, length and bytes of `proof` padded to words, length and words of `instances`. -/
def callData (selector : List Byte) (proof : List Byte) (instances : List Word) : List Byte :=
  let padded := proof ++ List.replicate ((32 - proof.length % 32) % 32) 0
  selector ++ beBytes 32 0x40 ++ beBytes 32 (0x60 + padded.length) ++
    beBytes 32 proof.length ++ padded ++ beBytes 32 instances.length ++ instances.flatMap Word.bytes

/-- `Halo2Verifier.verifyProof`, contracts/Halo2Verifier-3-5-g2.sol:66-1619.  The ABI decoder reverts on
lengths of 2^64 or more. -/
noncomputable def verifyProof (E : BnPairing) (keccak : Keccak) (selector : List Byte)
    (proof : List Byte) (instances : List Word) : Evm Bool :=
  if proof.length < 2 ^ 64 ∧ instances.length < 2 ^ 64 then
    run E keccak (calldataload (callData selector proof instances))
  else none

/-! ### The key those words stand for -/

open Spec.Halo2 WeierstrassCurve.Affine

/-- Point of two consecutive words. -/
def keyPoint (i : ℕ) : G1 := (decodeG1 ⟨key.getD i 0, key.getD (i + 1) 0⟩).getD 0

/-- Number of a word. -/
def keyNat (i : ℕ) : ℕ := (key.getD i 0).toNat

/-- Coordinates of `neg_s_g2`, contracts/Halo2Verifier-3-5-g2.sol:334-337; imaginary parts come first
there. -/
def negSG2N : P2N := ((keyNat 18, keyNat 17), (keyNat 20, keyNat 19))

/-- `neg_s_g2`, contracts/Halo2Verifier-3-5-g2.sol:334-337. -/
def negSG2 : G2 := Point.some (c2 negSG2N.1) (c2 negSG2N.2) (onTwistN_spec (by decide +kernel))

/-- The embedded key, contracts/Halo2Verifier-3-5-g2.sol:317-401. -/
def embeddedKey : Key where
  digest := key.getD 0 0
  instances := 49
  k := 18
  omega := ((keyNat 4 : ℕ) : Fr)
  g1 := g1
  g2 := g2
  negSG2 := negSG2
  fixed i := keyPoint (21 + 2 * i)
  perm i := keyPoint (67 + 2 * i)

end Verif.Halo2.Combi
