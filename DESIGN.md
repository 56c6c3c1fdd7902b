# zkdvrf: formal model and proofs in Lean 4

## 1. Approach

The code is modelled function by function as total Lean definitions (for circuits: as relations between
the values of cells), each with a comment citing the lines of /repo it models.  Panics, returned errors
and reverts are explicit outcomes.  Field arithmetic is the real one: `Fq = ZMod q`, `Fr = ZMod r` with
the BN254 moduli, whose primality is proved from Pratt certificates.  G1 and Grumpkin are Mathlib's
`WeierstrassCurve.Affine.Point` groups of the actual equations, and their orders are proved (C49).  G2 is
the group of points of the actual twist over `Fq2 = Fq[u]/(u²+1)`.  The contracts are state machines
whose histories are arbitrary finite sequences of transactions by arbitrary senders.

External primitives are *parameters*, never axioms; theorems quantify over all their instances and the
examples instantiate them (see section 4).

Layout: `Verif/Model/*` is the model, `Verif/Spec/*` small independent specifications in which the
theorems are phrased, `Verif/Lemmas/*` helper lemmas, `Verif/Props/*` the property theorems (named
`Cxx_...`) with concrete examples beside them.  A theorem named `Cxx_violation_...` proves that the code
does *not* have a desirable property, by a concrete reachable case.  `tools/manifest.py` regenerates
MANIFEST.json; `seeded/LOG.jsonl` records the tests against wrong programs.

## 2. Properties

| id | what is modelled (module under Verif/Model) | how it is proved |
|----|------------------|------------|
| C01 | `DkgConfig::new`, `instance_size` (Dkg) | case analysis |
| C02 | `evaluate_poly`, `shares` (Lib) | fold invariant against the power-sum specification `Spec.poly` |
| C03 | `combine_partial_evaluations` with the Lagrange loop (Dkg) | Mathlib's Lagrange interpolation, module sums |
| C04 | `check_indices` loop, panic on length (Dkg) | induction on the list |
| C05 | `DkgShareKey::evaluate`, `PartialEval::verify` (Dkg) | module algebra; challenge as in the code |
| C06 | verifier equation (Dkg) | special soundness algebra over the prime-order group |
| C07 | `PseudoRandom::verify` over a bilinear map (Dkg) | non-degeneracy |
| C08 | whole DKG + DVRF pipeline (Dkg, Lib) | composition of the above |
| C09 | `shares` (Lib) | interpolation through 0 and t-1 points; bijection of dealings |
| C10 | encryption/decryption (Lib) | group commutativity |
| C11 | `MemberKey::index` (Lib) | list lemma |
| C12 | `dkg_share_key`, `dkg_global_public_params`, `verify` (Lib, Dkg) | fold sums |
| C13, C14 | `instance`, `from_instance`, limb encodings (Lib) with the real q, r | arithmetic, list slicing induction |
| C15 | GlobalPublicParams.sol with checked arithmetic and precompiles (Gpp, Evm) | refinement to the Rust model |
| C16 | `checkPublicParams` (Zkdvrf), `instance` (Lib), client `public_keys` (Client) | list slicing |
| C17 | bin/serialise.rs (Serialise) | list induction against `Spec.Hex` |
| C18 | src/hash_to_curve_evm.rs (HashToCurve) | quadratic-residue argument, verified constants |
| C19 | Hash.sol on words (HashToCurve) | refinement to the Rust model via the cast to `ZMod q` |
| C20 | ModExp.sol as straight-line programs generated from the source (ModExp) | program interpreted on exponents |
| C21, C22 | PseudoRand.sol on words with precompiles (PseudoRand) | refinement to the Rust model |
| C23 | byte framings (HashToCurve, Dkg) | list injectivity |
| C24, C25 | src/grumpkin_chip* (GrumpkinChip, MainGate) | Weierstrass group law; loop invariant |
| C26 | src/ecc_chip/point*_base_chip* (FixedPoint) | loop invariants, integer bounds, prime order |
| C27 | src/ecc_chip/integer2.rs (Integer2) | ring identities in Fq2 |
| C28, C29 | `DkgCircuit::synthesize` (DkgCircuit) as a relation, cells existentially quantified | composition of C24-C27, C47 |
| C30-C41, C51 | zkdvrf.sol and zkdvrf_pre.sol (Zkdvrf, ZkdvrfPre) | inductive invariants on histories; zkdvrf_pre additionally by a simulation |
| C42, C43 | lottery.sol next to zkdvrf.sol, with re-entrancy (Lottery); C42 also next to zkdvrf_pre.sol, the contract scripts/deploy.ts deploys (LotteryPre) | invariants over interleavings; explicit inverse of the shuffle; simulation by the plain contract |
| C44, C45 | src/utils.rs cache functions with interrupted writes (Cache); entrypoint.sh with `client setup --skip`, broken downloads, stops and removals (Entrypoint); `client setup` with the verifier contracts it writes (Setup); clean.sh and download_params.sh (Clean) | case analysis, induction on histories |
| C46 | client `combine` and the admin service's file (Client) | list lemmas + C03 |
| C47 | Poseidon constants, permutation, sponge, Pow5 chip gates (Poseidon) | kernel arithmetic, Fermat, functional equations |
| C48 | src/hash_to_curve.rs (Svdw) | quadratic-residue argument |
| C49 | moduli, curves, generators (Params, Curve, Twist) | Pratt certificates; double-and-add in the kernel; Hasse-free counting by orders |
| C50 | `is_dl_equal`, `check_public` (Dkg, Lib) | pairing |
| C52-C54 | client `keygen`, `prove`, `verify`, `derive`, `eval`, `verify-eval` and the service steps around them (ClientDkg) | composition of C08, C15, C17, C28, C29 with the contract invariants |
| C55, C56 | the node and admin services as passes over contract and files (Services), on zkdvrf_pre.sol | invariant over all interleavings with an exact transaction count; disjointness of submitters of rounds 9 and 10 |
| C57 | the same worlds, with transactions of others | invariants that no continuation leaves; the front-running case starts from the honest worlds of C55 |
| C58 | `startup` of the admin service (Services) | induction over the configured addresses; connected with C55 by `C58_fresh` |
| C59 | call data, format checks of the verifier and the key contract (Halo2Verifier, Halo2Key) | decoding of call data into words; curve and order checks by kernel arithmetic; contract invariants |
| C60 | the transcript (Halo2Verifier, Spec/Halo2) | injectivity of the encodings, explicit collision |
| C61 | Lagrange evaluations (Halo2Verifier) | roots of unity and Mathlib's interpolation |
| C62 | constraints (Spec/Halo2) against MainGate and Poseidon | algebra |
| C63 | the whole assembly block (Halo2Verifier) | symbolic execution over memory: batch inversion, Horner sums, commitments, pairing |
| C64 | polynomials behind commitments, interactive provers, exceptional challenges (Spec/Halo2Poly) | commitments are linear in the value at the secret; root counting round by round for opening, quotient, permutation and lookup arguments; classical choice of the exception sets; counting over tuples of challenges |
| C65 | honest prover: permuted lookup columns, running products, quotient and opening polynomials, blinding (Spec/Halo2Poly) | sorting lemma for lookups; telescoping and re-indexing by the permutation; division of polynomials; sequential construction of the transcript's challenges; counting for the equivalence with C64 |
| C66 | events of every entry point, histories with logs (ZkdvrfEvents, ZkdvrfPreEvents) | invariant connecting log and state; simulation for zkdvrf_pre |
| C67 | handlers of scripts/demo/admin.ts (Demo) | C66 turns events into facts about the state; then C41, C52, C53 and the simulation backwards |
| C68 | handlers of scripts/lottery (Demo), lottery.sol | C66 with C42; induction over the players |
| C69 | bin/mock.rs on a directory of files (Mock) | the dealings as in C52, files read back by C17, C03 for the combination; inversion of the monadic steps for arbitrary directories |
| C70 | variables and options (Config), numerals (Spec/Config) | induction over the characters; digits of a number |
| C71 | C09, C10 and the aggregation (Lib), coalitions (Spec/Secrecy) | bijection between the coefficient vectors through the given values and the values at `t - 1 - \|S\|` further points; C07 for the outputs |
| C72 | `evaluate` (Dkg) | the nonce is `z - c sk`; reprogramming the hash with `Function.update`; C06_few_hash_values counts residues of words |
| C73 | contracts/Halo2Verifier-3-5-g2.sol (Halo2Combi) | block by block the same computation on call data shifted by a word, whose first 0x64 bytes are not read |
| C74 | the cfg paths without `g2chip` (DkgCircuitNoG2) | the relation of C28 without the G2 region; the rebuilt instance is decoded by inserting the G2 block; pairing check for g2a |
| C75 | zkdvrf.sol, zkdvrf_pre.sol, client `dkg prove`/`dkg derive` (Spec/Draws) | the view of C52 gives the dealt polynomials; a proved instance determines the polynomial's values by injectivity of the encodings |
| C76 | scripts/demo/{register,nidkg,random,admin}.ts (DemoMembers) | invariants after each script phase (registered, dealt, derived, evaluated), induction over members and rounds |
| C77 | scripts/deploy.ts, start of scripts/demo/admin.ts (Deploy) | constructor iff, key words of the deployed verifier bound the number of instances, invariant `ppList = []`; then C76 |
| C78 | the same chip functions and `synthesize` again, as layouts: cells, gates per row, copy constraints, public inputs, witness (Layout, LayoutChips); `Ensures` (Spec/Layout), `Realizes` (Spec/LayoutKey) | a weakest-precondition style logic of chip functions, from the equations of single rows up to the value-level circuit of C28; copy constraints are chains of the permutation |
| C79 | C64 (on chain), C78, contract | composition; the instance's last words are the registered keys |
| C80 | the witness closures of the layouts of C78, `DkgMemberParams::circuit`, the filled table (LayoutProver) | a forward logic of honest runs (Spec/LayoutHonest): each chip function, run with known cells, fills its cells so that its constraints hold; bad secrets and auxiliary points counted |
| C81 | histories of both contracts with a condition on successful submissions (Spec/History) | such a history is also one of the contract whose proof check in addition tests the condition, which is sound; C33 as sums of dealings; C64, C78 |
| C82 | keys with exactly the gates, lookups and links of a layout (Spec/LayoutExact), columns interpolated from a table | converse of C78's step from keys to layouts; C80, C65 and the contract's checks; keys built for every layout that fits: permutation with given orbits |
| C83 | an integer chip with limbs (Lemmas/LimbChip), rows and regions of every chip function (Lemmas/LayoutRows, LayoutSize, LayoutFits) | the chip is shown correct and complete, the number of rows of the circuit with it is bounded, keys by C82_keys_exist, histories by C81 |
| C84 | JSON text (`serde_json::to_string`, `from_str`), UTF-8, the file type of every struct (Json, ClientFiles) | parser inverts printer by induction over values; strings with escapes; C17 for the group elements; trailing text refused |
| C85 | programs over files whose writes empty and then fill the file, stopped anywhere (Disk) | an effect logic (`Acts`: reads, writes, contents, results) of every command; no proper prefix of a printed value is a value |
| C86 | file names of all commands as resolved paths (`format!`, `Path::join`) | injectivity of names; the effect logic; a counterexample for names with `..` |
| C87 | the same, runs after interrupted runs | a command never reads what it writes, so earlier runs leave its reads unchanged; writes are total |
| C88 | interleavings of steps of several processes on one disk | each process's reads are unaffected by the others' writes (disjoint, or equal contents) |
| C89 | every command as a program over files, next to the functions of Client/ClientDkg | run of the program = decode, function, encode (both directions) |
| C90 | the mock commands on files (ClientFiles) against Mock | view of a disk as the structure of C69; run = model in both directions; C69, C89 for the pipeline |
| C91 | passes of services/node.ts and services/admin.ts as programs on files (ServicesFiles), histories with stops | simulation by the histories of C55: relations say which files a service still needs; WritesIn shows that a stopped pass does not touch them; C89 for complete passes |
| C92 | bin/proof.rs around external `create_proof`/`verify_proof` (Proof), the client's prove and verify on files | success of `prove` taken apart; the instance read back gives the keys (C16) and the checked proof; frame of the files written |
| C93 | command lines of services/*.ts as text, the POSIX shell on them, clap's parsing for the declared arguments (CommandLine), passes that execute text (ServicesText) | lexing and parsing lemmas for words of plain characters, decimals and quoted inputs; equality of programs with C91's passes; induction over histories |
| C94 | the passes of C91 with any prover and verifiers, histories counted by accepted transactions | an ideal proof system (everything proved, the contract accepts exactly the satisfiable instances) simulates any other: a pass is the ideal one or fails earlier, and a failed pass is a stopped one; then C91, C33; with C82 for the deployed verifier and honest provers (C94_honest_prover, C98_honest_prover) |
| C95 | the comparison at the end of `createGpp` (text of files, `BigInt`, keys of the contract) | reading back what the client writes, injectivity of the encodings; C52 for the chain, the simulation of C94 for the services |
| C96 | a pass of a service as three steps (decide; read, run and send; mined), any interleaving; a service stops when a command fails or a transaction reverts | invariant over interleavings (files, stored and pending transactions), a measure that every changing step increases, an explicit schedule for the violation; the one-step passes of C55 are embedded |
| C97 | start date, round timer and restart of the admin service, with times of passes and confirmations as arguments | invariant on the log of openings; simulation by C55's histories in both directions |
| C98 | the steps of C96, with restarts of services at any point and transactions left behind that are mined at any later time or lost | invariant as in C96 for what holds of any transaction ever sent (a dealing is good unless one is accepted, an evaluation is good for its round), the measure of C96 less the transactions left; for any proof system (C98_any_*) a forward simulation by services with an ideal one, in which a dealing that failed or was rejected is still on its way, and equality of the steps outside the DKG; without soundness (C98_unsound_*) equality of all steps with those of a contract that also checks satisfiability |
| C99 | the steps of C98 for the nodes in a set H, and any transaction of any sender outside H, owner included, as a step | one invariant per honest node, kept by its own steps (as in C98) and, through what somebody else's accepted transaction can change for it (`Away`), by all others; progress by running a pass in any state of the invariant; for any proof system (C99_any_*) a forward simulation by the same services with an ideal one, in which dealings that failed or were rejected are still on their way, and with C79/C81 honest nodes among algebraic adversaries for the deployed verifier (C99_adversaries) |

No listed property was found inexpressible.

## 3. What is modelled and what is not

Modelled, function by function:
* src/dkg.rs, src/error.rs, src/lib.rs (native functions), src/dkg_circuit.rs (with and without the default feature `g2chip`),
  src/grumpkin_chip.rs and its submodules, src/ecc_chip/integer2.rs, src/ecc_chip/point_base_chip*,
  src/ecc_chip/point2_base_chip*, src/hash_to_curve.rs, src/hash_to_curve_evm.rs, src/poseidon.rs and
  src/poseidon/bn256.rs, src/utils.rs (encodings and file cache);
* bin/serialise.rs, bin/mock.rs, bin/proof.rs (around halo2's `create_proof` and `verify_proof`), the commands of bin/client.rs and its configuration by environment variables;
* the commands of bin/client.rs and bin/mock.rs as programs over files: file names, JSON text, UTF-8, the order of
  reads and writes, points where the process is stopped, processes running at the same time (C84-C90);
* contracts/zkdvrf.sol, contracts/zkdvrf_pre.sol, contracts/lottery.sol, contracts/GlobalPublicParams.sol,
  contracts/PseudoRand.sol, contracts/libs/{Grumpkin,Hash,ModExp,Pairing}.sol;
* contracts/Halo2Verifier.sol (memory as a function from addresses to words, all accesses of the code being
  word-aligned relative to the regions used) and contracts/Halo2VerifyingKey-3-5-18-g2.sol;
* services/admin.ts and services/node.ts: start-up and one pass of each service's loop (contract reads,
  client commands, conversions between files and transactions, the transaction sent), and the worlds
  reached by interleaving passes with transactions of others; the passes also as programs on files, with
  stops and restarts (C91), as three steps each that interleave (C96), and with kills between them (C98);
* the events of both randomness contracts; the event handlers of scripts/demo/admin.ts,
  scripts/lottery/admin.ts and scripts/lottery/play.ts; scripts/demo/register.ts, nidkg.ts and random.ts;
  scripts/deploy.ts and the start of scripts/demo/admin.ts;
* entrypoint.sh, the start script of the container that prepares parameters and keys (C44);
* `client setup` up to the contract files it writes (C45); the generator of their texts (halo2_solidity_verifier) is a parameter,
  with the law that the verifying key in a proving key is the one it was generated with;
* clean.sh and download_params.sh (C45);
* the numeric options in services/exec/run.ts and services/exec/runNode.ts.

Not modelled:
* the link between the verifier and the circuit: in the contract model the proof check is the parameter
  `Env.verifyProof`; theorems that need it assume `Spec.SnarkSound` / `Spec.SnarkComplete`, which say that
  accepted instances satisfy the modelled circuit / that satisfiable instances have accepted proofs.  The
  verifier itself is modelled (C59-C65) and so is the layout of the circuit (C78); C79 and C81 join them for algebraic provers,
  C82 for honest provers, given that the key belongs to the layout (`Realizes`, `RealizesExactly`; key generation is external;
  that such keys exist for every layout that fits into the rows is proved); C94 (for overlapping services C98) says what
  the services need of it when all nodes are honest, and joins that with C82;
* the halo2 prover after the table is filled (`create_proof`) and the placement of regions; up to there it is C80;
* the accumulator branches of the two verifier contracts (dead for the keys of the repository; the model reverts);
* benches, examples, test, ops (the order of the containers, docker-compose.yml, is in comments only);
* the event loop and the polling interval, the RPC layer, logging and the (unused) event listeners of the services; the shell beyond words, double quotes and
  assignments, and clap beyond the arguments that the client declares;
* gas, storage layout, timing and randomness quality (random draws are arguments).

Simplifications, each stated at the definition:
* circuits: in the model used by C24-C29 a cell is its value; regions, columns and copy constraints are in the second
  model (C78), which is proved to enforce the first.  halo2wrong's
  main gate is modelled by its polynomial equation; its `IntegerChip`/range chip is trusted: an assigned
  integer is its value modulo q and each operation the congruence it enforces, except where the integer
  itself becomes public (then the cells are those of some integer below 2^254 congruent to it);
* `usize`/`uint32`/`uint256` counters are natural numbers with explicit overflow checks where the
  language checks them;
* files: directories exist, there are no links, a write empties the file and then fills it in order (a killed process, not a
  power failure), `usize` has 64 bits, values of unknown JSON fields are parsed like others;
* randomness from an `RngCore` is an explicit argument; iterators and in-place loops are folds.

## 4. Trusted base

* Lean's kernel; each theorem depends on no axioms other than `propext`, `Classical.choice`, `Quot.sound`
  (checked by vcheck).  No own axioms, no compiled-code tactics.  Concrete large-number facts use
  `decide +kernel`, i.e. kernel reduction.
* Faithfulness of the model definitions to the cited source lines, and of the specifications in
  `Verif/Spec` to the English properties.
* External code, as parameters: Keccak256 and Blake2b (arbitrary functions), field square roots
  (`IsSqrt`), the pairing (`BnPairing`: a bilinear map, non-degenerate on the generators, on G1 × G2),
  the precompiles 6, 7, 8 of the EVM (semantics of EIP-196/197 on the modelled groups), the halo2 proof
  system (section 3), crate `hex`, `serde_json` and `std::fs` (as in Json and Disk), ethers' integer conversion and the order of its `BigNumber`s under
  JavaScript's `>` (as decimal strings).

## 5. Findings proved about the code

* C37: the owner can store a random for round 0 before DKG, and without a quorum (zkdvrf.sol).
* C41, C28: the circuit does not force public coordinates below q, and `createGpp` reverts on unreduced
  ones, so one member can block the setup permanently.
* C51: registration accepts non-canonical Grumpkin coordinates; then no canonical instance matches.
* C44: `load_or_create_params` returns degree-22 parameters for larger degrees, and trusts file headers.  entrypoint.sh
  downloads into the final name and only asks whether the file exists: after an interrupted download every later start fails
  (`C44_container_violation`) until somebody removes the file; the same holds of a key that was cut off, if the halo2 library
  panics on it (`C44_container_violation_key`).
* C45: clean.sh removes nothing if there is no proving key, although there may be verifying keys (`C45_clean_violation`).
* C46: a partial evaluation with a non-canonical response is accepted on-chain and makes the client's
  `combine` fail.
* C29, C80: for a few secrets no honest proof exists or the prover fails; the prover always uses the canonical representative
  of a scalar, so C80's set of failing secrets contains that of C29.
* C24: the incomplete addition gate is unsound for equal points (not reached by the circuit: C26).
* C25: scalar decomposition of variable-base `mul` is ambiguous (not used by the circuit).
* C39/C40: deposits can never be withdrawn.
* C56: the node service compares rounds as decimal strings; with t > n/2 the tenth round never completes.
* C57: the node service attaches no deposit; an outsider calling `computeVk` before the admin service, or
  one unreduced response, stops the services for good; an interval elapsing in an open round makes the
  admin's transaction revert.
* C96: a node whose evaluation is mined after its round is complete stops for good (its transaction reverts, nothing
  restarts it); in the first round this can happen to all nodes but a quorum.  While a dealing is on its way, the node
  deals again.
* C97: a restarted admin service has forgotten when the last round was opened: within an open round its first timer check
  ends it again.
* C98: a service is killed between its commands, not in the middle of one (C91 has those); a node whose registration is
  on its way is killed only if that transaction is never mined (else its key can be lost: `C91_violation_pending`).
* C99: nodes that the owner does not add have nothing to do; the group public key is whatever the owner posts, and whether
  a random is ever published is up to the owner.
* C58: the admin service configures exactly five nodes; fewer places on the contract make it fail, more
  leave the registration open forever.
* C66: zkdvrf.sol can announce a random for round 0 before the setup is finished (`C66_stray`).
* C70: the client silently runs with 3 of 5 members if one of its three variables is missing or invalid, also
  below a service whose check against the contract has passed; the start scripts of the services read the
  degree from the option for the threshold and the round interval from the option for the polling interval.
* C76: scripts/demo/random.ts ends with an error if the admin publishes before all members have submitted.
* C77: a wrong or missing verifying key address is accepted by the constructor and makes the contract useless; hex
  numbers are taken by the deployment and not by the client; the demo admin cannot be started twice.
* C73: the key embedded in contracts/Halo2Verifier-3-5-g2.sol is not that of the key contract, nor from the same setup.
* C86: `keygen -f ../dkg/gpk` replaces the global public key; `keygen` replaces an existing key pair without warning.
* C89: `derive` with an index that does not belong to the key fails after it has replaced the global public key and the
  verification keys.
* C91: a node stopped between sending its registration and its inclusion registers again after the restart with a
  new key that replaces the old one in the key file; the secret of the registered key is lost.
