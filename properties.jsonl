{"id": "C01", "title": "DKG configuration is accepted exactly when 0 < t <= n", "statement": "DkgConfig::new(t, n) returns a configuration carrying exactly (t, n) if and only if 0 < t and t <= n; otherwise it returns InvalidParams carrying the offending pair. instance_size() of an accepted configuration is 7n+14 and is what instance() produces.", "quantifier": "all thresholds t and member counts n", "why_tests_cant": "the domain is all pairs of usize; tests try a handful", "anchors": ["src/dkg.rs: DkgConfig::new, DkgConfig::instance_size"]}
{"id": "C02", "title": "Shares are the polynomial evaluated at the member indices", "statement": "For coefficients a_0..a_{t-1}, shares(n, coeffs) returns n values and the i-th (1-based) equals a_0 + a_1 i + ... + a_{t-1} i^{t-1} in the scalar field, including the specially computed first share.", "quantifier": "every non-empty coefficient vector over the BN254 scalar field and every n >= 1", "why_tests_cant": "infinitely many degrees; the field has ~2^254 elements", "anchors": ["src/dkg.rs: evaluate_poly, shares"]}
{"id": "C03", "title": "Any t partial evaluations recombine to the same group element", "statement": "Combining t values sigma_i = s_i*H, where s_i are shares of one polynomial of t coefficients and the indices are any t distinct valid indices in increasing order, returns a_0*H, whichever t members took part.", "quantifier": "every t, n (n below the field size), every polynomial, every base point, every strictly increasing index list of length t", "why_tests_cant": "the number of subsets and polynomials is astronomically large", "anchors": ["src/dkg.rs: combine_partial_evaluations"]}
{"id": "C04", "title": "Index lists are accepted exactly when strictly increasing and in range", "statement": "combine_partial_evaluations rejects an index list with a recoverable error exactly when it is not strictly increasing or has an entry outside 1..n; it panics exactly when the number of evaluations differs from the threshold; the error names the first offending position, order error before range error at that position.", "quantifier": "all lists of partial evaluations and all configurations", "why_tests_cant": "unbounded list lengths and orders", "anchors": ["src/dkg.rs: check_indices, combine_partial_evaluations"]}
{"id": "C05", "title": "Honest partial evaluations always verify", "statement": "For every share key (sk, vk = g*sk) with an index in range, every input and every random nonce, the partial evaluation it produces is accepted by PartialEval::verify under vk, whatever the hash functions return.", "quantifier": "all keys, messages, nonces and hash functions", "why_tests_cant": "randomised signing over 2^254 nonces", "anchors": ["src/dkg.rs: DkgShareKey::evaluate, PartialEval::verify"]}
{"id": "C06", "title": "Partial evaluation proofs are specially sound", "statement": "If the evaluated value is not H(x)*sk for the sk behind vk, then for any fixed commitment pair at most one challenge admits an accepting response; from two accepting transcripts with equal commitments and different challenges one computes sk with vk = g*sk and value = H(x)*sk.", "quantifier": "all keys, inputs, values, commitments, challenges and responses", "why_tests_cant": "soundness quantifies over adversarial proofs", "anchors": ["src/dkg.rs: PartialEval::verify"]}
{"id": "C07", "title": "A verified pseudorandom is the unique one for the input and key", "statement": "PseudoRandom::verify accepts (proof, value) for an input under gpk = g2*k if and only if proof = H(x)*k and value is the Keccak hash of the big-endian coordinates of proof; consequently two accepted outputs for the same input and key are identical.", "quantifier": "all inputs, keys, candidate proofs and values; every non-degenerate bilinear pairing", "why_tests_cant": "uniqueness ranges over every possible forged proof", "anchors": ["src/dkg.rs: PseudoRandom::verify"]}
{"id": "C08", "title": "End-to-end DVRF: honest setup, any quorum, one verifiable output", "statement": "After n members run DKG honestly with arbitrary coefficients, encryption randomness and key pairs, each member's derived share key passes verification against the global verification keys, every member's partial evaluation verifies, and every quorum of t members in increasing index order obtains the same output, which verifies under the global public key.", "quantifier": "every t <= n, all coefficients, nonces, member keys, inputs, hash functions and quorums", "why_tests_cant": "protocol runs over all randomness and all quorums cannot be enumerated", "anchors": ["src/lib.rs: DkgMemberParams::new, MemberKey::dkg_share_key, dkg_global_public_params", "src/dkg.rs: DkgShareKey::evaluate, DkgShareKey::verify, combine_partial_evaluations, PseudoRandom::verify"]}
{"id": "C09", "title": "Fewer than t shares reveal nothing about the secret", "statement": "For any t-1 (or fewer) distinct member indices, any observed share values at those indices and any candidate secret, there is a polynomial of t coefficients with that secret producing those shares; with exactly t-1 indices it is unique, so every secret is equally likely.", "quantifier": "all index sets of size < t, all share values, all candidate secrets", "why_tests_cant": "information-theoretic secrecy quantifies over all secrets", "anchors": ["src/dkg.rs: shares"]}
{"id": "C10", "title": "Share encryption round-trips for the addressed member", "statement": "A cipher made for public key pk = gg*sk with encryption randomness r decrypts under sk and the published gg*r to exactly the share; decrypting with any other key yields the share iff the derived masks coincide.", "quantifier": "all keys, randomness and shares; any mask hash", "why_tests_cant": "2^508 key/randomness pairs", "anchors": ["src/lib.rs: DkgMemberParams::new, MemberKey::decrypt_share"]}
{"id": "C11", "title": "Member index lookup", "statement": "MemberKey::index returns 1 + the first position of the member's public key in the list, and None exactly when the key is absent; when keys are pairwise distinct the member at position i gets exactly i+1.", "quantifier": "all key lists and keys", "why_tests_cant": "all list lengths and duplicate patterns", "anchors": ["src/lib.rs: MemberKey::index"]}
{"id": "C12", "title": "A derived share key always matches the aggregated verification key of valid parameters", "statement": "If every member's public parameters encrypt, at position i, a share whose public commitment is the i-th public share, then the share key derived by member i satisfies DkgShareKey::verify against the aggregated verification keys, and an index outside 1..n is rejected with InvalidIndex before any decryption.", "quantifier": "all member counts, parameters and indices", "why_tests_cant": "arbitrary number of members and adversarially chosen parameters", "anchors": ["src/lib.rs: MemberKey::dkg_share_key, dkg_global_public_params", "src/dkg.rs: DkgShareKey::verify"]}
{"id": "C13", "title": "Public instance layout and lossless parsing", "statement": "The public instance has length 7n+14; from_instance applied to the instance of any parameters with n public shares, n ciphers and n finite keys returns exactly those parameters and keys; from_instance panics on any other length.", "quantifier": "all n, all curve points and ciphers", "why_tests_cant": "every layout position for every n", "anchors": ["src/lib.rs: DkgMemberPublicParams::instance, DkgMemberPublicParams::from_instance", "src/utils.rs: point_to_public, public_to_point, point2_to_public, public_to_point2"]}
{"id": "C14", "title": "Limb encoding of base-field coordinates is lossless and canonical", "statement": "Every BN254 base-field coordinate splits into two scalar-field elements (136 low bits, high bits) that never wrap modulo the scalar field, and recombining gives the coordinate back; different points give different public data.", "quantifier": "all coordinates below q", "why_tests_cant": "2^254 coordinates", "anchors": ["src/utils.rs: point_to_public, public_to_point", "src/lib.rs: BIT_LEN_LIMB, NUMBER_OF_LIMBS, WRAP_LEN"]}
{"id": "C15", "title": "The contract computes the same global parameters as the library", "statement": "For instances produced by the library for members' parameters, the contract's createGpp accepts exactly the G2 key whose exponent equals that of the summed g*a, never reverts by arithmetic overflow on them, and returns the same verification keys as dkg_global_public_params.", "quantifier": "all n, all member parameters, all candidate group keys", "why_tests_cant": "agreement between two implementations over all inputs", "anchors": ["contracts/GlobalPublicParams.sol: readBnG1, createGpp", "src/lib.rs: dkg_global_public_params"]}
{"id": "C16", "title": "Submitted parameters are bound to the registered key list", "statement": "checkPublicParams accepts a parameter vector exactly when all keys are registered, its length is 7n+14 and its last 2n entries are the registered public keys in registration order, and this is precisely where the library's instance() puts the keys and the client reads them.", "quantifier": "all key lists and parameter vectors", "why_tests_cant": "all vectors of all lengths", "anchors": ["contracts/zkdvrf.sol: checkPublicParams", "src/lib.rs: instance", "bin/client.rs: public_keys"]}
{"id": "C17", "title": "Hex key files round-trip and reject non-canonical data", "statement": "Writing a scalar or point to its hex form and reading it back returns it; reading accepts exactly strings that decode to a canonical field element (and a point on the curve), and a member key file whose public key is not generator*secret is refused.", "quantifier": "all scalars, points and strings", "why_tests_cant": "all byte strings", "anchors": ["bin/serialise.rs: le_bytes_to_hex, hex_to_le_bytes"]}
{"id": "C18", "title": "Hash-to-curve is total and lands on the curve", "statement": "For every field element t (including 0 and the exceptional values with t^2 = -4) the map returns a point satisfying y^2 = x^3 + 3, so hashing any message succeeds and yields a curve point; the sign of y follows the sign of t.", "quantifier": "all 2^254 field elements, all messages, all hash functions", "why_tests_cant": "existence of a square root for at least one candidate must hold for every t", "anchors": ["src/hash_to_curve_evm.rs: map_to_curve_evm, hash_to_curve_evm"]}
{"id": "C19", "title": "On-chain and off-chain hash-to-curve agree", "statement": "For every domain and message, the contract's hashToG1 returns the affine coordinates of the point computed by the Rust hash_to_curve_evm, and never reverts.", "quantifier": "all messages and domains, any 256-bit hash", "why_tests_cant": "two independent implementations over all inputs", "anchors": ["contracts/libs/Hash.sol: hashToField, mapToG1, hashToG1", "src/hash_to_curve_evm.rs"]}
{"id": "C20", "title": "Addition chains compute the claimed powers", "statement": "ModexpInverse.run(x) equals x^(q-2) mod q and ModexpSqrt.run(x) equals x^((q+1)/4) mod q; hence the first is the inverse of every nonzero x (and 0 for 0), the second squares back to x exactly when x is a square.", "quantifier": "all 256-bit inputs x", "why_tests_cant": "a wrong step in a ~250 step chain can be invisible to few tests; input space 2^256", "anchors": ["contracts/libs/ModExp.sol: ModexpInverse.run, ModexpSqrt.run"]}
{"id": "C21", "title": "On-chain and off-chain partial evaluation checks agree", "statement": "The contract's verifyPartialEval (and the precomputed variant given the right hash point) returns true on a partial evaluation with canonical coordinates exactly when Rust PartialEval::verify accepts it with an in-range index, with challenge and response reduced; the hashed transcript bytes are identical.", "quantifier": "all points, responses, challenges, messages and hash functions", "why_tests_cant": "byte-for-byte transcript agreement over all inputs", "anchors": ["contracts/PseudoRand.sol: verifyPartialEval, verifyPartialEvalFast", "src/dkg.rs: PartialEval::verify"]}
{"id": "C22", "title": "On-chain and off-chain pseudorandom checks agree", "statement": "The contract accepts a pseudorandom for a round input exactly when PseudoRandom::verify accepts it for the same input and group key (given points in the right groups), and the stored value is the Keccak hash of x||y in big-endian.", "quantifier": "all inputs, proofs, values and keys", "why_tests_cant": "two implementations, all inputs", "anchors": ["contracts/PseudoRand.sol: verifyPseudoRand", "contracts/zkdvrf.sol: submitRandom", "src/dkg.rs: PseudoRandom::verify"]}
{"id": "C23", "title": "Transcript and message framing is unambiguous", "statement": "Different (domain, message) pairs give different byte strings to the first hash, and different transcripts (h, r1, r2, vk, sigma) give different byte strings to the challenge hash.", "quantifier": "all byte strings and points", "why_tests_cant": "injectivity is a statement about all pairs", "anchors": ["src/hash_to_curve_evm.rs: hash_to_field_evm", "src/dkg.rs: PartialEval::verify", "contracts/libs/Hash.sol: hashToField"]}
{"id": "C24", "title": "Grumpkin circuit operations are sound", "statement": "Any witness satisfying the add, double, select and negate gates on curve points encodes the curve group operation on the inputs; no assignment with a wrong result satisfies the constraints.", "quantifier": "all field assignments to the witness cells", "why_tests_cant": "malicious prover: all 2^254 values per cell", "anchors": ["src/grumpkin_chip/add.rs", "src/grumpkin_chip.rs"]}
{"id": "C25", "title": "Grumpkin variable-base multiplication is sound for every auxiliary point", "statement": "Whenever the mul_bits constraints are satisfied with boolean bits, an on-curve base and an on-curve auxiliary point, the result is the base multiplied by the integer with those bits, whatever auxiliary point the prover chose.", "quantifier": "all bases, bit lists of any length and auxiliary points", "why_tests_cant": "malicious prover chooses the auxiliary point", "anchors": ["src/grumpkin_chip/mul.rs: mul_bits"]}
{"id": "C26", "title": "Window multiplication table and selection", "statement": "For window size w >= 2 the fixed-base tables, window decomposition and multi-selection compute scalar*base for every scalar, using the incomplete addition only on points with different x coordinate, so the incomplete formulas are always correct.", "quantifier": "all scalars, all w >= 2, every base point of prime order, every auxiliary point", "why_tests_cant": "2^254 scalars; a collision would hit a single scalar", "anchors": ["src/ecc_chip.rs", "src/ecc_chip/point_base_chip.rs", "src/ecc_chip/point2_base_chip.rs"]}
{"id": "C27", "title": "Quadratic extension arithmetic in the circuit is exact", "statement": "The circuit's mul, square, inverse-style division and add/sub/neg on pairs agree with arithmetic in Fq[u]/(u^2+1), and division constraints admit a witness exactly when the denominator is nonzero.", "quantifier": "all pairs of base-field elements", "why_tests_cant": "2^1016 inputs", "anchors": ["src/ecc_chip/integer2.rs"]}
{"id": "C28", "title": "DKG circuit soundness: an accepted instance is a well-formed dealing", "statement": "If any witness satisfies the DKG circuit for a public instance, there are coefficients a_0..a_{t-1} and an integer r such that the instance's group elements are g*a_0, g2*a_0, g*f(i), gg*r, and its i-th cipher is f(i) plus the Poseidon mask of pk_i*r; so every member with key pk_i decrypts exactly f(i).", "quantifier": "all instances and all satisfying witnesses, all n and t", "why_tests_cant": "a malicious prover may use any witness", "anchors": ["src/dkg_circuit.rs: DkgCircuit::synthesize"]}
{"id": "C29", "title": "DKG circuit completeness: honest parameters can be proved", "statement": "The instance computed from honest parameters satisfies the circuit for some witness whenever the encryption randomness is nonzero mod the Grumpkin order, the keys are finite and the auxiliary point avoids the finitely many bad multiples; in particular soundness is not vacuous.", "quantifier": "all honest parameters", "why_tests_cant": "all randomness", "anchors": ["src/dkg_circuit.rs: DkgCircuit::synthesize", "src/lib.rs: DkgMemberParams::circuit"]}
{"id": "C30", "title": "Contract phases only move forward, one step at a time", "statement": "In every history of calls the phase moves Unregistered -> Nidkg -> NidkgComplete -> Ready without skipping or going back, and each step happens only through its own entry point with its guard satisfied.", "quantifier": "all call sequences by all callers from any deployment", "why_tests_cant": "unbounded histories and adversarial interleavings", "anchors": ["contracts/zkdvrf.sol", "contracts/zkdvrf_pre.sol"]}
{"id": "C31", "title": "Registration is permissioned, once per node, and indexes nodes injectively", "statement": "Only addresses added by the owner can register, each at most once, at most memberCount in total; registered nodes hold distinct consecutive key indices and the key list entry at a node's index is the key that node submitted; once DKG has started every added node is registered, so no unregistered node can act with the default index 0.", "quantifier": "all call sequences", "why_tests_cant": "unbounded histories", "anchors": ["contracts/zkdvrf.sol: addPermissionedNodes, registerNode, startNidkg"]}
{"id": "C32", "title": "Each node contributes public parameters exactly once and none is dropped", "statement": "When the DKG phase completes, exactly memberCount verified parameter vectors are stored, one from each registered node, and each passed the proof check against the registered keys; they never change afterwards.", "quantifier": "all call sequences", "why_tests_cant": "unbounded histories", "anchors": ["contracts/zkdvrf.sol: submitPublicParams"]}
{"id": "C33", "title": "Group key and verification keys are fixed once and consistent with the submissions", "statement": "From Ready onwards the verification keys and group key are those createGpp computed from the full list of submissions, they are written at most once, and nobody can change them.", "quantifier": "all call sequences", "why_tests_cant": "unbounded histories", "anchors": ["contracts/zkdvrf.sol: computeVk"]}
{"id": "C34", "title": "Rounds advance one by one and only after the previous random exists", "statement": "The round number only increases, by one, by the owner, in phase Ready, and every round below the current one (from 1) has a stored random; the input of round k is the fixed prefix followed by the decimal form of k, hence inputs of different rounds differ.", "quantifier": "all call sequences, all rounds", "why_tests_cant": "unbounded number of rounds", "anchors": ["contracts/zkdvrf.sol: initiateRandom"]}
{"id": "C35", "title": "One verified partial evaluation per node and round", "statement": "Every stored partial evaluation verified for its round's input under the verification key of the node's index, its index field matches, each node has at most one per round, the submission count of a round equals the number of distinct stored evaluations and never exceeds the member count.", "quantifier": "all call sequences", "why_tests_cant": "unbounded histories and replays", "anchors": ["contracts/zkdvrf.sol: submitPartialEval"]}
{"id": "C36", "title": "Randoms are write-once and verified", "statement": "A stored random with nonzero value never changes; it was submitted by the owner, passed the pairing check for that round's input under the stored group key and its value is the hash of its proof.", "quantifier": "all call sequences", "why_tests_cant": "unbounded histories", "anchors": ["contracts/zkdvrf.sol: submitRandom, getRandomAtRound, getLatestRandom"]}
{"id": "C37", "title": "A random requires a quorum and an opened round", "statement": "A random is stored for a round only if the round was opened in phase Ready and at least threshold partial evaluations were recorded on-chain for it. (Holds for zkdvrf_pre for rounds when threshold >= 1; violated by zkdvrf, where the owner can store a random for round 0 before setup and without any partial evaluation.)", "quantifier": "all call sequences", "why_tests_cant": "requires finding or excluding a counterexample history", "anchors": ["contracts/zkdvrf.sol: submitRandom", "contracts/zkdvrf_pre.sol: submitRandom"]}
{"id": "C38", "title": "Reads return stored verified randoms or revert", "statement": "getRandomAtRound(k) returns exactly the stored random of round k or reverts; getLatestRandom, once any round is open, returns the random of the latest completed round and reverts exactly when none is completed.", "quantifier": "all reachable states", "why_tests_cant": "all histories", "anchors": ["contracts/zkdvrf.sol: getLatestRandom, getRandomAtRound"]}
{"id": "C39", "title": "Only the owner and the permitted nodes can change state; failed calls change nothing", "statement": "A call by an address that is neither owner nor an added node changes no state except finalising computeVk with the unique valid key; a reverted call leaves the state unchanged; the owner changes only through ownership transfer by the owner.", "quantifier": "all states and callers", "why_tests_cant": "all callers and histories", "anchors": ["contracts/zkdvrf.sol"]}
{"id": "C40", "title": "Deposits are accounted for", "statement": "The contract's balance equals the sum of recorded deposits of registered nodes, each at least the minimum; no call ever decreases the balance.", "quantifier": "all call sequences", "why_tests_cant": "unbounded histories", "anchors": ["contracts/zkdvrf.sol: registerNode"]}
{"id": "C41", "title": "On-chain setup can always be completed by honest parties", "statement": "From any reachable state in registration with capacity left, there are calls by the owner and the members leading to Ready, and from Ready every round can be completed by t honest nodes and the owner, irrespective of which partial evaluations were already accepted.", "quantifier": "all reachable states", "why_tests_cant": "liveness from every reachable state", "anchors": ["contracts/zkdvrf.sol", "services/admin.ts", "services/node.ts"]}
{"id": "C42", "title": "Lottery: winner is a player, order is a permutation, entries close before the random is known", "statement": "pickWinner shuffles the players by a permutation, pays the whole balance to a player who entered, once; nobody can enter once the chosen round has been opened; each address enters at most once and pays at least the minimum bet.", "quantifier": "all call sequences, all random values", "why_tests_cant": "all histories and hash outputs", "anchors": ["contracts/lottery.sol"]}
{"id": "C43", "title": "Lottery shuffle reaches every permutation exactly once", "statement": "The map from swap choices (j_i <= i) to the resulting order is a bijection onto all permutations, so uniform independent choices give a uniform order.", "quantifier": "all numbers of players and all choice vectors", "why_tests_cant": "n! permutations for every n", "anchors": ["contracts/lottery.sol: shuffle"]}
{"id": "C44", "title": "Cached parameter files have the requested size", "statement": "load_or_create_params(dir, degree) yields parameters of exactly the requested degree whether or not a file was cached, and a file of the wrong length is rejected. (Violated for degree > 22 on a cache miss: degree-22 parameters are returned.) The start script of the init container completes for (threshold, members, degree) only if the volume then has the parameters of exactly this degree and the proving key of exactly this configuration, which the client then gets without writing; while nobody removes them, the file health_check_* that announces them can be trusted at any time, after any stopped or failed runs. From then on the client and the script only read the volume, which the nodes share, for this configuration and degree (while no parameters or keys are removed). (Violated in the other direction: a download that breaks off leaves a partial file under the final name, and from then on every run for this degree fails.)", "quantifier": "all degrees, all initial directory contents; all histories of the container's volume: any configurations, degrees, broken downloads, stops in the middle of a write, removals", "why_tests_cant": "all directory states", "anchors": ["src/utils.rs: load_or_create_params, load_params", "entrypoint.sh", "bin/client.rs: setup"]}
{"id": "C45", "title": "Key cache files never collide and survive repeated runs", "statement": "Cached proving/verifying keys of different (t, n, degree) live under different file names; creating and then loading again returns the key created; a crash in the middle of writing parameters is detected on the next load; and `client setup` for (t, n, degree) writes verifier contracts that are the generator's output for that degree's parameters, that configuration's verifying key and 7n+14 public inputs, under names that no other (t, n, degree) and no cached file has, so that whatever was run, failed or was stopped before, the contract of a configuration is absent, a beginning of the right text, or the right text, and never another configuration's. The contract fits the proving and verifying keys that clients on any other machines have, whatever happened there. When clean.sh succeeds no cached key is left and everything else is as before; with a complete download of the parameters it repairs any cache that has no other parameter files.", "quantifier": "all configurations, degrees, cache states, histories of commands and crash points", "why_tests_cant": "all pairs of configurations and crash points", "anchors": ["src/utils.rs: load_or_create_vk, load_or_create_pk", "bin/client.rs: setup, save_solidity", "clean.sh, download_params.sh"]}
{"id": "C46", "title": "Client combine uses exactly t verified evaluations", "statement": "The client's combine step drops unverifiable evaluations, fails if fewer than t remain, otherwise uses the first t valid ones and outputs only values that verify under the group key; with evaluations collected in index order from any set containing t honest ones it succeeds and the output does not depend on which were supplied.", "quantifier": "all lists of evaluations including adversarial ones", "why_tests_cant": "all adversarial inputs", "anchors": ["bin/client.rs: rand combine", "services/admin.ts: createRandom"]}
{"id": "C47", "title": "Poseidon permutation is a permutation and its circuit linear layer is consistent", "statement": "The MDS matrix used by the share-encryption hash is invertible with the listed inverse, and the permutation is a bijection on states.", "quantifier": "all states in F^3", "why_tests_cant": "2^762 states", "anchors": ["src/poseidon.rs", "src/poseidon/bn256.rs"]}
{"id": "C48", "title": "Grumpkin hash-to-curve is total and on the curve", "statement": "The SvdW map used to derive auxiliary points returns a Grumpkin curve point for every field element.", "quantifier": "all field elements", "why_tests_cant": "all field elements", "anchors": ["src/hash_to_curve.rs: svdw_map_to_curve"]}
{"id": "C49", "title": "The groups have the claimed prime orders", "statement": "The BN254 curve y^2 = x^3+3 over Fq has exactly r points and the Grumpkin curve y^2 = x^3-17 over Fr exactly q points, r and q prime; hence every scalar multiplication is well defined modulo the scalar field and no point other than infinity has y = 0.", "quantifier": "all curve points", "why_tests_cant": "2^254 points", "anchors": ["src/lib.rs: BnScalar, GkScalar, BnG1, GkG1", "contracts/libs/Pairing.sol", "contracts/libs/Grumpkin.sol"]}
{"id": "C50", "title": "Discrete-log equality check between ga and g2a", "statement": "check_public accepts exactly when ga and g2a have the same exponent; so aggregated parameters built from accepted ones are accepted as well.", "quantifier": "all pairs of group elements", "why_tests_cant": "all pairs", "anchors": ["src/dkg.rs: is_dl_equal", "src/lib.rs: DkgMemberPublicParams::check_public, DkgGlobalPubParams::check_public"]}
{"id": "C51", "title": "On-chain Grumpkin key check", "statement": "registerNode's key check accepts exactly the pairs whose reductions modulo the scalar field satisfy y^2 = x^3 - 17; for canonical coordinates these are exactly the finite curve points. (It also accepts non-canonical coordinates; then no parameter vector from a proof system with canonical instances can match.)", "quantifier": "all pairs of 256-bit words", "why_tests_cant": "2^512 inputs", "anchors": ["contracts/libs/Grumpkin.sol: isOnCurve", "contracts/zkdvrf.sol: registerNode"]}
{"id": "C52", "title": "derive on the downloaded parameters gives one consistent key set", "statement": "In phase NidkgComplete or Ready, the client's derive command applied to the parameter vectors stored on-chain succeeds for every registered node; all nodes get the same group key and verification keys, which are the values of one polynomial of threshold coefficients, equal to the keys stored by the contract, and each node's share file reads back as the value of that polynomial at its own index. Whatever member file and index it is given, a share that it writes is the secret of the verification key at that index.", "quantifier": "every reachable contract history in which accepted proofs are backed by satisfied circuits, every registered node and secret key", "why_tests_cant": "needs all DKG histories, all dealings (including malicious ones) and all keys", "anchors": ["bin/client.rs: Commands::Dkg derive", "services/node.ts", "services/admin.ts", "contracts/zkdvrf.sol: ppList, getPkList"]}
{"id": "C53", "title": "computeVk accepts the client's group key exactly when all coordinates are reduced", "statement": "In phase NidkgComplete the group key the client derives is accepted by computeVk if and only if every stored parameter vector has its curve coordinates below the base modulus; then the contract becomes Ready with that group key and with the verification keys of the client's file.", "quantifier": "every reachable contract history in phase NidkgComplete, every caller", "why_tests_cant": "must hold for every accepted set of parameter vectors", "anchors": ["bin/client.rs: derive", "services/admin.ts: computeVk", "contracts/zkdvrf.sol: computeVk", "contracts/GlobalPublicParams.sol: createGpp"]}
{"id": "C54", "title": "The node's command pipeline is accepted by the contract at each stage", "statement": "The key file written by keygen registers exactly when its secret is nonzero; the key list file written by the service reads back as the registered keys; the output of prove is accepted by the client's own verify and by submitPublicParams; the evaluation file written by eval is accepted by the client's verify and by submitPartialEval and is stored unchanged.", "quantifier": "all secrets, random draws, indices, member lists and contract histories, given a complete proof system", "why_tests_cant": "all keys, random draws and histories", "anchors": ["bin/client.rs: keygen, prove, verify, eval", "services/node.ts", "contracts/zkdvrf.sol: registerNode, submitPublicParams, submitPartialEval"]}
{"id": "C55", "title": "Honest services never fail and complete the rounds", "statement": "Start the node and admin services on a contract (zkdvrf_pre.sol) that has just been set up for them (nodes added, none registered, no deposit). With a proof system that works and good random draws, whatever the order of their passes, every pass either finds nothing to do or makes a transaction the contract accepts; rounds 1..K are complete exactly from 2n+2+K(t+2) transactions on, and the number of transactions determines the stage of the contract; and as long as one of the rounds 1..9 is not complete some service makes a transaction.", "quantifier": "every interleaving of passes of the services, all thresholds t and member counts n with 1<=t<=n, all good draws, every deployment and hash function", "why_tests_cant": "the number of interleavings of services is unbounded", "anchors": ["services/node.ts: _start, registerNode, submitPP, nidkgDerive, submitPartialEval", "services/admin.ts: _start, createGpp, createRandom", "contracts/zkdvrf_pre.sol"]}
{"id": "C56", "title": "The node service's comparison of rounds", "statement": "The node service decides whether to submit by comparing two ethers BigNumbers with the operator >, which compares their decimal strings. This agrees with the numerical order for rounds 1 to 9; no member ever has evaluations stored for both the ninth and the tenth round; and if the threshold is more than half of the members, the services never complete the tenth round.", "quantifier": "every interleaving of service passes, every transaction of anybody outside the committee, every randomness", "why_tests_cant": "the failure appears only after ten rounds and is about all continuations", "anchors": ["services/node.ts:117", "package.json: ethers", "contracts/zkdvrf_pre.sol: submitPartialEval"]}
{"id": "C57", "title": "Where the services stop", "statement": "The services do not recover from any of these: (a) a contract that asks for a deposit: the node service attaches none and never registers; (b) an admin service that has no key files once the contract is ready, for example because somebody else made the call computeVk first: it never makes the files and no round is completed; (c) an evaluation stored with a response that is not reduced modulo the group order, which the contract accepts from any member: the open round is never completed; (d) an interval that elapses while a round is open: the admin's transaction reverts.", "quantifier": "every later interleaving of passes of all services, with all randomness, and of transactions by anybody outside the committee; every contract, deployment and hash function", "why_tests_cant": "the claim is that no continuation whatsoever makes progress", "anchors": ["services/node.ts: registerNode", "services/admin.ts: createGpp, createRandom, initiateRand", "contracts/zkdvrf_pre.sol: computeVk, submitPartialEval"]}
{"id": "C58", "title": "Start of the admin service", "statement": "The admin service gets past its start exactly if its wallet owns the contract and either all places for nodes are taken or no configured node address is zero and the configured nodes fit beside those added before. If places are free it then adds exactly the missing configured nodes and changes nothing else. On a newly deployed contract for as many members as wallets are configured this leads to the state in which honest services succeed; with more members than configured nodes the registration never ends.", "quantifier": "every reachable state of zkdvrf_pre.sol, every list of configured addresses (with repetitions), every admin wallet", "why_tests_cant": "all states of the contract and all configurations", "anchors": ["services/admin.ts: _start", "contracts/zkdvrf_pre.sol: addPermissionedNodes"]}
{"id": "C59", "title": "What the on-chain verifier reads", "statement": "The verifier contract either reverts or answers true. With a well-formed verifying key it accepts only a proof of exactly 4480 bytes that encodes exactly one proof (29 commitments, 78 values below the group order, 2 opening points, no commitment at infinity) together with exactly as many public inputs, all below the group order, as the key says. The key contract of the repository is well formed (32 commitments on the curve, group generators, a point of the right order in G2, a root of unity of order 2^18) and asks for 49 public inputs, so a DKG contract deployed with it stores public parameters only if it has five members.", "quantifier": "all calls, all proofs and instance lists, every pairing, hash, key; every history of the contract", "why_tests_cant": "quantifies over all byte strings that could be submitted", "anchors": ["contracts/Halo2Verifier.sol: verifyProof, read_ec_point", "contracts/Halo2VerifyingKey-3-5-18-g2.sol", "contracts/zkdvrf.sol:144", "scripts/deploy.ts:26"]}
{"id": "C60", "title": "Challenges bind the transcript", "statement": "Every challenge the on-chain verifier derives is determined by, and determines (unless a collision of keccak at the same position of the transcript is exhibited), the digest of the key, all public inputs and every part of the proof sent before that challenge; the last challenge covers all words of the proof but the last point.", "quantifier": "all keys, public inputs and proofs, every hash function, each of the eight challenges", "why_tests_cant": "a claim about all pairs of transcripts", "anchors": ["contracts/Halo2Verifier.sol: squeeze_challenge, squeeze_challenge_cont"]}
{"id": "C61", "title": "Public inputs enter through their interpolation polynomial", "statement": "The value the verifier uses for the public inputs is the value, at the challenge point, of the polynomial of degree below 2^k with the public inputs as its values in the first rows of the evaluation domain and 0 in the others.", "quantifier": "all keys, all public inputs, all evaluation points off the domain", "why_tests_cant": "all field elements and all instance vectors", "anchors": ["contracts/Halo2Verifier.sol: Lagrange evaluations and instance evaluation"]}
{"id": "C62", "title": "The gates of the verifier are those of the chips", "statement": "The gate constraints the on-chain verifier evaluates are: the equation of a row of the main gate with coefficients in fixed columns, the full round, the pair of partial rounds and the absorption of Poseidon with its matrix and its inverse and the round constants in fixed columns; each of the Poseidon gates is void in rows where its selector is zero.", "quantifier": "all rows and all values of cells", "why_tests_cant": "all field elements", "anchors": ["contracts/Halo2Verifier.sol: quotient evaluation", "src/dkg_circuit.rs: configure", "src/poseidon/bn256.rs"]}
{"id": "C63", "title": "The verifier computes the verification equation", "statement": "On a well-formed proof the EVM code of the verifier accepts exactly if the PLONK/SHPLONK verification equation holds: 43 constraints (11 gate constraints, 7 of the permutation argument over 9 columns, 25 of 5 lookups) combined with powers of y and divided by the vanishing polynomial give the value of the quotient; the commitments, grouped into five sets by the points at which they are opened, combined with powers of zeta and nu, satisfy the pairing equation of the multi-point opening. The only proviso is that the evaluation point is not a row and the last challenge not one of the points opened.", "quantifier": "all keys, proofs, public inputs, pairings and hash functions", "why_tests_cant": "a statement about the full input space of 1500 lines of assembly", "anchors": ["contracts/Halo2Verifier.sol: verifyProof"]}
{"id": "C64", "title": "Soundness of the on-chain verifier", "statement": "If the verifier contract accepts a proof whose points are commitments to polynomials the prover knows (of at most the degree of the setup), then the prover's columns satisfy the constraint system of the key with the public inputs passed: every gate in every row, every copy constraint of the permutation polynomials, every lookup. The exceptions: one of the eight challenges lies in a small set that depends only on what was hashed before it, or the prover has a nonzero polynomial with the secret of the setup as a root. For an interactive prover the exceptional challenges have probability below 2^-229 with the key of the repository.", "quantifier": "all keys, secrets, public inputs, hash functions, pairings, provers and strategies", "why_tests_cant": "a statement about every possible cheating prover and every challenge", "anchors": ["contracts/Halo2Verifier.sol: verifyProof", "contracts/Halo2VerifyingKey.sol"]}
{"id": "C65", "title": "Completeness of the on-chain verifier", "statement": "Whoever has columns that satisfy the constraint system of the key with the public inputs can prove it, with any blinding of the unused rows, without knowing the secret of the setup and with polynomials of degree less than the number of rows only: the proof with the challenges of its own transcript is accepted by the verifier contract, unless the evaluation point is zero or a row, the opening point is one of the four points already used, a denominator of the products is zero (at most 5u values of beta and 10u of gamma, u the number of usable rows), or a commitment is the point at infinity. Together with soundness: columns satisfy the constraint system if and only if some prover that begins with them answers more than a negligible part of the challenges.", "quantifier": "all keys whose permutation polynomials are permuted labels, secrets, public inputs, satisfying columns, blindings, hash functions, pairings and challenges", "why_tests_cant": "a statement about every satisfying assignment and every challenge; a test proves one circuit once", "anchors": ["contracts/Halo2Verifier.sol: verifyProof", "contracts/Halo2VerifyingKey.sol"]}
{"id": "C66", "title": "Event log of the contract", "statement": "Users that follow only the events of the randomness contract see a faithful, ordered log. Every event occurs at most once, and events occur in the order of the protocol: registration completed, DKG started, DKG completed, parameters created, then for each round in turn initiated, threshold reached, ready. The log determines the state and conversely: each of the seven kinds of event is in the log exactly when the corresponding fact holds (all members registered; DKG started; all dealings in; keys computed; round k opened with its input; at least threshold members evaluated round k; random of round k stored). Each event is preceded by its cause. The one exception is in zkdvrf.sol: before the setup is finished the owner can make the contract announce a random for round 0, out of order and without a quorum; the variant with precomputed hashes and a positive threshold has no exception. With no members the completion events never occur, with threshold 0 the threshold event never does.", "quantifier": "all histories of transactions by anyone from deployment, both contract variants", "why_tests_cant": "an order and exactness claim over all interleavings and all prefixes of a history", "anchors": ["contracts/zkdvrf.sol: RegistrationCompleted, NidkgStarted, NidkgCompleted, GlobalPublicParamsCreated, RandomInitiated, RandomThresholdReached, RandomReady", "contracts/zkdvrf_pre.sol"]}
{"id": "C67", "title": "The demo admin follows the events", "statement": "The event handlers of the demo admin script keep the protocol going: at any time after an event whose successor is missing, whatever other transactions happened since, the transaction that the owner's handler sends is accepted and emits the successor (start of the DKG, creation of parameters when all submitted coordinates are reduced, opening of the first and of the next round, publication of the random from the stored evaluations of honest members). A repeated or late event does no harm: when the successor is in the log, the handler's transaction is rejected.", "quantifier": "all histories of the contract and all delays of the handlers", "why_tests_cant": "any number of foreign transactions may come between an event and its handler", "anchors": ["scripts/demo/admin.ts", "contracts/zkdvrf_pre.sol"]}
{"id": "C68", "title": "The lottery scripts follow the events", "statement": "In an open lottery with players, the owner's draw works exactly when the event announcing the random of the chosen round is in the log; without it nobody can draw; the administrator's script sends the draw on this event only. A bet is accepted only while no event of the chosen round is in the log. The players' script enters every configured player that is not yet in, in order, once each, for exactly the announced minimum bet, if the round is not open.", "quantifier": "all histories of the randomness contract and the lottery; all lists of players", "why_tests_cant": "quantifies over all interleavings of the two contracts", "anchors": ["scripts/lottery/admin.ts", "scripts/lottery/play.ts", "contracts/lottery.sol"]}
{"id": "C69", "title": "The mock command equals a run of the real commands", "statement": "For 0 < t <= n < 2^64, all drawn values with finite points, every input and every previous content of the data directory, `mock --mem --dkg --rand input` succeeds, in one command or in three, and its files are those of a run of the other commands: keys as from `keygen`, instances as from `dkg prove`, group key, verification keys and shares as from `dkg derive` for every member, evaluations as from `rand eval` and accepted by `rand verify`, the pseudorandom as from `rand combine` and accepted by `rand verify-final`; all are given by the sum F of the drawn polynomials. On an arbitrary directory `mock --dkg` succeeds exactly if every member file holds a secret with its public key, and whenever `mock --rand` succeeds its output verifies under the group key in the directory. Missing files are reported.", "quantifier": "all thresholds, sizes, draws, inputs and contents of the directory", "why_tests_cant": "the test suite runs a few random configurations only", "anchors": ["bin/mock.rs", "bin/client.rs"]}
{"id": "C70", "title": "Configuration of client and services", "statement": "The client runs with threshold t, n members and degree d exactly as given by three environment variables when all are decimal numerals below 2^32 and 0 < t <= n; it refuses if 0 < t <= n fails; if any of the three is missing or invalid it ignores all of them and uses 3, 5 and 18. A command started by a service uses the options of the service, whatever environment it inherits, so after the check against the contract it runs with the contract's threshold and size; but (violations) without a degree the check still passes and the commands run with 3 of 5, the command line option for the threshold also sets the degree, and the option for the polling interval also sets the interval between rounds.", "quantifier": "all environments, option values and contract states", "why_tests_cant": "all strings as values of the variables", "anchors": ["bin/client.rs main", "services/exec/run.ts", "services/exec/runNode.ts", "services/admin.ts check_config", "services/node.ts check_config"]}
{"id": "C71", "title": "One honest member makes the group key and the outputs uniform", "statement": "Fix all secret keys, the draws of all members but one and a coalition of fewer than t members. For all values of the shares that the coalition decrypts from the remaining member's dealing and for every k, exactly r^(t-1-|S|) of the coefficient vectors of that member produce these shares and the group key k*g2: the number does not depend on k. So the group secret is uniform as soon as one member draws its coefficients at random, also given fewer than t of its shares; and so is, for every input with non-zero hash, the proof point of the unique output that verifies under the group key.", "quantifier": "all thresholds, sizes, keys, draws of the other members (which may depend on everything but the honest draw), coalitions, observed shares, group keys, inputs and outputs", "why_tests_cant": "counts over r^t coefficient vectors", "anchors": ["src/dkg.rs shares, DkgMemberParams::new", "src/lib.rs dkg_global_public_params", "src/dkg.rs PseudoRandom::verify"]}
{"id": "C72", "title": "Evaluation proofs reveal nothing, and nonces must not be reused", "statement": "For a key whose verification key belongs to its secret, every input and every hash value w, there is a bijection between responses z and nonces such that the key with that nonce, under a hash that maps the transcript determined by (w, z) to w, queries exactly this transcript and returns exactly the proof (z, w mod r): a simulator that knows only the verification key and the value produces the same proofs. Two evaluations with the same nonce and different challenges determine the secret as (z - z')/(c - c').", "quantifier": "all keys, inputs, hash functions, hash values, nonces", "why_tests_cant": "a bijection of all nonces and responses", "anchors": ["src/dkg.rs: DkgShareKey::evaluate"]}
{"id": "C73", "title": "The stand-alone verifier contract", "statement": "The verifier contract with an embedded key answers every call verifyProof(proof, instances) exactly as the verifier with a separate key contract holding the embedded key; it accepts only one well-formed proof with 49 reduced inputs per acceptance, never answers false, and decides the verifier equation of the protocol for its key. The embedded key is well formed. (Violation) it is not the key of the deployed key contract, nor from the same setup: digest, setup point and all commitments differ, so the two contracts verify different statements.", "quantifier": "all proofs, instances, selectors and key addresses", "why_tests_cant": "all byte strings as proofs; the contract is not used by any test", "anchors": ["contracts/Halo2Verifier-3-5-g2.sol", "contracts/Halo2Verifier.sol", "contracts/Halo2VerifyingKey-3-5-18-g2.sol"]}
{"id": "C74", "title": "The build without the G2 circuit", "statement": "In the library built without the feature g2chip: if the instance rebuilt from published parameters and the registered keys satisfies the circuit and check_public accepts the parameters (g2a in the prime-order group), then the parameters are those of a dealing with the same f(0) in both groups, public shares f(i) and ciphers each member decrypts to its share; the circuit accepts exactly the encodings of such dealings without g2a; the instance does not depend on g2a, so check_public is necessary, and it accepts exactly one g2a of the prime-order group; honest parameters pass check_public, give an instance of the announced length and satisfy the circuit whenever their scalars can be handled.", "quantifier": "all parameters, keys, thresholds, member counts and witnesses", "why_tests_cant": "soundness ranges over all malicious witnesses and parameters; the default build does not even compile this path", "anchors": ["src/dkg_circuit.rs: synthesize (cfg g2chip)", "src/lib.rs: instance, check_public", "src/dkg.rs: instance_size, is_dl_equal"]}
{"id": "C75", "title": "Keys, shares and randoms come from the members' draws", "statement": "When a contract is Ready and the proof system is sound there are memberCount polynomials of length threshold such that the group public key is g2 times the sum of their values at 0, verification key i is g1 times the sum of their values at i, the random of every completed round is the hash point of that round times the sum of their values at 0 (and the random value its keccak hash), and the share file each member derives from the chain holds the sum of their values at its index. For each dealing made with the client command dkg prove the polynomial takes, at 0 and at every member index, the values of the polynomial whose coefficients that member drew.", "quantifier": "all reachable states of both contracts, all members, rounds, draws", "why_tests_cant": "ranges over all histories, malicious dealings included", "anchors": ["contracts/zkdvrf.sol", "contracts/zkdvrf_pre.sol", "bin/client.rs: dkg prove, dkg derive", "src/dkg.rs"]}
{"id": "C76", "title": "The demo runs from deployment to any number of randoms", "statement": "From a fresh zkdvrf_pre contract, the demo scripts (admin, register, nidkg, random) run through without an error whether the admin's handler runs before or after the members' derivation: the contract becomes Ready in round 1 with the group key of the sum of the members' first draws, every member's share file holds the sum of the drawn polynomials at its index, and any number of rounds, each with any set of at least threshold distinct members, is completed with the random determined by the draws and the round. (Violation) once the admin has published the round's random, each further iteration of the script random fails.", "quantifier": "all good draws, thresholds, member counts, member sets and numbers of rounds", "why_tests_cant": "ranges over all draws, orders and round sequences", "anchors": ["scripts/demo/register.ts", "scripts/demo/nidkg.ts", "scripts/demo/random.ts", "scripts/demo/admin.ts", "contracts/zkdvrf_pre.sol", "bin/client.rs"]}
{"id": "C77", "title": "What the deployment script sets up", "statement": "With its helper contracts the deployment script succeeds exactly for threshold 3, five members, degree 18, a non-zero admin address and a readable deposit; the contract then has these parameters, no members, phase Unregistered, and the verifier with the embedded key, and the client started with the same variables uses the same threshold, member count and degree. Without helpers it succeeds exactly for non-zero admin, verifier, public-parameter and random helper addresses and 7n+14 < 2^32, with whatever verifying key address is given. The start of the demo admin adds exactly the listed members, and succeeds iff they are non-zero, distinct, new and fit; a second start fails. The five listed members and the admin can then run the demo to any number of randoms. (Violations) if the verifying key address holds no key, or the embedded five-member key while the contract has another member count, no dealing is ever accepted; a threshold or member count in hex notation is taken by the contract and silently replaced by the defaults in the client.", "quantifier": "all environments, chains, deployers, member lists, histories and draws", "why_tests_cant": "ranges over all configurations and all later histories of the deployed contract", "anchors": ["scripts/deploy.ts: main, deployHelpers", "scripts/demo/admin.ts: main", "contracts/zkdvrf_pre.sol: constructor, addPermissionedNodes, submitPublicParams", "bin/client.rs: main", "contracts/Halo2Verifier.sol"]}
{"id": "C78", "title": "The circuit's rows, copy constraints and public inputs enforce a dealing", "statement": "Take any table of cells, dishonest provers included, that satisfies the gates, copy constraints, constants and public-input constraints laid out by the synthesis of the DKG circuit (with the external integer chip constraining its results correctly). Then its public inputs are those of a dealing: a polynomial with threshold coefficients, its value at 0 in both groups, its shares in G1, a non-trivial encryption randomness and the ciphers of the shares to the public keys. The layout has 7n+14 public inputs. Columns that satisfy the constraint system of a verifying key whose fixed columns and permutation belong to the layout are such a table.", "quantifier": "all thresholds, member counts, auxiliary points, tables of cells, keys and placements of the regions", "why_tests_cant": "a missing copy constraint or gate is only seen by a dishonest witness; tests run honest ones", "anchors": ["src/dkg_circuit.rs: synthesize, DkgCircuitConfig::new", "src/grumpkin_chip.rs", "src/grumpkin_chip/add.rs", "src/grumpkin_chip/mul.rs", "src/ecc_chip/point_base_chip.rs", "src/ecc_chip/point_base_chip/fix_mul.rs", "src/ecc_chip/point2_base_chip.rs", "src/ecc_chip/point2_base_chip/add.rs", "src/ecc_chip/point2_base_chip/fix_mul.rs", "src/ecc_chip/integer2.rs"]}
{"id": "C79", "title": "An accepted on-chain proof is a proof of a dealing", "statement": "Let the verifying key belong to the layout of the DKG circuit. If the verifier contract accepts a proof made of commitments of polynomials, then one of the challenges is among few exceptional values fixed before it was drawn, or the prover knows a non-zero polynomial that vanishes at the secret of the setup, or the public inputs are those of a dealing. If the randomness contract with this verifier accepts a submission of public parameters, then in the third case the dealing is to exactly the registered keys in their order and the member count is that of the circuit.", "quantifier": "all proofs, hash functions, keys of the layout, reachable contract states and callers", "why_tests_cant": "ranges over all dishonest provers and all histories of the contract", "anchors": ["contracts/Halo2Verifier.sol: verifyProof", "contracts/zkdvrf.sol: submitPublicParams, checkPublicParams", "src/dkg_circuit.rs: synthesize"]}
{"id": "C80", "title": "The honest prover's table satisfies the circuit", "statement": "Run the circuit's synthesis as the prover does, on the parameters that the library created for nonzero keys and a nonzero encryption randomness, computing every cell by the witness closures of the code. For all but few secrets (at most 69(n+2) of the field) and all but few auxiliary points (at most 510(n+1)+1 of the curve) the resulting table satisfies every gate, copy constraint, constant and public input of the layout, with the instance that the library computes; the layout is the one that key generation sees.", "quantifier": "all thresholds, member counts, keys, randomness, auxiliary points and values of unassigned cells", "why_tests_cant": "ranges over all secrets and random draws; a wrong witness for a rare carry, bit or window is not hit by samples", "anchors": ["src/dkg_circuit.rs: synthesize, DkgCircuit::new", "src/lib.rs: DkgMemberParams::new, DkgMemberParams::circuit, DkgMemberPublicParams", "src/grumpkin_chip.rs", "src/ecc_chip"]}
{"id": "C81", "title": "After histories with provers that know polynomials, the keys are sums of dealings", "statement": "Deploy the randomness contract (either variant) with the verifier contract and a key that belongs to the layout of the DKG circuit. For every instance there are few exceptional challenges, fixed before the hash function, such that after every history whose successful submissions come from provers that know the committed polynomials, hit no exception and know no nonzero polynomial vanishing at the secret of the setup: once the setup is finished, every stored submission is a dealing to exactly the registered keys, the group key is the sum of the dealt secrets and each verification key the sum of the shares dealt to that member. More generally, a history in which every successful submission satisfies the circuit is a history of the contract with a sound proof system, so that everything proved with soundness holds after it.", "quantifier": "all histories, callers, dishonest provers, hash functions, thresholds and member counts", "why_tests_cant": "ranges over all histories and all dishonest provers", "anchors": ["contracts/zkdvrf.sol: submitPublicParams, computeVk", "contracts/zkdvrf_pre.sol: submitPublicParams, computeVk", "contracts/Halo2Verifier.sol: verifyProof", "contracts/GlobalPublicParams.sol: createGpp", "src/dkg_circuit.rs: synthesize"]}
{"id": "C82", "title": "An honest member's submission is accepted by the deployed contract", "statement": "Deploy the randomness contract with the verifier contract and a key that belongs to the layout of the DKG circuit and to nothing more. For all but few first coefficients, and all but few auxiliary points, the table that an honest member's prover fills gives columns that satisfy the key's constraint system, and a proof made from them, with any blinding, is accepted by submitPublicParams in every reachable state of the DKG phase in which the dealing's public keys are the registered ones and the member has not submitted, unless a challenge is one of few exceptions or a commitment is the point at infinity. Columns satisfy the constraint system of such a key exactly if their table satisfies the layout, and every layout that fits has such keys.", "quantifier": "all thresholds, member counts, keys, secrets except few, auxiliary points except few, blindings, hash functions, setups, reachable states", "why_tests_cant": "ranges over all secrets, keys, states and transcripts; a test makes one proof", "anchors": ["src/dkg_circuit.rs: synthesize, DkgCircuit", "src/dkg.rs: DkgMemberParams", "contracts/zkdvrf.sol: submitPublicParams, checkPublicParams", "contracts/Halo2Verifier.sol: verifyProof"]}
{"id": "C83", "title": "Deployments that meet every requirement on the external components exist", "statement": "For one to six members and every threshold up to their number, there is an integer chip that meets the requirements of the soundness and completeness properties of the circuit, with which the circuit's layout can be computed and fits into 2^28 rows, and for every secret of the setup a verifying key that belongs to this layout and to nothing more. With that key, after every history whose successful submissions come from provers that know polynomials, hit no exception and know no nonzero polynomial vanishing at the secret, the keys of a finished setup are the sums of dealings to the registered keys.", "quantifier": "all thresholds and member counts up to six, secrets of the setup, pairings, hash functions, histories", "why_tests_cant": "states the existence of a chip correct for all tables and of a key for a circuit with millions of rows, and ranges over all histories of the deployment with it", "anchors": ["src/dkg_circuit.rs: synthesize, configure", "src/ecc_chip: PointChip, Point2Chip", "src/grumpkin_chip.rs: GrumpkinChip", "contracts/zkdvrf.sol: submitPublicParams", "contracts/Halo2Verifier.sol: verifyProof"]}
{"id": "C84", "title": "Data files are read back as they were written", "statement": "Every value that the client saves (key pairs, public keys, instances, global public key, verification keys, shares, evaluations, random values, the files of the mock command) and that is read again from the same path, as UTF-8 JSON text, is the same value; key pairs, shares, evaluations and random values also survive as group elements and scalars. A file that has anything but white space after the value is refused.", "quantifier": "all values, paths and previous contents of the disk", "why_tests_cant": "ranges over all values and texts (escapes, digits, nesting), a test reads back a few", "anchors": ["bin/client.rs: save_share, save_gpp, save_proof, main", "bin/serialise.rs: Point, Point2, MemberKey, DkgMemberParams, DkgGlobalPubParams, DkgShareKey, PartialEval, PseudoRandom", "bin/mock.rs: save_params, save_evals"]}
{"id": "C85", "title": "A stopped command leaves no file that is taken for another value", "statement": "If a command of the client is killed at any point, or a write fails half-way, every file is as before, or as after the complete run, or is the beginning of what the complete run writes to it; in the last case, unless it is a proof, no command accepts the file as a value of any type.", "quantifier": "all commands, arguments, random draws, disks and points at which the process stops", "why_tests_cant": "ranges over all crash points and all contents of the files; a test would have to kill the process at every byte", "anchors": ["bin/client.rs: main, save_share, save_gpp, save_proof", "bin/mock.rs: mock_members, mock_dkg, mock_random"]}
{"id": "C86", "title": "A command changes only its own files", "statement": "Completed or stopped anywhere, a command changes no file except those listed for it: proof and instance of the given index for prove, evaluation of the index for eval, share of the index and the two global files for derive, the random value for combine, the key file for keygen; verification commands change nothing. Different data files have different names, so files of other members are never touched and key files only change by keygen with this name and by mock. This needs file names without slashes: keygen with the name ../dkg/gpk replaces the global public key. keygen replaces an existing key without warning.", "quantifier": "all commands, arguments, configurations, random draws, disks, stopping points, files", "why_tests_cant": "says that nothing else happens, for all indices and names", "anchors": ["bin/client.rs: main, MEMBERS_DIR, DKG_PROOFS_DIR, DKG_SHARES_DIR, RANDOM_DIR", "bin/mock.rs"]}
{"id": "C87", "title": "Interrupted commands can be run again", "statement": "After any number of interrupted runs of a command, running it again gives the result that it would have given without them, and if it succeeds all files are the same as without them. This also holds after complete or failed runs, and with any random draws in the interrupted runs.", "quantifier": "all commands, arguments, disks, interruption points, numbers of interruptions, random draws", "why_tests_cant": "ranges over all crash points and histories of crashes", "anchors": ["bin/client.rs: main", "bin/mock.rs"]}
{"id": "C88", "title": "Members can work at the same time in one data directory", "statement": "Commands that run at the same time in one directory with their reads and writes interleaved in any way, where none writes a file that another reads or writes, end with the results and files that each would have had alone, and other files do not change; some may stop for ever. This holds for proving by all members and for evaluation by all members. When all members derive their shares at the same time, every one writing the same two global files, the results, shares and global files at the end are as if each had been alone.", "quantifier": "all numbers of processes, schedules, disks, random draws, stopping points", "why_tests_cant": "ranges over all interleavings, including half-written files seen by others", "anchors": ["bin/client.rs: main, save_gpp, save_share, save_proof"]}
{"id": "C89", "title": "Commands on files compute the functions on their contents", "statement": "Each command succeeds exactly if its input files hold values on which the corresponding computation (C18, C27, C28, C46 and others) succeeds, and then the new disk is the old one with exactly the results written. A command that reports a failure has changed nothing, except derive with an index and the DKG step of mock: derive with a wrong index fails after it has replaced the global public key and the verification keys.", "quantifier": "all commands, arguments, disks, random draws", "why_tests_cant": "an equivalence for all contents of all files, valid or not", "anchors": ["bin/client.rs: main", "bin/serialise.rs"]}
{"id": "C90", "title": "The mock command works on every data directory and its files fit the other commands", "statement": "On every disk, whatever files are there before, the members, DKG and random steps of the mock command succeed when the values behind C69 do (in particular always for 1 <= t <= n with finite dealt points), and leave exactly the files described in C69. Afterwards every member can run derive with its key file (the files keep their values), eval and verify, and combine and verify-final succeed on the files, with the random value of the sum of the dealt polynomials.", "quantifier": "all disks, configurations, draws, inputs and members", "why_tests_cant": "A test runs the command once, in a fresh directory, with one configuration and one set of random draws.", "anchors": ["bin/mock.rs:mock_members", "bin/mock.rs:mock_dkg", "bin/mock.rs:mock_random", "bin/client.rs:main"]}
{"id": "C91", "title": "Services survive being stopped at any point and restarted", "statement": "Services that keep their state only in their data directories (initially with any contents) can be stopped at any point of any pass before the transaction, with half-written files, and restarted, any number of times: no later pass fails, no transaction reverts, the contract goes through the states of a history without stops, round K is complete exactly after 2n+2+K(t+2) transactions, the next pass sends what it would have sent, nine rounds can always be completed, and every registered key has its secret in the node's key file. The last part fails when a node is stopped after it sent its registration but before that was mined: the restarted node overwrites the key file with a new key, the first registration is accepted, and the secret of the registered key is lost.", "quantifier": "all numbers of members and thresholds, all schedules of passes and stops, all stop points including inside writes, all initial disks, all good random draws", "why_tests_cant": "A test stops a service at a few points of a few schedules; the claim is about every point of every history.", "anchors": ["services/node.ts: _start, registerNode, submitPP, nidkgDerive, submitPartialEval", "services/admin.ts: _start, createGpp, createRandom", "bin/client.rs: main", "docker-compose.yml"]}
{"id": "C92", "title": "What dkg prove leaves on disk passes dkg verify", "statement": "The proof creation of the client checks every proof before it returns it. So whenever `dkg prove` succeeds for a member, `dkg verify` for that member succeeds afterwards and changes no file, as long as the member key list, the proof and the instance on disk have not been changed. If the proof system makes a proof that it does not accept itself, `dkg prove` fails and leaves every file as it was.", "quantifier": "all proof systems, configurations, indices, key lists (any text files), random draws and disks", "why_tests_cant": "A test proves one instance with honest keys; the claim is for every list of keys, every configuration and every contents of the data directory, also those for which the proof system misbehaves.", "anchors": ["bin/proof.rs: create_proof_checked, verify_single", "bin/client.rs: DkgCommands::Prove, DkgCommands::Verify, save_proof"]}
{"id": "C93", "title": "The command lines of the services do what is meant", "statement": "Every command line that a service builds, taken apart by the shell and by the argument parser of the client, runs exactly the intended command with the intended index, file name and input and with the threshold and member count of the service's options, whatever environment variables the service inherits (with an option missing or not a number: with 3 of 5). The member file names and the round inputs of the contract are always arguments for which this holds, in every reachable state. So services whose options agree with the contract have exactly the histories of C91: no pass fails, no transaction reverts, and rounds complete. The lines do not escape the input: an input beginning with a dash would make the commands fail, and one with a quotation mark would inject arguments (such as the one that skips verification); only the fixed form of the contract's inputs excludes this. An operator's own spellings of an option (value in the next word, after an equals sign or glued to the letter; flags together or apart; options before or after the input) all mean the same command.", "quantifier": "all options, environments, indices below 2^64, addresses, reachable contract states, schedules and stops, and (for the limits) all inputs of the given form", "why_tests_cant": "A test runs the services with one configuration and sees a few addresses and inputs; quoting and option parsing can go wrong on any other.", "anchors": ["services/node.ts: cmdPrefix, registerNode, submitPP, nidkgDerive, submitPartialEval", "services/admin.ts: cmdPrefix, createGpp, createRandom", "bin/client.rs: Cli, Commands, main", "contracts/zkdvrf_pre.sol: initiateRandom, generateRandom"]}
{"id": "C94", "title": "What the services need from the proof system", "statement": "Let the prover, the client's verifier and the contract's verifier be anything at all (failing, rejecting, accepting everything). In every history of the services, with failed passes, reverted transactions, stops and restarts: round K is complete exactly after 2n + 2 + K(t + 2) accepted transactions; no pass other than the submission of parameters fails or reverts; that submission succeeds exactly when the proof system works on the dealt instance, with which the circuit can be satisfied; the secret of every registered key is in the node's key file; and when all nodes run the services the keys on the chain are those of polynomials of degree below the threshold, also without soundness. Registration and the start of the DKG never need the proof system, and if every satisfiable instance is proved and accepted, the services can go on from any such history to complete nine rounds. With the deployed verifier and a key that belongs exactly to the layout, for all but few secrets a node's dealing is sent and accepted whenever its client's prover returns a proof that an honest prover makes (with few exceptions for its random choices) and its client accepts it.", "quantifier": "all provers and verifiers, node sets, thresholds, good draws, schedules, failures and stops", "why_tests_cant": "Tests run with one working proof system; what depends on it, and how, cannot be seen from runs in which it always works.", "anchors": ["services/node.ts: submitPP, main loop", "services/admin.ts: main loop, createGpp", "contracts/zkdvrf_pre.sol: submitPublicParams, computeVk", "bin/client.rs: DkgCommands::Prove, DkgCommands::Verify"]}
{"id": "C95", "title": "The admin's comparison of keys reports exactly the differences", "statement": "After `computeVk` the admin compares its key files with the keys on the chain. On files written by the client the comparison throws exactly if the chain has fewer verification keys than the file; otherwise it prints a message for the group key, for the length, and for the i-th key exactly if they differ, and so it is silent exactly if all keys agree. Whoever dealt the parameters, with a sound proof system it is silent on the files derived from the chain in every reachable Ready state. When all nodes run the services, with any proof system, it is silent from the pass that computes the keys on.", "quantifier": "all keys, all key files written by the client, all reachable contract states, and all histories of the services with any prover and verifiers", "why_tests_cant": "The comparison is between hexadecimal text of the client and numbers computed by the contract; a run shows agreement for one dealing, not for every one, and not that every difference would be reported.", "anchors": ["services/admin.ts: createGpp", "scripts/demo/admin.ts: createGpp", "contracts/zkdvrf_pre.sol: computeVk", "bin/client.rs: DkgCommands::Derive, serialize"]}
{"id": "C96", "title": "The services when their passes overlap", "statement": "A pass of a service takes time: it reads the contract and decides, later reads its data, runs the client and sends a transaction, which is mined later still. Start the node and admin services on a contract just set up for them and let these steps interleave in any way (working proof system, good draws, no round timer before the open round is complete). Then every command that a service has decided to run succeeds; every transaction on its way is accepted, except possibly an evaluation made for a round that is complete by now; the admin never stops; a node has stopped only if some round was completed without it; a quorum of nodes never stops, and from every state the first nine rounds can still be completed: until then some step changes something, and in every schedule the first K rounds are complete after more than 3 (2n + 2 + K (n + 2)) + 3n + 3 changing steps. What services do one pass after the other is a special case. Not guaranteed, and shown to happen: a node whose evaluation comes late stops for good, and all nodes but a quorum may be lost this way in the first round; and while the dealing of a node is on its way (its mining is not awaited) the next pass decides to deal again, which reverts once the first is mined.", "quantifier": "all thresholds and numbers of nodes, all interleavings of the reads, sends and minings of all services, all good draws, any length of history", "why_tests_cant": "A test runs the services under a few schedules; that no interleaving makes a command fail or loses the quorum is a claim about all of them.", "anchors": ["services/node.ts: _start, registerNode, submitPP, nidkgDerive, submitPartialEval", "services/admin.ts: _start, createGpp, createRandom, initiateRand", "contracts/zkdvrf_pre.sol", "docker-compose.yml"]}
{"id": "C97", "title": "The clock of the admin service", "statement": "While the admin service runs, whatever nodes and others do and whenever its passes and confirmations happen: it opens no round before the configured start date (an invalid date counts as passed) nor before its own start; between the confirmation of one opening and sending the next at least interval + 1 seconds pass; each opening is one round, so k + 1 new rounds need k intervals. If the nodes are honest and every round is complete within the interval, the history is one of those of C55 and the service does not end; conversely every such history is possible with a clock. Not guaranteed, and shown to happen: the time of the last opening is lost in a restart, so a service restarted within an open round sends an opening that reverts and ends again, and one restarted after a complete round opens the next at once.", "quantifier": "all start dates and intervals, all times of passes and confirmations, all transactions of others, any length of history", "why_tests_cant": "The claim is about every sequence of clock readings and every interleaving with the chain.", "anchors": ["services/admin.ts: _init, _start, initiateRand", "contracts/zkdvrf_pre.sol: initiateRandom"]}
{"id": "C98", "title": "Services killed and started again while their passes overlap", "statement": "Let the passes of the node and admin services overlap as in C96, and kill services at any points and start them again, as often as one likes; what a killed service has sent may be lost, or be mined at any later time (a node is killed with its registration on its way only if that is lost). Then the secret of every registered key is always in the key file of its node, and every node that has evaluated, and the admin once the contract is ready, have the files that the dealings determine; every command a service decides to run succeeds, except possibly for a second dealing of a node; every transaction of a running or killed node is accepted, except a second dealing, and an evaluation for a round that is complete or for which (or after which) this node has already evaluated; once all services have been started again and nothing old is mined any more, they run as if no service had been killed (C96); from every state the first nine rounds can be completed by starting all services again; and in every schedule the first K rounds are complete after more than 3 (2n + 2 + K (n + 2)) + 3n + 3 changing steps, and three more for every restart. Whatever the provers and verifiers do (fail, reject, accept anything), all this remains true except for the dealings: the files and the secrets are kept and the keys on the chain are those of polynomials of low degree; all commands but those of a dealing succeed, and those do exactly if the instance (which satisfies the circuit) is proved and the client accepts the proof; no transaction is rejected for a new reason but a dealing whose proof the contract does not accept; the DKG can be started from anywhere before it, and the rounds completed from anywhere after it. If every satisfiable instance is proved and accepted, everything holds without soundness of the proofs. With the deployed verifier and such a key the dealing commands succeed with honest proofs (with few exceptions), and the transaction is accepted whenever it is mined, unless the node has dealt already.", "quantifier": "all thresholds and numbers of nodes, all points and numbers of kills and restarts, all losses and delays of the transactions left behind, all interleavings, all good draws, any length of history; all provers and verifiers", "why_tests_cant": "A test kills a service at a few points under a few schedules; that no combination loses a key, a share or the progress of the rounds is a claim about all of them.", "anchors": ["services/node.ts: _start, registerNode, submitPP, nidkgDerive, submitPartialEval", "services/admin.ts: _start, createGpp, createRandom, initiateRand", "contracts/zkdvrf_pre.sol", "docker-compose.yml"]}
{"id": "C99", "title": "Honest node services among others that do anything", "statement": "Let some wallets be those of node services, whose passes overlap and which are killed and started again at any points as in C98, and let everybody else - the owner, the other members, outsiders - send any transactions at any time, from a deployment with which these nodes have not registered yet. Then for each of these nodes: the secret of its registered key is in its key file, and once it has evaluated, it has the share and the verification keys that the stored dealings determine; when the contract says that it has dealt, an honest dealing for the registered keys is stored; every evaluation stored for it is the right one for its verification key; the commands it has decided to run succeed, except those of a second dealing, or of a dealing when somebody has registered a key not written in the usual form; its transactions are accepted, except a registration when a deposit is asked, a second dealing, and an evaluation for a round that is complete or for which (or after which) it has already evaluated. In every state reached, an uninterrupted pass registers it, when registration is open to it and no deposit is asked; deals, when the dealing phase is open, it has not dealt and the registered keys are written in the usual form; and evaluates the open round, one of the first nine, when fewer than the threshold have done so and it has not. As many of these nodes as the threshold can bring any of the first nine rounds to a quorum, by themselves, even if what is on its way is lost. And when a round has a quorum, and what the others have stored for it is right, the commands of the admin service, with the files derived from what the contract has, make a random that the contract accepts from its owner. With any prover and verifiers, sound or not, what is said of files, stored dealings, evaluations, commands and transactions other than those of a dealing, registration, progress to a quorum and the random still holds when what the contract accepts as dealings of others satisfies the circuit; a pass deals if and only if a proof of its instance, which satisfies the circuit, is made and accepted; and the keys of a finished setup are sums of dealings. With the deployed verifier this is so for algebraic adversaries, who know polynomials behind what they submit, up to few exceptional challenges.", "quantifier": "all sets of honest wallets, all histories of transactions of everybody else and of forced ether, all interleavings, kills and losses, all thresholds and numbers of nodes, all good draws, any length of history; all provers and verifiers (for the part with any proof system)", "why_tests_cant": "A test runs services among others with one chosen behaviour; that nothing the others can send makes an honest node lose a key or a share, publish a wrong evaluation, or stop, is a claim about all behaviours.", "anchors": ["services/node.ts: _start, registerNode, submitPP, nidkgDerive, submitPartialEval", "contracts/zkdvrf_pre.sol: registerNode, submitPublicParams, submitPartialEval, computeVk, initiateRandom, submitRandom"]}
