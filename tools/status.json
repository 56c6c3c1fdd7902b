{
 "C37": {
  "status": "proved",
  "note": "The property text has two halves: for zkdvrf_pre.sol with threshold >= 1 the quorum holds (C37_pre_quorum); for zkdvrf.sol it is violated, shown by concrete reachable histories (C37_violation_*), with C37_round_opened for what does hold."
 },
 "C44": {
  "status": "proved",
  "note": "Holds for degrees up to 22; for larger degrees and for a params file whose header degree differs the code violates the property, shown by C44_violation_*. The start script of the container: C44_container, C44_container_health and C44_container_recovers for degrees up to 22; C44_container_violation: an interrupted download blocks the degree until somebody removes the file. C44_container_violation_key: so does a stop while the proving key is written, if the halo2 library panics on a truncated key."
 },
 "C46": {
  "status": "proved",
  "note": "Holds for canonical proof responses; a non-canonical z accepted on-chain makes the client combine fail, shown by C46_violation_noncanonical_z."
 },
 "C24": {
  "status": "proved",
  "note": "The unchecked addition of a point to itself is unsound (C24_violation_add_incomplete_same_point); the checked operations are exact."
 },
 "C25": {
  "status": "proved",
  "note": "mul_bits is sound for every auxiliary point; mul of a scalar cell has two 254-bit decompositions (C25_violation_mul_scalar_ambiguous), not used by the DKG circuit."
 },
 "C28": {
  "status": "proved",
  "note": "Soundness holds for the values modulo q of the exposed coordinates; the circuit does not force them to be reduced, shown by C28_violation_unreduced_coordinates."
 },
 "C41": {
  "status": "proved",
  "note": "Completion is proved for honest members with usable random draws; a single malicious member can block the setup for ever with unreduced coordinates, shown by C41_violation_unreduced_blocks and C41_violation_member_can_block."
 },
 "C52": {
  "status": "proved",
  "note": "Proof-system soundness is a hypothesis at circuit level (Spec.SnarkSound): accepted proofs are for instances that satisfy the circuit."
 },
 "C53": {
  "status": "proved",
  "note": "Same hypothesis as C52."
 },
 "C54": {
  "status": "proved",
  "note": "The prover is a parameter that proves every satisfiable instance; random draws must avoid the finitely many values of Spec.Usable (see C29_few_unusable_scalars)."
 },
 "C55": {
  "status": "proved",
  "note": "Proof system and draws as stated in Spec/Services (Faithful, GoodDraw); a pass is one step (the contract does not change between the reads of a pass and the inclusion of its transaction). The interval between rounds is assumed to elapse only after the open round is complete (otherwise C57)."
 },
 "C56": {
  "status": "proved",
  "note": "Finding: from round 10 on, the comparison is wrong; C56_violation_tenth_round. The JavaScript semantics of > on ethers-5 BigNumbers (decimal strings) is trusted."
 },
 "C57": {
  "status": "proved",
  "note": "The failures are proved as theorems with the word violation in their names: they hold of the code as it is."
 },
 "C58": {
  "status": "proved",
  "note": "The limitation with more members than configured nodes is C58_violation_more_members."
 },
 "C64": {
  "status": "proved",
  "note": "Algebraic provers: the statement is about proofs whose commitments come from known polynomials. Fiat-Shamir is treated round by round: the exceptional values of each challenge are fixed by what it hashes; that a hash avoids them is not a theorem about any fixed hash function. What the fixed columns of the deployed key contain is not modelled (only their commitments are in the repository)."
 },
 "C65": {
  "status": "proved",
  "note": "Existence of an honest prover and acceptance of its proofs; that the prover of the library is this one is not modelled. That the commitments of a proof are finite is a hypothesis (the contract rejects the others, C59)."
 },
 "C66": {
  "status": "proved",
  "note": "C66_stray proves the exception (a violation of the order) for zkdvrf.sol."
 },
 "C67": {
  "status": "proved",
  "note": "A handler is one step: the contract does not change between its reads and its transaction. The publication of a random assumes reduced responses and evaluations made with the share of the key (see C46, C52)."
 },
 "C68": {
  "status": "proved",
  "note": ""
 },
 "C69": {
  "status": "proved",
  "note": "Files of failing commands are not modelled."
 },
 "C70": {
  "status": "proved",
  "note": "C70_violation_* prove the exceptions. `parseInt`, number formatting and the option parser `bcfg` are external and modelled by their documented behaviour."
 },
 "C71": {
  "status": "proved",
  "note": "About the shares a coalition sees, not the public commitments, which fix the secrets (their hiding rests on discrete logarithms). C09_number_of_dealings gives the count for one dealing."
 },
 "C72": {
  "status": "proved",
  "note": "In the random-oracle style: the simulator programs the hash at one point."
 },
 "C73": {
  "status": "proved",
  "note": "Branches for accumulators are not modelled (the key has none)."
 },
 "C74": {
  "status": "proved",
  "note": "g2a is assumed in the prime-order subgroup (the decoder does not check it, see C50)."
 },
 "C75": {
  "status": "proved",
  "note": "Soundness of the SNARK is the hypothesis Spec.SnarkSound."
 },
 "C76": {
  "status": "proved",
  "note": "A handler runs when the scripts wait for it; other interleavings of handlers within a script are not modelled except the late-member case."
 },
 "C77": {
  "status": "proved",
  "note": "The address syntax of ethers is a parameter; gas and failing transactions other than reverts are not modelled."
 },
 "C78": {
  "status": "proved",
  "note": "The external integer chip is a parameter with the hypothesis IntegerImpl.Correct; the main gate and the Poseidon chip are laid out from their documentation. That key generation produces a key that belongs to the layout is the hypothesis Realizes."
 },
 "C79": {
  "status": "proved",
  "note": "For provers whose commitments are commitments of known polynomials (algebraic provers); the exceptions are counted by C64."
 },
 "C80": {
  "status": "proved",
  "note": "The external integer chip is a parameter with the hypothesis IntegerImpl.Complete (its witnesses satisfy its constraints); a chip that meets both this and the hypothesis of C78 is exhibited. create_proof after the table is filled is external."
 },
 "C81": {
  "status": "proved",
  "note": "For algebraic provers; that the key belongs to the layout (Realizes) and the external integer chip (IntegerImpl.Correct) are hypotheses as in C79."
 },
 "C82": {
  "status": "proved",
  "note": "The external integer chip (IntegerImpl.Complete) and key generation (RealizesExactly) are hypotheses; keys for every layout that fits are constructed (C82_keys_exist). That commitments are not at infinity, which the verifier contract requires, remains a condition."
 },
 "C83": {
  "status": "proved",
  "note": "The integer chip of this witness (Lemmas/LimbChip: four limbs, one carry check per operation) is not the one of halo2wrong; the theorem shows that the hypotheses of C79, C81 and C82 can be met together, and by a circuit of possible size."
 },
 "C84": {
  "status": "proved",
  "note": "serde_json and std::fs are modelled (Model/Json, Model/Disk), not verified."
 },
 "C85": {
  "status": "proved",
  "note": "A write empties the file and then fills it from the beginning (fs::write); loss of written data on power failure is not modelled."
 },
 "C86": {
  "status": "proved",
  "note": "The failure for names with slashes is proved as C86_escape."
 },
 "C87": {
  "status": "proved",
  "note": ""
 },
 "C88": {
  "status": "proved",
  "note": ""
 },
 "C89": {
  "status": "proved",
  "note": "The exception is proved as C89_derive_failed. The mock commands are in C90."
 },
 "C90": {
  "status": "proved",
  "note": "The steps of mock as three commands in the order of bin/client.rs:364-386; view reads the values of the files."
 },
 "C91": {
  "status": "proved",
  "note": "The exception is proved as C91_violation_pending. Assumptions as in C55: good draws, honest services, the interval does not elapse before a round is complete; each service has its own data directory as in the compose file. A stop between sending and mining is only covered by the violation and by passes that complete."
 },
 "C92": {
  "status": "proved",
  "note": "create_proof and verify_proof of halo2 are parameters (any functions). The verification key used by both commands is the one loaded from the same parameter directory."
 },
 "C93": {
  "status": "proved",
  "note": "The limits are C93_violation_dash and C93_violation_quote. The shell is modelled for words, double quotes and assignments only (any other construct counts as a failure, and none occurs); clap is modelled for the options the client declares."
 },
 "C94": {
  "status": "proved",
  "note": "Removes the soundness and completeness assumptions from C55 and C91; only auxiliary points that fit the tables of the circuit and a hash that is never zero are assumed (Sane). C94_honest_prover composes it with C82: halo2's client-side verifier stays a hypothesis there (`M.verifier`)."
 },
 "C95": {
  "status": "proved",
  "note": "BigInt is modelled on text with prefix 0x, the only form the client writes."
 },
 "C96": {
  "status": "proved",
  "note": "Reads of one step see one state. An evaluation that arrives in a later round and is accepted there by chance is assumed to be right (NoLuck; negligible probability)."
 },
 "C97": {
  "status": "proved",
  "note": "A transaction of a pass takes effect when it is sent; its confirmation may come at any later time. Overlapping passes are C96."
 },
 "C98": {
  "status": "proved",
  "note": "The commands of a pass run completely or not at all (half-written files are C91). A node is killed with a registration on its way only if that transaction is lost (otherwise C91_violation_pending). Evaluations mined in a later round: NoLuck as in C96. C98_any_*: any proof system (simulated by an ideal one, which says yes exactly to satisfiable instances); C98_unsound_*: complete proof systems without soundness."
 },
 "C99": {
  "status": "proved",
  "note": "Rounds one to nine: the string comparison of the node (C56). Minimum deposit zero, and keys in the usual form, are hypotheses where they matter (C51: another member can prevent dealings by registering an unusual form of its key). Evaluations mined in a later round: NoLuck as in C96. Nothing is claimed of the group public key and of the publication of randoms: both are up to the owner."
 }
}