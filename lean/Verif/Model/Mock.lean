import Verif.Model.ClientDkg

/-!
Model of bin/mock.rs (the `mock` command of the client) and of the configuration read by
bin/client.rs (feature `g2chip`).

The data directory is a structure with one field per file name; a file name with an index is a
function.  Files hold the serialised structures of `Verif.Model.Serialise`.  Randomness is an
argument.  A command that fails may have written some of its files before; here only the directory after a
successful command is modelled, see `Verif.Model.ClientFiles` for the rest.
-/

namespace Verif.Mock

/-- The files read or written by the `mock` command: constants of bin/client.rs:44-51 and the
names built in bin/mock.rs. -/
structure Files where
  /-- `MEM_PUBLIC_KEYS_PATH` -/
  mpks : Option (List PointSerde)
  /-- `member_<index>.json` -/
  member : ℕ → Option MemberKeySerde
  /-- `secret_<index>.json` -/
  secret : ℕ → Option MemberParamsSerde
  /-- `dkgs_public.json` -/
  dkgsPublic : Option (List PublicParamsSerde)
  /-- `all_instances.json` -/
  instances : Option (List (List (List Char)))
  /-- `gpp.json` -/
  gpp : Option GlobalParamsSerde
  /-- `gpk.json` -/
  gpk : Option Point2Serde
  /-- `vks.json` -/
  vks : Option (List PointSerde)
  /-- `share_<index>.json` -/
  share : ℕ → Option ShareKeySerde
  /-- `evals.json` -/
  evals : Option (List PartialEvalSerde)
  /-- `pseudo.json` -/
  pseudo : Option PseudoRandomSerde

/-- The directory before any command. -/
def Files.empty : Files :=
  ⟨none, fun _ => none, fun _ => none, none, none, none, none, none, fun _ => none, none, none⟩

/-- How a `mock` command can fail: a file is missing, or a failure of the library or of reading a
value. -/
inductive MockFail where
  | noFile
  | lib (f : Fail)
deriving DecidableEq

/-- The `?` and `unwrap` on library results. -/
def lift {α : Type} : Res α → Except MockFail α
  | .ok a => .ok a
  | .error f => .error (.lib f)

/-- `read_to_string(path)?`. -/
def file {α : Type} : Option α → Except MockFail α
  | some a => .ok a
  | none => .error .noFile

/-- The loop over `enumerate()` that writes one file for each entry, index from 1: bin/mock.rs:23-29,
115-119. -/
def writeFrom {α β : Type} (w : α → β) (l : List α) (old : ℕ → Option β) : ℕ → Option β :=
  fun i => if 1 ≤ i then (match l[i - 1]? with | some a => some (w a) | none => old i) else old i

/-- `mock_members`, bin/mock.rs:100-122; `sk i` is the secret drawn for member `i + 1`. -/
noncomputable def mockMembers (cfg : DkgConfig) (sk : ℕ → Fq) (f : Files) : Files :=
  let members := (List.range cfg.numberOfMembers).map (fun i => MemberKeySerde.of (MemberKey.random (sk i)))
  { f with
    mpks := some (members.map (·.pk))
    member := writeFrom id members f.member }

/-- `save_instances`, bin/mock.rs:84-98. -/
def saveInstances (instances : List (List Fr)) (f : Files) : Files :=
  { f with instances := some (instances.map (fun ins => ins.map writeField)) }

/-- `save_params`, bin/mock.rs:18-57. -/
def saveParams (dkgs : List DkgMemberParams) (dkgsPub : List DkgMemberPublicParams)
    (gpp : DkgGlobalPubParams) (f : Files) : Files :=
  { f with
    secret := writeFrom MemberParamsSerde.of dkgs f.secret
    dkgsPublic := some (dkgsPub.map PublicParamsSerde.of)
    gpp := some (GlobalParamsSerde.of gpp)
    gpk := some (GlobalParamsSerde.of gpp).g2a
    vks := some (GlobalParamsSerde.of gpp).verifyKeys }

/-- `save_shares`, bin/mock.rs:59-69: the file name is the index in the share. -/
def saveShares (shares : List DkgShareKey) (f : Files) : Files :=
  shares.foldl (fun f s => { f with share := Function.update f.share s.index (some (ShareKeySerde.of s)) }) f

/-- `save_evals`, bin/mock.rs:71-82. -/
def saveEvals (sigmas : List PartialEval) (pseudo : PseudoRandom) (f : Files) : Files :=
  { f with
    evals := some (sigmas.map PartialEvalSerde.of)
    pseudo := some (PseudoRandomSerde.of pseudo) }

/-- `mock_dkg`, bin/mock.rs:124-164; `draw i` is the random stream of the parameters of member
`i + 1`, `infPanics` is as in `pointToPublic`. -/
noncomputable def mockDkg (infPanics : Bool) (cfg : DkgConfig) (draw : ℕ → ℕ → Fr) (f : Files) :
    Except MockFail Files := do
  let members ← (List.range cfg.numberOfMembers).mapM (fun i => do
    let m ← file (f.member (i + 1))
    lift m.read)
  let mpks := members.map (·.pk)
  let dkgs ← (List.range cfg.numberOfMembers).mapM (fun i =>
    lift (DkgMemberParams.new Poseidon.hash2 cfg mpks (draw i)))
  let dkgsPub := dkgs.map (·.publicParams)
  let instances ← dkgs.mapM (fun d => lift (d.publicParams.toInstance infPanics d.publicKeys))
  let f := saveInstances instances f
  let pp ← lift (dkgGlobalPublicParams dkgsPub)
  let f := saveParams dkgs dkgsPub pp f
  let shares ← (List.range cfg.numberOfMembers).mapM (fun i => do
    let m ← lift (getOrPanic members i)
    let share ← lift (m.dkgShareKey Poseidon.hash2 cfg (i + 1) dkgsPub)
    lift (share.verify cfg pp.verifyKeys)
    return share)
  return saveShares shares f

/-- `mock_random`, bin/mock.rs:166-197; `nonce i` is the randomness of the evaluation at position
`i`. -/
noncomputable def mockRandom (E : BnPairing) (keccak : Keccak) (h2c : List Byte → G1)
    (cfg : DkgConfig) (input : List Byte) (nonce : ℕ → Fr) (f : Files) : Except MockFail Files := do
  let shares ← (List.range cfg.numberOfMembers).mapM (fun i => do
    let s ← file (f.share (i + 1))
    lift s.read)
  let gppFile ← file f.gpp
  let gpp ← lift gppFile.read
  let sigmas ← shares.zipIdx.mapM (fun si => do
    let sigma := DkgShareKey.evaluate keccak h2c si.1 input (nonce si.2)
    let vk ← lift (getOrPanic gpp.verifyKeys si.2)
    lift (sigma.verify keccak h2c cfg input vk)
    return sigma)
  if sigmas.length < cfg.threshold then .error (.lib .panic)
  else do
    let v ← lift (combinePartialEvaluations keccak cfg (sigmas.take cfg.threshold))
    lift (v.verify E keccak h2c input gpp.g2a)
    return saveEvals sigmas v f

/-- The drawn values of one run of the `mock` command. -/
structure Draws where
  sk : ℕ → Fq
  draw : ℕ → ℕ → Fr
  nonce : ℕ → Fr

/-- `Commands::Mock`, bin/client.rs:364-388: the chosen steps, in this order. -/
noncomputable def mock (E : BnPairing) (keccak : Keccak) (h2c : List Byte → G1) (infPanics : Bool)
    (cfg : DkgConfig) (members dkg : Bool) (random : Option (List Byte)) (d : Draws) (f : Files) :
    Except MockFail Files := do
  let f := if members then mockMembers cfg d.sk f else f
  let f ← if dkg then mockDkg infPanics cfg d.draw f else .ok f
  match random with
  | none => return f
  | some input => mockRandom E keccak h2c cfg input d.nonce f

end Verif.Mock
