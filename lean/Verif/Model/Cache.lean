import Verif.Model.Zkdvrf

/-!
Model of the parameter and key cache of src/utils.rs:185-386, and of the order in which bin/client.rs
uses it.

The file system is a map from paths to entries; parent directories are not tracked (a `File::create`
that fails for any reason is the write outcome `noCreate`).  A write that is interrupted by an I/O
error or by a crash of the process leaves an arbitrary prefix of the bytes (`cut`).
-/

namespace Verif.Cache

/-- How a call can fail: `Err`, or a panic.  A crash in the middle of a write is reported as `err`
together with the truncated file. -/
inductive IoFail where
  | err
  | panic
deriving DecidableEq, Repr

/-- Result of a call. -/
abbrev Io (α : Type) : Type := Except IoFail α

/-- A path, as bytes. -/
abbrev Path : Type := List Byte

/-- What a path can be. -/
inductive Entry where
  | dir
  | file (bytes : List Byte)
deriving DecidableEq

/-- The file system. -/
abbrev FS : Type := Path → Option Entry

/-- What happens to a `File::create` followed by writes. -/
inductive Write where
  | done
  | noCreate
  | cut (k : ℕ)

/-- `File::create(path)?; ...write(&mut file)?`, src/utils.rs:204-205, 338-339, 381-382. -/
def writeFile (fs : FS) (p : Path) (bytes : List Byte) : Write → FS × Io Unit
  | .noCreate => (fs, .error .err)
  | .done => if fs p = some .dir then (fs, .error .err)
      else (Function.update fs p (some (.file bytes)), .ok ())
  | .cut k => if fs p = some .dir then (fs, .error .err)
      else (Function.update fs p (some (.file (bytes.take k))), .error .err)

/-- `ParamsKZG<Bn256>` (external, halo2): in the format `RawBytesUnchecked` points are byte strings
that are not inspected (64 bytes for G1, 128 for G2).  The field `n` is `2^k`. -/
structure Params where
  k : ℕ
  g : List (List Byte)
  gLagrange : List (List Byte)
  g2 : List Byte
  sg2 : List Byte
deriving DecidableEq

/-- What halo2 guarantees of a `ParamsKZG`. -/
structure Params.Wf (p : Params) : Prop where
  k_lt : p.k < 2 ^ 32
  g_len : p.g.length = 2 ^ p.k
  gl_len : p.gLagrange.length = 2 ^ p.k
  g_pt : ∀ b ∈ p.g, b.length = 64
  gl_pt : ∀ b ∈ p.gLagrange, b.length = 64
  g2_len : p.g2.length = 128
  sg2_len : p.sg2.length = 128

/-- `ParamsKZG::write_custom(RawBytesUnchecked)` (external; called at src/utils.rs:205). -/
def Params.write (p : Params) : List Byte :=
  leBytes 4 p.k ++ p.g.flatten ++ p.gLagrange.flatten ++ p.g2 ++ p.sg2

/-- `read_exact` of `len` bytes. -/
def readExact (eof : IoFail) (len : ℕ) (bs : List Byte) : Io (List Byte × List Byte) :=
  if bs.length < len then .error eof else .ok (bs.take len, bs.drop len)

/-- `n` raw points of `len` bytes each. -/
def readPoints (eof : IoFail) (len : ℕ) : ℕ → List Byte → Io (List (List Byte) × List Byte)
  | 0, bs => .ok ([], bs)
  | n + 1, bs => do
    let (p, bs) ← readExact eof len bs
    let (ps, bs) ← readPoints eof len n bs
    return (p :: ps, bs)

/-- `ParamsKZG::read_custom(RawBytesUnchecked)` (external; called at src/utils.rs:248).  The degree is
read from the file; bytes after the last point are ignored.  The end of the file within the points is
a panic or an error depending on the version of halo2curves (parameter `eof`). -/
def readParams (eof : IoFail) (bs : List Byte) : Io Params := do
  let (h, bs) ← readExact .err 4 bs
  let k := ofLE h
  let (g, bs) ← readPoints eof 64 (2 ^ k) bs
  let (gl, bs) ← readPoints eof 64 (2 ^ k) bs
  let (g2, bs) ← readExact eof 128 bs
  let (sg2, _) ← readExact eof 128 bs
  return ⟨k, g, gl, g2, sg2⟩

/-- The external halo2 functions used by the cache. -/
structure Halo2 where
  eof : IoFail
  /-- `g_to_lagrange`, called by `ParamsKZG::downsize`. -/
  toLagrange : List (List Byte) → ℕ → List (List Byte)
  Vk : Type
  Pk : Type
  /-- `keygen_vk(params, DkgCircuit::dummy(cfg))`; `none` is the `expect` panic. -/
  keygenVk : Params → DkgConfig → Option Vk
  /-- `keygen_pk(params, vk, DkgCircuit::dummy(cfg))`. -/
  keygenPk : Params → Vk → DkgConfig → Option Pk
  writeVk : Vk → List Byte
  readVk : List Byte → Io Vk
  writePk : Pk → List Byte
  readPk : List Byte → Io Pk

/-- `MAX_DEGREE`, src/utils.rs:30. -/
def maxDegree : ℕ := 22

/-- `ParamsKZG::downsize` (external; src/utils.rs:201). -/
def Params.downsize (H : Halo2) (p : Params) (degree : ℕ) : Io Params :=
  if degree ≤ p.k then
    .ok ⟨degree, p.g.take (2 ^ degree), H.toLagrange (p.g.take (2 ^ degree)) degree, p.g2, p.sg2⟩
  else .error .panic

/-- `format!("{params_dir}/params{degree}")`, src/utils.rs:187, 194, 223. -/
def paramsPath (dir : Path) (degree : ℕ) : Path := dir ++ strBytes "/params" ++ decimal degree

/-- The path of a verifying or proving key with the feature `g2chip`, src/utils.rs:265, 291, 333,
376. -/
def keyPath (kind : String) (dir : Path) (cfg : DkgConfig) (degree : ℕ) : Path :=
  dir ++ strBytes "/" ++ strBytes kind ++ strBytes "-g2-" ++ decimal cfg.threshold ++ strBytes "-" ++
    decimal cfg.numberOfMembers ++ strBytes "-" ++ decimal degree

/-- Path of a verifying key. -/
def vkPath (dir : Path) (cfg : DkgConfig) (degree : ℕ) : Path := keyPath "vk" dir cfg degree
/-- Path of a proving key. -/
def pkPath (dir : Path) (cfg : DkgConfig) (degree : ℕ) : Path := keyPath "pk" dir cfg degree

/-- `expected_len`, src/utils.rs:234-242, in checked `u64` arithmetic (debug build: an overflow, which
happens from degree 57 on, panics). -/
def expectedLen (degree : ℕ) : Io ℕ :=
  if degree > 56 then .error .panic
  else
    let g1Num := 2 * 2 ^ degree
    .ok (4 + g1Num * 64 + 2 * (2 * 64))

/-- Contents of a file that is opened and read (a directory can be opened, but its length or the read
fails). -/
def openFile (fs : FS) (p : Path) : Io (List Byte) :=
  match fs p with
  | some (.file b) => .ok b
  | _ => .error .err

/-- `load_params`, src/utils.rs:215-251, with `DEFAULT_SERDE_FORMAT`. -/
def loadParams (H : Halo2) (fs : FS) (paramsDir : Path) (degree : ℕ) : Io Params := do
  let path ← match fs paramsDir with
    | none => .error .err
    | some .dir => .ok (paramsPath paramsDir degree)
    | some (.file _) => .ok paramsDir
  let b ← openFile fs path
  let len ← expectedLen degree
  if b.length ≠ len then .error .err
  readParams H.eof b

/-- `load_or_create_params`, src/utils.rs:185-212: first `if let Ok`, then the maximal parameters. -/
def loadOrCreateParams (H : Halo2) (fs : FS) (dir : Path) (degree : ℕ) (w : Write) :
    FS × Io Params :=
  match loadParams H fs (paramsPath dir degree) degree with
  | .ok p => (fs, .ok p)
  | .error .panic => (fs, .error .panic)
  | .error .err =>
    match loadParams H fs (paramsPath dir maxDegree) maxDegree with
    | .error .panic => (fs, .error .panic)
    | .error .err => (fs, .error .err)
    | .ok p =>
      if degree < maxDegree then
        match p.downsize H degree with
        | .error f => (fs, .error f)
        | .ok p' =>
          match writeFile fs (paramsPath dir degree) p'.write w with
          | (fs', .ok ()) => (fs', .ok p')
          | (fs', .error f) => (fs', .error f)
      else (fs, .ok p)

/-- `load_vk`, src/utils.rs:279-303. -/
def loadVk (H : Halo2) (fs : FS) (cfg : DkgConfig) (dir : Path) (degree : ℕ) : Io H.Vk := do
  let path ← match fs dir with
    | none => .error .err
    | some .dir => .ok (vkPath dir cfg degree)
    | some (.file _) => .ok dir
  let b ← openFile fs path
  H.readVk b

/-- `load_pk`, src/utils.rs:253-277. -/
def loadPk (H : Halo2) (fs : FS) (cfg : DkgConfig) (dir : Path) (degree : ℕ) : Io H.Pk := do
  let path ← match fs dir with
    | none => .error .err
    | some .dir => .ok (pkPath dir cfg degree)
    | some (.file _) => .ok dir
  let b ← openFile fs path
  H.readPk b

/-- `load_or_create_vk`, src/utils.rs:305-343. -/
def loadOrCreateVk (H : Halo2) (fs : FS) (cfg : DkgConfig) (dir : Path) (params : Params)
    (degree : ℕ) (w : Write) : FS × Io H.Vk :=
  if fs dir ≠ some .dir then (fs, .error .err)
  else match loadVk H fs cfg dir degree with
    | .ok vk => (fs, .ok vk)
    | .error .panic => (fs, .error .panic)
    | .error .err =>
      match H.keygenVk params cfg with
      | none => (fs, .error .panic)
      | some vk =>
        match writeFile fs (vkPath dir cfg degree) (H.writeVk vk) w with
        | (fs', .ok ()) => (fs', .ok vk)
        | (fs', .error f) => (fs', .error f)

/-- `load_or_create_pk`, src/utils.rs:345-386. -/
def loadOrCreatePk (H : Halo2) (fs : FS) (cfg : DkgConfig) (dir : Path) (params : Params)
    (degree : ℕ) (wv wp : Write) : FS × Io H.Pk :=
  if fs dir ≠ some .dir then (fs, .error .err)
  else match loadPk H fs cfg dir degree with
    | .ok pk => (fs, .ok pk)
    | .error .panic => (fs, .error .panic)
    | .error .err =>
      match loadOrCreateVk H fs cfg dir params degree wv with
      | (fs1, .error f) => (fs1, .error f)
      | (fs1, .ok vk) =>
        match H.keygenPk params vk cfg with
        | none => (fs1, .error .panic)
        | some pk =>
          match writeFile fs1 (pkPath dir cfg degree) (H.writePk pk) wp with
          | (fs2, .ok ()) => (fs2, .ok pk)
          | (fs2, .error f) => (fs2, .error f)

/-- `DkgCommands::Verify` and `setup`/`DkgCommands::Prove` obtain the parameters first and pass them on
with the same degree: bin/client.rs:240-254, 428-440, 491-503. -/
def clientVk (H : Halo2) (fs : FS) (cfg : DkgConfig) (dir : Path) (degree : ℕ) (w0 w1 : Write) :
    FS × Io H.Vk :=
  match loadOrCreateParams H fs dir degree w0 with
  | (fs1, .error f) => (fs1, .error f)
  | (fs1, .ok params) => loadOrCreateVk H fs1 cfg dir params degree w1

/-- As `clientVk`, for the proving key. -/
def clientPk (H : Halo2) (fs : FS) (cfg : DkgConfig) (dir : Path) (degree : ℕ) (w0 w1 w2 : Write) :
    FS × Io H.Pk :=
  match loadOrCreateParams H fs dir degree w0 with
  | (fs1, .error f) => (fs1, .error f)
  | (fs1, .ok params) => loadOrCreatePk H fs1 cfg dir params degree w1 w2

end Verif.Cache
