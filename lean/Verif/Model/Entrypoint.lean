import Verif.Model.Cache

/-!
Model of entrypoint.sh, the start script of the container that prepares the parameters (ops/docker/Dockerfile.init,
service `init` of docker-compose), and of `client setup --skip`.

The image has no command, so that `exec "$@"` in the last line does nothing.  The directory `kzg_params` of the script is the
directory of the client (`KZG_PARAMS_DIR`, bin/client.rs).  Simplification: the variables THRESHOLD, NUMBER_OF_MEMBERS and
DEGREE are numbers in the usual notation (the client reads them as C70 says; with a variable that is not set the script ends
at once).
-/

namespace Verif.Cache

/-- How a download can end: nothing is written (no answer, an HTTP error; or the container is stopped before), it breaks off
after some bytes (or the container is stopped), or the file arrives. -/
inductive Download where
  | refused
  | broken (k : ℕ)
  | complete

/-- `curl -f -o file url`, entrypoint.sh:16, where `bytes` is what the server has.  curl leaves what it has received. -/
def download (fs : FS) (p : Path) (bytes : List Byte) : Download → FS × Bool
  | .refused => (fs, false)
  | .broken k => if fs p = some .dir then (fs, false) else (Function.update fs p (some (.file (bytes.take k))), false)
  | .complete => if fs p = some .dir then (fs, false) else (Function.update fs p (some (.file bytes)), true)

/-- `[ -f file ]`, entrypoint.sh:10. -/
def isFile (fs : FS) (p : Path) : Bool :=
  match fs p with
  | some (.file _) => true
  | _ => false

/-- `touch file`, entrypoint.sh:27; `ok` is false if the container is stopped before. -/
def touch (fs : FS) (p : Path) (ok : Bool) : FS × Bool :=
  if ok = false then (fs, false)
  else match fs p with
    | none => (Function.update fs p (some (.file [])), true)
    | some _ => (fs, true)

/-- The name of the file that says that the keys are ready, entrypoint.sh:27. -/
def healthPath (dir : Path) (threshold members degree : ℕ) : Path :=
  dir ++ strBytes "/health_check_" ++ decimal threshold ++ strBytes "_" ++ decimal members ++ strBytes "_" ++ decimal degree

/-- `setup` with `--skip`, bin/client.rs:238-258: parameters, configuration, proving key. -/
def setupSkip (H : Halo2) (fs : FS) (threshold members degree : ℕ) (dir : Path) (w0 w1 w2 : Write) : FS × Bool :=
  match loadOrCreateParams H fs dir degree w0 with
  | (fs1, .error _) => (fs1, false)
  | (fs1, .ok params) =>
    match DkgConfig.new threshold members with
    | .error _ => (fs1, false)
    | .ok cfg =>
      match loadOrCreatePk H fs1 cfg dir params degree w1 w2 with
      | (fs2, .error _) => (fs2, false)
      | (fs2, .ok _) => (fs2, true)

/-- What happens to a run of the script: the download, the three files that the client may write, the last file. -/
structure Fate where
  download : Download
  params : Write
  vk : Write
  pk : Write
  touch : Bool

/-- entrypoint.sh:1-30: the files afterwards, and whether the script comes to its last line (which for the service
`init` means that it completes successfully, and the nodes are started: docker-compose.yml, `service_completed_successfully`).
`server d` is the file of degree `d` on the server. -/
def entrypoint (H : Halo2) (server : ℕ → List Byte) (fs : FS) (dir : Path) (threshold members degree : ℕ) (f : Fate) :
    FS × Bool :=
  match (if isFile fs (paramsPath dir degree) then (fs, true)
      else download fs (paramsPath dir degree) (server degree) f.download) with
  | (fs1, false) => (fs1, false)
  | (fs1, true) =>
    match setupSkip H fs1 threshold members degree dir f.params f.vk f.pk with
    | (fs2, false) => (fs2, false)
    | (fs2, true) => touch fs2 (healthPath dir threshold members degree) f.touch

end Verif.Cache
