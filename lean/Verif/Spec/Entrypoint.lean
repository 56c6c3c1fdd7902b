import Verif.Model.Entrypoint
import Verif.Spec.Cache

/-!
Specification of the volume of the containers: the server, a new volume, and its histories.
-/

namespace Verif.Cache

/-- The files on the server, up to degree 22, come from one ceremony: they are those that one gets by cutting the
parameters `M` of degree 22. -/
structure Serves (H : Halo2) (M : Params) (server : ℕ → List Byte) : Prop where
  wf : M.Wf
  deg : M.k = 22
  files : ∀ d ≤ 22, server d = (paramsFor H M d).write

/-- A new volume: an empty directory. -/
structure NewVolume (dir : Path) (fs : FS) : Prop where
  isDir : fs dir = some .dir
  empty : ∀ p, p ≠ dir → fs p = none

/-- The contents of the volume after any number of runs of the script and of the client, with any configurations and
degrees (the script up to degree 22), where each can be stopped anywhere, and removals of files in `rm` (but not of the directory). -/
inductive Volume (H : Halo2) (server : ℕ → List Byte) (dir : Path) (rm : Set Path) : FS → Prop where
  | new {fs} (h : NewVolume dir fs) : Volume H server dir rm fs
  | script {fs} (t n d : ℕ) (f : Fate) (hd : d ≤ 22) (h : Volume H server dir rm fs) :
      Volume H server dir rm (entrypoint H server fs dir t n d f).1
  | client {fs} (op : Op) (hop : ∀ p, op = .remove p → p ∈ rm ∧ p ≠ dir) (h : Volume H server dir rm fs) :
      Volume H server dir rm (op.run H dir fs)

/-- The parameters of degree `d` and the proving key for `cfg` are complete, and right. -/
structure Prepared (H : Halo2) (M : Params) (fs : FS) (dir : Path) (cfg : DkgConfig) (d : ℕ) : Prop where
  params : fs (paramsPath dir d) = some (.file (paramsFor H M d).write)
  pk : ∃ v x, H.keygenVk (paramsFor H M d) cfg = some v ∧ H.keygenPk (paramsFor H M d) v cfg = some x ∧
    fs (pkPath dir cfg d) = some (.file (H.writePk x))

end Verif.Cache
