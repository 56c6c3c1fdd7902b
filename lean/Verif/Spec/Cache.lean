import Verif.Model.Cache

/-!
Specification of the cache: what the external serialisation must satisfy, what each cached file is
supposed to hold, and the histories of a cache directory (any number of runs of the commands with any
configurations and degrees, any I/O failure or crash point, any removal of files).
-/

namespace Verif.Cache

/-- Laws of the external halo2 functions: `downsize` produces parameters of the right shape; reading
what was written gives it back; a truncated key is not read successfully. -/
structure Halo2.Lawful (H : Halo2) : Prop where
  lagrange_len : ∀ g k, g.length = 2 ^ k → (H.toLagrange g k).length = 2 ^ k
  lagrange_pt : ∀ g k, ∀ b ∈ H.toLagrange g k, b.length = 64
  vk_read : ∀ v, H.readVk (H.writeVk v) = .ok v
  vk_cut : ∀ v k, k < (H.writeVk v).length → ∀ v', H.readVk ((H.writeVk v).take k) ≠ .ok v'
  pk_read : ∀ v, H.readPk (H.writePk v) = .ok v
  pk_cut : ∀ v k, k < (H.writePk v).length → ∀ v', H.readPk ((H.writePk v).take k) ≠ .ok v'

/-- The parameters of a degree obtained from the maximal parameters `M` without any cache: cut down
below degree 22, `M` itself otherwise. -/
def paramsFor (H : Halo2) (M : Params) (degree : ℕ) : Params :=
  if degree < 22 then
    ⟨degree, M.g.take (2 ^ degree), H.toLagrange (M.g.take (2 ^ degree)) degree, M.g2, M.sg2⟩
  else M

/-- One thing that can happen to a cache directory. -/
inductive Op where
  | params (degree : ℕ) (w : Write)
  | vk (cfg : DkgConfig) (degree : ℕ) (w0 w1 : Write)
  | pk (cfg : DkgConfig) (degree : ℕ) (w0 w1 w2 : Write)
  | remove (p : Path)

/-- Its effect on the files. -/
def Op.run (H : Halo2) (dir : Path) (fs : FS) : Op → FS
  | .params degree w => (loadOrCreateParams H fs dir degree w).1
  | .vk cfg degree w0 w1 => (clientVk H fs cfg dir degree w0 w1).1
  | .pk cfg degree w0 w1 w2 => (clientPk H fs cfg dir degree w0 w1 w2).1
  | .remove p => Function.update fs p none

/-- The file systems that can arise from `fs0`. -/
inductive Runs (H : Halo2) (dir : Path) (fs0 : FS) : FS → Prop where
  | init : Runs H dir fs0 fs0
  | step {fs} (op : Op) : Runs H dir fs0 fs → Runs H dir fs0 (op.run H dir fs)

/-- An initial cache directory: the downloaded maximal parameters `M`, and no cached file. -/
structure Fresh (dir : Path) (M : Params) (fs : FS) : Prop where
  wf : M.Wf
  deg : M.k = 22
  max : fs (paramsPath dir 22) = some (.file M.write)
  noParams : ∀ d, d ≠ 22 → fs (paramsPath dir d) = none
  noVk : ∀ cfg d, fs (vkPath dir cfg d) = none
  noPk : ∀ cfg d, fs (pkPath dir cfg d) = none

end Verif.Cache
