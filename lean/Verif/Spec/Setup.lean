import Verif.Model.Setup
import Verif.Spec.Cache

/-!
Specification of `client setup`: what the contracts have to be, and the histories.
-/

namespace Verif.Cache

/-- Law of the external halo2 library: the verifying key in a proving key is the one it was generated with. -/
def Generator.Lawful {H : Halo2} (G : Generator H) : Prop :=
  ∀ p v c x, H.keygenPk p v c = some x → G.getVk x = v

/-- The verifying key of a configuration and degree, generated without any cache from the parameters `M`. -/
def TheKey (H : Halo2) (M : Params) (t n d : ℕ) (v : H.Vk) : Prop :=
  ∃ cfg, DkgConfig.new t n = .ok cfg ∧ H.keygenVk (paramsFor H M d) cfg = some v

/-- One thing that can happen to the directory of the client: the commands and removals of `Op`, and `setup`. -/
inductive SetupOp where
  | client (op : Op)
  | setup (t n d : ℕ) (skip split : Bool) (w0 w1 w2 w3 w4 : Write)

/-- Its effect on the files. -/
def SetupOp.run (H : Halo2) (G : Generator H) (fs : FS) : SetupOp → FS
  | .client op => op.run H kzgDir fs
  | .setup t n d skip split w0 w1 w2 w3 w4 => (Cache.setup H G fs t n d skip split w0 w1 w2 w3 w4).1

/-- The file systems that can arise from `fs0`, with any mixture of configurations, degrees, failures and crash points. -/
inductive SetupRuns (H : Halo2) (G : Generator H) (fs0 : FS) : FS → Prop where
  | init : SetupRuns H G fs0 fs0
  | step {fs} (op : SetupOp) : SetupRuns H G fs0 fs → SetupRuns H G fs0 (op.run H G fs)

end Verif.Cache
