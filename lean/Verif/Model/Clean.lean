import Verif.Model.Setup

/-!
Model of clean.sh, which removes the keys of the cache, and of download_params.sh.
-/

namespace Verif.Cache

/-- The paths that the pattern `kzg_params/<start>*` of a shell stands for: a slash ends a pattern. -/
def Globbed (start : List Byte) (p : Path) : Prop :=
  ∃ rest, p = kzgDir ++ strBytes "/" ++ start ++ rest ∧ (47 : Byte) ∉ rest

open Classical in
/-- `rm "$params_dir"/<start>*`, clean.sh:6-7.  It removes the files that match and leaves directories, which make it fail; if
nothing matches, `rm` gets the pattern itself and fails (the pattern is the name of no file then).  The script runs in the
directory of the client.  The removals are one step: histories with single removals are in `Op.remove`. -/
noncomputable def rmAll (start : List Byte) (fs : FS) : FS × Bool :=
  (fun p => if Globbed start p ∧ fs p ≠ some .dir then none else fs p,
    decide ((∃ p, Globbed start p ∧ fs p ≠ none) ∧ ∀ p, Globbed start p → fs p ≠ some .dir))

/-- clean.sh: the files afterwards, and whether it succeeds (`set -e`). -/
noncomputable def clean (fs : FS) : FS × Bool :=
  match rmAll (strBytes "pk") fs with
  | (fs1, false) => (fs1, false)
  | (fs1, true) => rmAll (strBytes "vk") fs1

/-- download_params.sh: `rm -f` and then the download (external), which may break off.  The file is not a directory; `mkdir -p` of a
directory that exists does nothing. -/
def downloadParams (fs : FS) (bytes : List Byte) (w : Write) : FS × Io Unit :=
  writeFile (Function.update fs (paramsPath kzgDir 22) none) (paramsPath kzgDir 22) bytes w

end Verif.Cache
