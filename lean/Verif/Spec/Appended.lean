import Verif.Spec.Packages
/-!
# Longer lists of extensions and of main files
-/

namespace Verif

/-- The options with more extensions and main files at the end of the lists. -/
def Opts.appended (o : Opts) (exts mains : List Str) : Opts :=
  { o with extensions := o.extensions ++ exts, mainFiles := o.mainFiles ++ mains }

/-- A file that only the longer lists lead to: its name is some path with a new extension, or a new
main file in some directory. -/
def NewFile (o : Opts) (exts mains : List Str) (fs : Fs) (p : Str) : Prop :=
  fs.isFile p = true ∧
    ((∃ base, ∃ ext ∈ exts, p = base ++ ext) ∨
      ∃ dir, ∃ m ∈ mains, p ∈ fileCandidates (o.appended exts mains) (pjoin dir (cs!"./" ++ m)))

/-- The answer is such a file in its final form (or that its path has no final form). -/
def NewAnswer (o : Opts) (exts mains : List Str) (fs : Fs) (a : Except Err Result) : Prop :=
  ∃ p query fragment, NewFile o exts mains fs p ∧ FileAnswer o fs p query fragment a

end Verif
