import Verif.Spec.BrowserMap
/-!
# Specification of the resolution of directories
-/

namespace Verif

/-- The string values of the main fields of a package, in order. -/
def mainValues (o : Opts) (pkg : Pkg) : List Str :=
  o.mainFields.filterMap fun f => (pkg.raw.get f).bind Json.asStr

/-- The path a main field of a package in `dir` names. -/
def fieldPath (dir v : Str) : Str :=
  pjoin dir (if cs!"./" <+: v then v else cs!"./" ++ v)

/-- What is found: a file, or that there is nothing to be used. -/
inductive Got where
  | file (p : Str)
  | ignored

/-- What the main files of a directory resolve to; `pkg` is the package found from the directory. Nothing
is said about main files after one that the `browser` map of a package above replaces by something that
is not there. -/
inductive FilesOut (o : Opts) (fs : Fs) (pkg : Option Pkg) (dir : Str) : List Str → Option Got → Prop where
  /-- none left -/
  | nil : FilesOut o fs pkg dir [] none
  /-- a main file that is to be ignored -/
  | dropped {m : Str} {l : List Str} : Swap o pkg (pjoin dir (cs!"./" ++ m)) none →
      FilesOut o fs pkg dir (m :: l) (some .ignored)
  /-- a file -/
  | file {m y p : Str} {l : List Str} : Swap o pkg (pjoin dir (cs!"./" ++ m)) (some y) →
      FirstIn (fun p => fs.isFile p = true) (fileCandidates o y) p →
      FilesOut o fs pkg dir (m :: l) (some (.file p))
  /-- no file -/
  | next {m : Str} {l : List Str} {r : Option Got} : NotCovered o pkg (pjoin dir (cs!"./" ++ m)) →
      (∀ p ∈ fileCandidates o (pjoin dir (cs!"./" ++ m)), fs.isFile p = false) →
      FilesOut o fs pkg dir l r → FilesOut o fs pkg dir (m :: l) r
  /-- a replacement that is no file -/
  | gone {m t : Str} {p : Pkg} {l : List Str} {r : Option Got} : pkg = some p →
      Replaced o p (pjoin dir (cs!"./" ++ m)) (.target t) →
      (∀ q ∈ fileCandidates o (targetPath p.absDir t), fs.isFile q = false) →
      l = [] ∨ comps dir = comps p.absDir → FilesOut o fs pkg dir l r → FilesOut o fs pkg dir (m :: l) r

mutual
/-- What a directory resolves to. `load d r`: looking for the package of `d` gives `r`. Nothing is said
about main fields after one that names a directory which does not resolve. -/
inductive DirOut (o : Opts) (fs : Fs) (load : Str → Except Err (Option Pkg) → Prop) :
    Str → Option Got → Prop where
  /-- a main field of the directory's own package decides -/
  | field {dir : Str} {g : Got} {pkg : Pkg} : load dir (.ok (some pkg)) → comps dir = comps pkg.absDir →
      FieldsOut o fs load pkg dir (mainValues o pkg) (some g) → DirOut o fs load dir (some g)
  /-- no package -/
  | noPkg {dir : Str} {r : Option Got} : load dir (.ok none) → FilesOut o fs none dir o.mainFiles r →
      DirOut o fs load dir r
  /-- the package of another directory -/
  | otherPkg {dir : Str} {pkg : Pkg} {r : Option Got} : load dir (.ok (some pkg)) →
      comps dir ≠ comps pkg.absDir → FilesOut o fs (some pkg) dir o.mainFiles r → DirOut o fs load dir r
  /-- no main field resolves -/
  | noField {dir : Str} {pkg : Pkg} {r : Option Got} : load dir (.ok (some pkg)) →
      comps dir = comps pkg.absDir → FieldsOut o fs load pkg dir (mainValues o pkg) none →
      FilesOut o fs (some pkg) dir o.mainFiles r → DirOut o fs load dir r

/-- What the main fields of a package in the directory resolve to. -/
inductive FieldsOut (o : Opts) (fs : Fs) (load : Str → Except Err (Option Pkg) → Prop) :
    Pkg → Str → List Str → Option Got → Prop where
  /-- no value left -/
  | nil {pkg : Pkg} {dir : Str} : FieldsOut o fs load pkg dir [] none
  /-- a value that names the directory itself: its main files are used -/
  | self {pkg : Pkg} {dir v : Str} {l : List Str} : v = cs!"." ∨ v = cs!"./" →
      FieldsOut o fs load pkg dir (v :: l) none
  /-- the value names something that is to be ignored -/
  | dropped {pkg : Pkg} {dir v : Str} {l : List Str} : v ≠ cs!"." → v ≠ cs!"./" →
      Swap o (some pkg) (fieldPath dir v) none → FieldsOut o fs load pkg dir (v :: l) (some .ignored)
  /-- the value names a file -/
  | file {pkg : Pkg} {dir v y p : Str} {l : List Str} : v ≠ cs!"." → v ≠ cs!"./" →
      Swap o (some pkg) (fieldPath dir v) (some y) →
      FirstIn (fun p => fs.isFile p = true) (fileCandidates o y) p →
      FieldsOut o fs load pkg dir (v :: l) (some (.file p))
  /-- the value names a directory that resolves -/
  | dir {pkg : Pkg} {dir v y : Str} {g : Got} {l : List Str} : v ≠ cs!"." → v ≠ cs!"./" →
      Swap o (some pkg) (fieldPath dir v) (some y) →
      (∀ p ∈ fileCandidates o y, fs.isFile p = false) →
      fs.isDir y = true → DirOut o fs load y (some g) →
      FieldsOut o fs load pkg dir (v :: l) (some g)
  /-- the value names nothing -/
  | missing {pkg : Pkg} {dir v y : Str} {l : List Str} {r : Option Got} : v ≠ cs!"." → v ≠ cs!"./" →
      Swap o (some pkg) (fieldPath dir v) (some y) →
      (∀ p ∈ fileCandidates o y, fs.isFile p = false) →
      fs.isDir y = false → FieldsOut o fs load pkg dir l r →
      FieldsOut o fs load pkg dir (v :: l) r
  /-- the value names a directory whose package cannot be loaded -/
  | broken {pkg : Pkg} {dir v y : Str} {err : Err} {l : List Str} {r : Option Got} :
      v ≠ cs!"." → v ≠ cs!"./" → Swap o (some pkg) (fieldPath dir v) (some y) →
      (∀ p ∈ fileCandidates o y, fs.isFile p = false) →
      fs.isDir y = true → load y (.error err) →
      FieldsOut o fs load pkg dir l r → FieldsOut o fs load pkg dir (v :: l) r
  /-- the last value names a directory that does not resolve -/
  | dead {pkg : Pkg} {dir v y : Str} : v ≠ cs!"." → v ≠ cs!"./" →
      Swap o (some pkg) (fieldPath dir v) (some y) →
      (∀ p ∈ fileCandidates o y, fs.isFile p = false) →
      fs.isDir y = true → DirOut o fs load y none →
      FieldsOut o fs load pkg dir [v] none
end

/-- What is at a path. Nothing is said about a directory that does not resolve. -/
inductive Loc where
  | got (g : Got)
  | missing
  | broken (e : Err)

/-- See `Loc`. -/
inductive AtPath (o : Opts) (fs : Fs) (load : Str → Except Err (Option Pkg) → Prop) (y : Str) :
    Loc → Prop where
  /-- a file -/
  | file {p : Str} : FirstIn (fun p => fs.isFile p = true) (fileCandidates o y) p →
      AtPath o fs load y (.got (.file p))
  /-- a directory -/
  | dir {g : Got} : (∀ p ∈ fileCandidates o y, fs.isFile p = false) → fs.isDir y = true →
      DirOut o fs load y (some g) → AtPath o fs load y (.got g)
  /-- neither a file nor a directory -/
  | missing : (∀ p ∈ fileCandidates o y, fs.isFile p = false) → fs.isDir y = false →
      AtPath o fs load y .missing
  /-- a directory whose package cannot be loaded -/
  | broken {e : Err} : (∀ p ∈ fileCandidates o y, fs.isFile p = false) → fs.isDir y = true →
      load y (.error e) → AtPath o fs load y (.broken e)

end Verif
