import Verif.Spec.Dirs
import Verif.Spec.Maps
import Verif.Spec.Static
/-!
# Specification of bare requests with description files
-/

namespace Verif

/-- Where a request leads: to a file (with a query and a fragment), to "ignored", or to an error. -/
inductive Hit where
  | file (path query fragment : Str)
  | ignored
  | fail (e : Err)

/-- What is found, with a query and a fragment. -/
def Got.hit (query fragment : Str) : Got → Hit
  | .file p => .file p query fragment
  | .ignored => .ignored

/-- What is at a path, with a query and a fragment; `none`: nothing. -/
def Loc.hit (query fragment : Str) : Loc → Option Hit
  | .got g => some (g.hit query fragment)
  | .missing => none
  | .broken e => some (.fail e)

/-- The exports of a package count for a request: it lies below `node_modules`, or the request starts
with its name. -/
def ExportsApply (pkg : Pkg) (target : Str) : Prop :=
  cs!"node_modules" <:+: pkg.absDir ∨ ∃ name, pkg.name = some name ∧ name <+: target

/-- The request starts with the name of the package found. -/
def OwnName (pkg : Option Pkg) (target : Str) : Prop :=
  ∃ p name, pkg = some p ∧ p.name = some name ∧ name <+: target

/-- What is looked up in exports: `rest` is what follows the package name. A query and a fragment are
taken for a part of the request. -/
def exportsKey (rest query fragment : Str) : Str :=
  if query = [] ∧ fragment = [] then '.' :: rest
  else (if rest = [] then cs!"./" else '.' :: rest) ++ query ++ fragment

/-- The targets that the exports of a package give. -/
def Mapped (o : Opts) (pkg : Pkg) (key : Str) (out : Except Err (List Str)) : Prop :=
  ∃ tree, pkg.exportsTree = some tree ∧
    fieldProcess .exports tree key o.conditionNames = some out

/-- The containment check: going through the segments of a target but for the last one, those that
start with `..` never outnumber those that do not start with `.`. -/
def Contained (t : Str) : Prop :=
  ∀ pre, pre <+: (splitC '/' t).dropLast →
    pre.countP (fun s => cs!"..".isPrefixOf s) ≤ pre.countP (fun s => !cs!".".isPrefixOf s)

/-- A target that names a file and passes the containment check. -/
def Usable (fs : Fs) (dir t : Str) : Prop :=
  fs.isFile (targetPath dir (parseRequest t).target) = true ∧ Contained (parseRequest t).target

/-- The path that a target of exports stands for. -/
def exportPath (dir t : Str) : Str :=
  if getTargetKind t = .normal then pjoin dir (cs!"./" ++ t) else targetPath dir t

/-- There is a directory for the package, or the request comes from the package itself. -/
def HasPackage (fs : Fs) (d name target : Str) (pkg : Option Pkg) : Prop :=
  fs.isDir (pjoin (pjoin d cs!"node_modules") name) = true ∨ OwnName pkg target

/-- The package found is asked for what follows the name: there is a directory for it, or the request
starts with its name, and does not end in the middle of another one. -/
def Entered (fs : Fs) (d name rest : Str) (pkg : Pkg) : Prop :=
  fs.isDir (pjoin (pjoin d cs!"node_modules") name) = true ∨
    OwnName (some pkg) (name ++ rest) ∧ (rest ≠ [] ∨ pkg.name = some name ∨
      fs.pathExists (pjoin (pjoin d cs!"node_modules") name) = true)

/-- What a bare target gives in `d/node_modules`: `target = name ++ rest` where `name` is the package
name. `none`: the search goes on. Nothing is said about a package that is a directory which does not
resolve, and about targets of exports that start with `#`. -/
inductive StepOut (o : Opts) (fs : Fs) (load : Str → Except Err (Option Pkg) → Prop)
    (name rest query fragment d : Str) : Option Hit → Prop where
  /-- no `node_modules` -/
  | noModules : fs.isDir (pjoin d cs!"node_modules") = false →
      StepOut o fs load name rest query fragment d none
  /-- a description file that cannot be loaded -/
  | broken {e : Err} : fs.isDir (pjoin d cs!"node_modules") = true →
      load (pjoin (pjoin d cs!"node_modules") (name ++ rest)) (.error e) →
      StepOut o fs load name rest query fragment d (some (.fail e))
  /-- a file next to the packages -/
  | file {pkg : Option Pkg} {p : Str} : fs.isDir (pjoin d cs!"node_modules") = true →
      load (pjoin (pjoin d cs!"node_modules") (name ++ rest)) (.ok pkg) →
      ¬ HasPackage fs d name (name ++ rest) pkg →
      FirstIn (fun p => fs.isFile p = true)
        (fileCandidates o (pjoin (pjoin d cs!"node_modules") (name ++ rest))) p →
      StepOut o fs load name rest query fragment d (some (.file p query fragment))
  /-- no package and no file -/
  | missing {pkg : Option Pkg} : fs.isDir (pjoin d cs!"node_modules") = true →
      load (pjoin (pjoin d cs!"node_modules") (name ++ rest)) (.ok pkg) →
      ¬ HasPackage fs d name (name ++ rest) pkg →
      (∀ p ∈ fileCandidates o (pjoin (pjoin d cs!"node_modules") (name ++ rest)),
        fs.isFile p = false) →
      StepOut o fs load name rest query fragment d none
  /-- a package with exports: what is at the first usable target -/
  | mapped {pkg : Pkg} {l : List Str} {t y : Str} {r : Loc} : fs.isDir (pjoin d cs!"node_modules") = true →
      load (pjoin (pjoin d cs!"node_modules") (name ++ rest)) (.ok (some pkg)) →
      Entered fs d name rest pkg → ExportsApply pkg (name ++ rest) →
      Mapped o pkg (exportsKey rest query fragment) (.ok l) →
      FirstIn (Usable fs pkg.absDir) l t → ¬ cs!"#" <+: (parseRequest t).target →
      Swap o (some pkg) (exportPath pkg.absDir (parseRequest t).target) (some y) →
      AtPath o fs load y r →
      StepOut o fs load name rest query fragment d (r.hit (parseRequest t).query (parseRequest t).fragment)
  /-- a package with exports, and a target to be ignored -/
  | mappedDropped {pkg : Pkg} {l : List Str} {t : Str} : fs.isDir (pjoin d cs!"node_modules") = true →
      load (pjoin (pjoin d cs!"node_modules") (name ++ rest)) (.ok (some pkg)) →
      Entered fs d name rest pkg → ExportsApply pkg (name ++ rest) →
      Mapped o pkg (exportsKey rest query fragment) (.ok l) →
      FirstIn (Usable fs pkg.absDir) l t → ¬ cs!"#" <+: (parseRequest t).target →
      Swap o (some pkg) (exportPath pkg.absDir (parseRequest t).target) none →
      StepOut o fs load name rest query fragment d (some .ignored)
  /-- a package with exports and no usable target -/
  | notExported {pkg : Pkg} {l : List Str} : fs.isDir (pjoin d cs!"node_modules") = true →
      load (pjoin (pjoin d cs!"node_modules") (name ++ rest)) (.ok (some pkg)) →
      Entered fs d name rest pkg → ExportsApply pkg (name ++ rest) →
      Mapped o pkg (exportsKey rest query fragment) (.ok l) →
      (∀ t ∈ l, ¬ Usable fs pkg.absDir t) →
      StepOut o fs load name rest query fragment d (some (.fail (.notExported (name ++ rest))))
  /-- a package with exports that give an error -/
  | exportsError {pkg : Pkg} {e : Err} : fs.isDir (pjoin d cs!"node_modules") = true →
      load (pjoin (pjoin d cs!"node_modules") (name ++ rest)) (.ok (some pkg)) →
      Entered fs d name rest pkg → ExportsApply pkg (name ++ rest) →
      Mapped o pkg (exportsKey rest query fragment) (.error e) →
      StepOut o fs load name rest query fragment d (some (.fail e))
  /-- no package, and a package with exports whose name is the beginning of that of the request -/
  | otherName {pkg : Pkg} : fs.isDir (pjoin d cs!"node_modules") = true →
      load (pjoin (pjoin d cs!"node_modules") (name ++ rest)) (.ok (some pkg)) →
      OwnName (some pkg) name → rest = [] → pkg.name ≠ some name → pkg.exportsTree ≠ none →
      fs.pathExists (pjoin (pjoin d cs!"node_modules") name) = false →
      StepOut o fs load name rest query fragment d none
  /-- a package without exports: what is in it -/
  | plain {pkg : Option Pkg} {y : Str} {r : Loc} : fs.isDir (pjoin d cs!"node_modules") = true →
      load (pjoin (pjoin d cs!"node_modules") (name ++ rest)) (.ok pkg) →
      HasPackage fs d name (name ++ rest) pkg →
      (∀ p, pkg = some p → ExportsApply p (name ++ rest) → p.exportsTree = none) →
      Swap o pkg (pjoin (pjoin d cs!"node_modules") (cs!"./" ++ (name ++ rest))) (some y) →
      AtPath o fs load y r →
      StepOut o fs load name rest query fragment d (r.hit query fragment)
  /-- a package without exports that says that the path is to be ignored -/
  | plainDropped {pkg : Option Pkg} : fs.isDir (pjoin d cs!"node_modules") = true →
      load (pjoin (pjoin d cs!"node_modules") (name ++ rest)) (.ok pkg) →
      HasPackage fs d name (name ++ rest) pkg →
      (∀ p, pkg = some p → ExportsApply p (name ++ rest) → p.exportsTree = none) →
      Swap o pkg (pjoin (pjoin d cs!"node_modules") (cs!"./" ++ (name ++ rest))) none →
      StepOut o fs load name rest query fragment d (some .ignored)

/-- The search through the `node_modules` of directories, in order. -/
inductive SearchOut (o : Opts) (fs : Fs) (load : Str → Except Err (Option Pkg) → Prop)
    (name rest query fragment : Str) : List Str → Option Hit → Prop where
  | nil : SearchOut o fs load name rest query fragment [] none
  | hit {d : Str} {l : List Str} {h : Hit} :
      StepOut o fs load name rest query fragment d (some h) →
      SearchOut o fs load name rest query fragment (d :: l) (some h)
  | next {d : Str} {l : List Str} {r : Option Hit} :
      StepOut o fs load name rest query fragment d none →
      SearchOut o fs load name rest query fragment l r →
      SearchOut o fs load name rest query fragment (d :: l) r

/-- A target that is a path. -/
def IsPath (target : Str) : Prop :=
  getTargetKind target = .relative ∨ getTargetKind target = .absolutePosix ∨
    getTargetKind target = .absoluteWin

/-- What a path gives. Nothing is said about a directory that does not resolve, and about a `browser`
entry with a bare replacement. -/
inductive PathOut (o : Opts) (fs : Fs) (load : Str → Except Err (Option Pkg) → Prop)
    (query fragment x : Str) : Option Hit → Prop where
  /-- a description file that cannot be loaded -/
  | broken {e : Err} : load x (.error e) → PathOut o fs load query fragment x (some (.fail e))
  /-- what is there -/
  | here {pkg : Option Pkg} {r : Loc} : load x (.ok pkg) → NotCovered o pkg x → AtPath o fs load x r →
      PathOut o fs load query fragment x (r.hit query fragment)
  /-- what is there in its place -/
  | moved {pkg : Pkg} {t : Str} {r : Loc} : load x (.ok (some pkg)) → Replaced o pkg x (.target t) →
      IsPath t → AtPath o fs load (targetPath pkg.absDir t) r →
      PathOut o fs load query fragment x (r.hit query fragment)
  /-- to be ignored -/
  | dropped {pkg : Pkg} : load x (.ok (some pkg)) → Replaced o pkg x .ignored →
      PathOut o fs load query fragment x (some .ignored)

/-- What a bare target gives from a base directory. The package that belongs to the target below the
base directory's own `node_modules` is looked at first. Nothing is said about targets for which its
`browser` map has an entry. -/
inductive BareOut (o : Opts) (fs : Fs) (load : Str → Except Err (Option Pkg) → Prop)
    (name rest query fragment path : Str) : List Str → Option Hit → Prop where
  | broken {dirs : List Str} {e : Err} :
      load (pjoin (pjoin path cs!"node_modules") (name ++ rest)) (.error e) →
      BareOut o fs load name rest query fragment path dirs (some (.fail e))
  | search {dirs : List Str} {pkg : Option Pkg} {r : Option Hit} :
      load (pjoin (pjoin path cs!"node_modules") (name ++ rest)) (.ok pkg) →
      NotKeyed o pkg (name ++ rest) →
      SearchOut o fs load name rest query fragment dirs r →
      BareOut o fs load name rest query fragment path dirs r

/-- Looking for the package of a path gives this. -/
def Loads (o : Opts) (fs : Fs) (p : Str) (r : Except Err (Option Pkg)) : Prop :=
  findPkg fs o.descriptionFile p = .ret r

/-- What is returned for a file found: its final form, or the error "Path normalized failed". -/
inductive FileAnswer (o : Opts) (fs : Fs) (p query fragment : Str) : Except Err Result → Prop where
  | path {q : Str} : FinalPath o fs p q →
      FileAnswer o fs p query fragment (.ok (.info ⟨q, ⟨[], query, fragment, .relative⟩⟩))
  | noPath : o.symlinks = true → fs.canon p = none →
      FileAnswer o fs p query fragment (.error .normalizeFailed)

/-- `resolve` always comes to this, after any history: the file (in its final form), "ignored" or the
error; or, if there is nothing, the error "Resolve … failed in …". -/
def HitYields (cfg : Nat → Config) (ser : Json → Str) (fs : Fs) (rid : Nat) (path request : Str) :
    Option Hit → Prop
  | some (.file p query fragment) => ∃ a, FileAnswer (cfg rid).opts fs p query fragment a ∧
    Yields cfg ser fs rid path request a
  | some .ignored => Yields cfg ser fs rid path request (.ok .ignored)
  | some (.fail e) => Yields cfg ser fs rid path request (.error e)
  | none => Yields cfg ser fs rid path request (.error (.failed request path))

/-- Nothing but description files has a say: no alias for the target, no `prefer_relative`, no
tsconfig. -/
structure Plain (o : Opts) (path target : Str) : Prop where
  tsconfig : o.tsconfig = none
  alias : cs!"node_modules" <:+: path ∨ ∀ kv ∈ o.alias, ¬ kv.1 <+: target
  prefer : o.preferRelative = false ∨ cs!"./" <+: target ∨ cs!"../" <+: target
end Verif
