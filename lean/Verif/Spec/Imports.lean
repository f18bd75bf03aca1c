import Verif.Spec.Packages
import Verif.Spec.Modules
/-!
# Specification of requests that begin with `#`
-/

namespace Verif

/-- The targets that the imports of a package give. -/
def ImportsMapped (o : Opts) (pkg : Pkg) (key : Str) (out : Except Err (List Str)) : Prop :=
  ∃ tree, pkg.importsTree = some tree ∧
    fieldProcess .imports tree key o.conditionNames = some out

/-- `target` is a bare target for the package `name`, and `rest` is what follows. -/
structure BareTarget (target name rest : Str) : Prop where
  kind : getTargetKind target = .normal
  split : target = name ++ rest
  ascii : (∀ c ∈ name, c.utf8Size = 1) ∨ rest = []
  isName : PackageName (name ++ rest) name
  scope : cs!"@" <+: name → '/' ∈ name

/-- Where a `#` request leads in the package `pkg`: `asked` is what is looked up, and the list is what imports give
for it. Only the first target counts. Nothing is said about targets that the `browser` map replaces by a bare
one. -/
inductive ImportsOut (o : Opts) (fs : Fs) (load : Str → Except Err (Option Pkg) → Prop) (pkg : Pkg) :
    Str → Except Err (List Str) → Option Hit → Prop where
  /-- imports give an error -/
  | error {asked : Str} {e : Err} : ImportsOut o fs load pkg asked (.error e) (some (.fail e))
  /-- no target -/
  | none {asked : Str} : ImportsOut o fs load pkg asked (.ok []) (some (.fail (.notExported asked)))
  /-- a path to a file in the package -/
  | path {asked t : Str} {l : List Str} {r : Loc} : IsPath (parseRequest t).target →
      Usable fs pkg.absDir t → NotCovered o (some pkg) (targetPath pkg.absDir (parseRequest t).target) →
      AtPath o fs load (targetPath pkg.absDir (parseRequest t).target) r →
      ImportsOut o fs load pkg asked (.ok (t :: l)) (r.hit (parseRequest t).query (parseRequest t).fragment)
  /-- a path for which the `browser` map has another -/
  | moved {asked t u : Str} {l : List Str} {r : Loc} : IsPath (parseRequest t).target →
      Usable fs pkg.absDir t →
      Replaced o pkg (targetPath pkg.absDir (parseRequest t).target) (.target u) → IsPath u →
      AtPath o fs load (targetPath pkg.absDir u) r →
      ImportsOut o fs load pkg asked (.ok (t :: l)) (r.hit (parseRequest t).query (parseRequest t).fragment)
  /-- a path to be ignored -/
  | dropped {asked t : Str} {l : List Str} : IsPath (parseRequest t).target → Usable fs pkg.absDir t →
      Replaced o pkg (targetPath pkg.absDir (parseRequest t).target) .ignored →
      ImportsOut o fs load pkg asked (.ok (t :: l)) (some .ignored)
  /-- a path that is no file, or leads out of the package -/
  | unusable {asked t : Str} {l : List Str} : IsPath (parseRequest t).target → ¬ Usable fs pkg.absDir t →
      ImportsOut o fs load pkg asked (.ok (t :: l)) (some (.fail (.notExported asked)))
  /-- another `#` request -/
  | again {asked t : Str} {l : List Str} {out : Except Err (List Str)} {h : Option Hit} :
      cs!"#" <+: (parseRequest t).target → ImportsMapped o pkg (parseRequest t).target out →
      ImportsOut o fs load pkg (parseRequest t).target out h →
      ImportsOut o fs load pkg asked (.ok (t :: l)) h
  /-- a bare target, and a description file that cannot be loaded -/
  | broken {asked t : Str} {l : List Str} {e : Err} : getTargetKind (parseRequest t).target = .normal →
      load (pjoin (pjoin pkg.absDir cs!"node_modules") (parseRequest t).target) (.error e) →
      ImportsOut o fs load pkg asked (.ok (t :: l)) (some (.fail e))
  /-- a bare target that is not in the `node_modules` of the package: it is searched for -/
  | search {asked t name rest : Str} {l dirs : List Str} {p : Pkg} {h : Option Hit} :
      BareTarget (parseRequest t).target name rest →
      load (pjoin (pjoin pkg.absDir cs!"node_modules") (parseRequest t).target) (.ok (some p)) →
      ¬ cs!"node_modules" <:+: p.absDir → NotKeyed o (some pkg) (parseRequest t).target →
      Ancestors (pjoin pkg.absDir cs!"node_modules") dirs →
      SearchOut o fs load name rest (parseRequest t).query (parseRequest t).fragment dirs h →
      ImportsOut o fs load pkg asked (.ok (t :: l)) h
  /-- a bare target that names a file below `node_modules`, in a package without exports -/
  | file {asked t name rest : Str} {l dirs : List Str} {p : Option Pkg} {h : Option Hit} :
      BareTarget (parseRequest t).target name rest →
      load (pjoin (pjoin pkg.absDir cs!"node_modules") (parseRequest t).target) (.ok p) →
      (∀ q, p = some q → cs!"node_modules" <:+: q.absDir ∧ q.exportsTree = .none) →
      Usable fs (pjoin pkg.absDir cs!"node_modules") t →
      NotKeyed o p (parseRequest t).target → NotKeyed o (some pkg) (parseRequest t).target →
      Ancestors (pjoin pkg.absDir cs!"node_modules") dirs →
      SearchOut o fs load name rest (parseRequest t).query (parseRequest t).fragment dirs h →
      ImportsOut o fs load pkg asked (.ok (t :: l)) h
  /-- a bare target that names no file, in a package without exports -/
  | noFile {asked t : Str} {l : List Str} {p : Option Pkg} : getTargetKind (parseRequest t).target = .normal →
      load (pjoin (pjoin pkg.absDir cs!"node_modules") (parseRequest t).target) (.ok p) →
      (∀ q, p = some q → cs!"node_modules" <:+: q.absDir ∧ q.exportsTree = .none) →
      NotKeyed o p (parseRequest t).target → ¬ Usable fs (pjoin pkg.absDir cs!"node_modules") t →
      ImportsOut o fs load pkg asked (.ok (t :: l)) (some (.fail (.notExported asked)))
  /-- a package with exports -/
  | exported {asked t name rest u : Str} {l l' : List Str} {p : Pkg} {r : Loc} :
      BareTarget (parseRequest t).target name rest →
      load (pjoin (pjoin pkg.absDir cs!"node_modules") (parseRequest t).target) (.ok (some p)) →
      cs!"node_modules" <:+: p.absDir →
      fs.isDir (pjoin (pjoin pkg.absDir cs!"node_modules") name) = true →
      Mapped o p (exportsKey rest (parseRequest t).query (parseRequest t).fragment) (.ok l') →
      FirstIn (Usable fs p.absDir) l' u → IsPath (parseRequest u).target →
      NotCovered o (some p) (targetPath p.absDir (parseRequest u).target) →
      NotCovered o (some pkg) (targetPath p.absDir (parseRequest u).target) →
      AtPath o fs load (targetPath p.absDir (parseRequest u).target) r →
      ImportsOut o fs load pkg asked (.ok (t :: l)) (r.hit (parseRequest u).query (parseRequest u).fragment)
  /-- a package with exports that give no usable target -/
  | notExported {asked t name rest : Str} {l l' : List Str} {p : Pkg} :
      BareTarget (parseRequest t).target name rest →
      load (pjoin (pjoin pkg.absDir cs!"node_modules") (parseRequest t).target) (.ok (some p)) →
      cs!"node_modules" <:+: p.absDir →
      fs.isDir (pjoin (pjoin pkg.absDir cs!"node_modules") name) = true →
      Mapped o p (exportsKey rest (parseRequest t).query (parseRequest t).fragment) (.ok l') →
      (∀ u ∈ l', ¬ Usable fs p.absDir u) →
      ImportsOut o fs load pkg asked (.ok (t :: l)) (some (.fail (.notExported (parseRequest t).target)))
  /-- a package with exports that give an error -/
  | exportsError {asked t name rest : Str} {l : List Str} {p : Pkg} {e : Err} :
      BareTarget (parseRequest t).target name rest →
      load (pjoin (pjoin pkg.absDir cs!"node_modules") (parseRequest t).target) (.ok (some p)) →
      cs!"node_modules" <:+: p.absDir →
      fs.isDir (pjoin (pjoin pkg.absDir cs!"node_modules") name) = true →
      Mapped o p (exportsKey rest (parseRequest t).query (parseRequest t).fragment) (.error e) →
      ImportsOut o fs load pkg asked (.ok (t :: l)) (some (.fail e))

/-- `#` requests that imports refuse, and the errors. -/
inductive Refused : Str → Err → Prop where
  | empty : Refused cs!"#" .importsRequestShort
  | slash {t : Str} : cs!"#/" <+: t → Refused t (.importsSlash t)
  | folder {t : Str} : ¬ cs!"#/" <+: t → t.getLast? = some '/' → Refused t .onlyFile

end Verif
