import Verif.Spec.WatchedBare
/-!
# Packages that have nothing to do with a request
-/

namespace Verif

/-- The directory of the package `m` in the `node_modules` of `b`. -/
def pkgDir (b m : Str) : Str := pjoin (pjoin b cs!"node_modules") m

/-- The components of a path, as one below `/`. -/
def parts (s : Str) : List Comp := (comps (cs!"/" ++ s)).tail

/-- One step: `..` goes up, but not from the root. -/
def Comp.go (loc : List Comp) : Comp → List Comp
  | .up => if loc = [.root] then loc else loc.dropLast
  | c => loc ++ [c]

/-- Where the components of a path lead to, if there are no links. -/
def stand (l : List Comp) : List Comp := l.foldl Comp.go []

/-- The path is the directory `d`, or below it. -/
def Within (d w : Str) : Prop := comps d <+: stand (comps w)

/-- The path is absolute, and is neither the directory `d` nor below it, nor does it come through there. -/
def Outside (d w : Str) : Prop := isAbs w = true ∧ ∀ k, k <+: comps w → ¬ comps d <+: stand k

/-- What is put after paths: nothing, or an extension. -/
def Opts.endings (o : Opts) : List Str := [] :: o.extensions

/-- The names that a resolver looks for in directories on its own account: those of main files and of the description
file; and what can come after `node_modules` or its separator. -/
def Opts.ownNames (o : Opts) : List Str :=
  (o.endings.flatMap fun e => e :: (cs!"node_modules" ++ e) :: o.mainFiles.map (· ++ e)) ++ o.descriptionFile.toList

/-- The path `s` does not go up and not into a `node_modules` directory, with and without extensions. -/
def StaysOut (o : Opts) (s : Str) : Prop :=
  ∀ e ∈ o.endings, Comp.normal cs!"node_modules" ∉ parts (s ++ e) ∧ Comp.up ∉ parts (s ++ e)

/-- The package `m` is not called like what the resolver looks for on its own account. -/
structure NotOwn (o : Opts) (m : Str) : Prop where
  ne : parts m ≠ []
  relative : isAbs m = false
  own : ∀ s ∈ o.ownNames, Comp.up ∉ parts s ∧ ∀ x, (parts m).getLast? = some x → x ∉ parts s
  description : ∀ desc, o.descriptionFile = some desc → isAbs desc = false

/-- The package `m` has nothing to do with requests for `target`: these do not begin with it, neither with nor without
an extension, and it is not called like what the resolver looks for on its own account. -/
structure Unrelated (o : Opts) (target m : Str) : Prop extends NotOwn o m where
  modules : Comp.normal cs!"node_modules" ∉ parts m
  target_out : StaysOut o target
  target : ∀ e ∈ o.endings, ¬ parts m <+: parts (target ++ e)

/-- Main fields do not lead up and not into a `node_modules` directory. -/
def MainsStayOut (o : Opts) (fs : Fs) : Prop :=
  ∀ d, ∀ f ∈ o.mainFields, ∀ v, NamesMain o fs d f v → StaysOut o v

/-- Packages keep to themselves: targets of exports begin with `./`; they, filled in for the request, and the main
fields do not lead up and not into a `node_modules` directory. -/
structure KeepToThemselves (o : Opts) (fs : Fs) (request : Str) : Prop where
  exports : ∀ v, IsField fs cs!"exports" v → ∀ t ∈ v.strings,
    cs!"./" <+: t ∧ ∀ s, FilledWith request t s → StaysOut o (parseRequest s).target
  mains : MainsStayOut o fs

/-- There are no description files beside packages: in the directories from `b/node_modules` down to, and without, the
directory of the package `m` in it. (This is `b/node_modules` alone, unless `m` is in a scope.) -/
def NoneBeside (o : Opts) (fs : Fs) (b m : Str) : Prop :=
  ∀ u desc, isAbs u = true → Within (pjoin b cs!"node_modules") u → stand (comps u) <+: comps (pkgDir b m) →
    stand (comps u) ≠ comps (pkgDir b m) → o.descriptionFile = some desc →
    fs.read (pjoin u desc) = none

end Verif
