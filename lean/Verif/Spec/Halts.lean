import Verif.Spec.Termination
import Verif.Spec.BrowserMap
import Verif.Spec.Live
import Verif.Spec.Cost
import Verif.Spec.SideEffects
/-!
# Systems in which every call comes to an end, though files change

`V` are the versions of the files.
-/

namespace Verif

/-- The package was read from a file in its directory. -/
structure ReadAmong (V : Fs → Prop) (pkg : Pkg) : Prop where
  file : ∃ fs name doc, V fs ∧ fs.read (pjoin pkg.absDir name) = some doc ∧ doc.json = some pkg.raw
  browser : ∀ k v, (k, v) ∈ pkg.aliasFields → BrowserEntry pkg.raw k v

/-- The main fields of some version of the package at the directory `d` lead to `d'`, a directory in some
version. -/
def MainStepAmong (o : Opts) (V : Fs → Prop) (d' d : Str) : Prop :=
  (∃ fs, V fs ∧ fs.isDir d' = true) ∧ ∃ pkg, ReadAmong V pkg ∧ comps d = comps pkg.absDir ∧
    Tries o pkg o.mainFields d d'

/-- The answers that looks at files may give. -/
def LooksAmong (V : Fs → Prop) (q : Query) (r : q.Ret) : Prop := ∃ fs, V fs ∧ q.answer fs = r

/-- The answers that the caches may give: packages as they were. -/
def CachedAmong (V : Fs → Prop) : (o : Op) → o.Ret → Prop
  | .getPkg d, r => ∀ p, r = some (some p) → comps p.absDir = comps d ∧ ReadAmong V p
  | _, _ => True

/-- Some version of the tsconfig at `f` extends the one at `f'`: the resolver may find it there. -/
def ExtendsAmong (o : Opts) (V : Fs → Prop) (f' f : Str) : Prop :=
  ∃ fs doc json s dir i, ∃ h : Live.Host, ∃ n, V fs ∧ fs.read f = some doc ∧ doc.jsonc = .ok (some json) ∧
    json.get cs!"extends" = some (.str s) ∧ pparent f = some dir ∧ h.opts = o ∧
    Live.Ends (LooksAmong V) (CachedAmong V) (Live.resolveInner h n ⟨dir, parseRequest s⟩)
      (.done (.success (.info i))) ∧
    f' = i.getPath

/-- As `NoCycle`, for all versions together. -/
structure NoCycleAmong (o : Opts) (V : Fs → Prop) : Prop where
  alias : WellFounded (AliasStep o)
  browser : o.browserField = true → ∀ fs p doc json, V fs → fs.read p = some doc → doc.json = some json →
    WellFounded (BrowserStep json)
  exports : ∀ fs v, V fs → IsField fs cs!"exports" v → ∀ t ∈ v.strings, NotHash t
  imports : ∀ fs v, V fs → IsField fs cs!"imports" v → ∀ t ∈ v.strings, NotHash t
  main : WellFounded (MainStepAmong o V)
  tsconfig : o.tsconfig ≠ none → WellFounded (ExtendsAmong o V)

namespace Live

/-- The versions of the files in the history `l` and the schedule `ev` after it. -/
def AllVersions (fs : Fs) (l : List Event) (ev : Nat → Event) (fs' : Fs) : Prop :=
  Versions fs l fs' ∨ ∃ n, ev n = .change fs'

/-- The versions that a call started after `l` may meet. -/
def LaterVersions (cfg : Nat → Config) (ser : Json → Str) (fs : Fs) (l : List Event) (ev : Nat → Event)
    (fs' : Fs) : Prop :=
  fs' = ((Sys.init fs).after cfg ser l).fs ∨ ∃ n, ev n = .change fs'

/-- The call that is started after the history `l` comes to an end in the schedule `ev`: with enough fuel it
returns or panics after the same number of events. -/
def StopsAfter (cfg : Nat → Config) (ser : Json → Str) (fs : Fs) (l : List Event) (rid : Nat) (call : Call)
    (ev : Nat → Event) : Prop :=
  ∃ n m x, ((∃ a, x = .done a) ∨ ∃ site, x = .crashed (.panic site)) ∧ ∀ fuel, n ≤ fuel →
    ((Sys.init fs).after cfg ser (l ++ .start rid call fuel :: (List.range m).map ev)).ended
      ((Sys.init fs).after cfg ser l).tasks.length = some x

end Live

end Verif
