import Verif.Spec.Watched
import Verif.Spec.Modules
import Verif.Spec.Marks
/-!
# The files that have a say in the answer to a request by name
-/

namespace Verif

/-- The target `t`, filled in for a request with the given text: as it is, with an end of the text after its final `/`,
or with an end of the text, in which every `$` is doubled, for every `*`. -/
inductive FilledWith (text t : Str) : Str → Prop where
  | asIs : FilledWith text t t
  | folder (x : Str) : x <:+ text → t.getLast? = some '/' → FilledWith text t (t ++ x)
  | star (x : Str) : x <:+ text → FilledWith text t
      (t.flatMap fun c => if c = '*' then x.flatMap fun c => if c = '$' then cs!"$$" else [c] else [c])

/-- The paths that a request for `target` from the directory `path` is about: in the `node_modules` of `path` and of the
directories above it. (A directory in which nothing is found is followed by the `node_modules` directories above, see
`C83_dead_violated`.) If the description file that is closest to such a path has exports, what their targets
can name. The `text` is the target with query and fragment. -/
inductive Sought (o : Opts) (fs : Fs) (path target text : Str) : Str → Prop where
  | root {a : Str} : a ∈ upward (path.length + 1) path → Sought o fs path target text (pjoin a cs!"node_modules")
  | left {a : Str} : a ∈ upward (path.length + 1) path → Sought o fs path target text (pjoin (pjoin a cs!"node_modules") [])
  | named {a : Str} : a ∈ upward (path.length + 1) path →
      Sought o fs path target text (pjoin (pjoin a cs!"node_modules") target)
  | dotted {a : Str} : a ∈ upward (path.length + 1) path →
      Sought o fs path target text (pjoin (pjoin a cs!"node_modules") (cs!"./" ++ target))
  | exported {a d t s desc : Str} {doc : Doc} {json v : Json} : a ∈ upward (path.length + 1) path →
      o.descriptionFile = some desc → closest fs desc (pjoin (pjoin a cs!"node_modules") target) = some d →
      fs.read (pjoin d desc) = some doc → doc.json = some json → json.get cs!"exports" = some v →
      t ∈ v.strings → FilledWith text t s → Contained (parseRequest s).target →
      Sought o fs path target text (pjoin d (parseRequest s).target)

/-- The paths that have a say in the answer to a request for `target`, in the package `name`, from `path`. -/
def WatchedBare (o : Opts) (fs : Fs) (path target text name w : Str) : Prop :=
  (∃ p, Sought o fs path target text p ∧ Watched o fs p w) ∨
    ∃ a ∈ upward (path.length + 1) path, w = pjoin (pjoin a cs!"node_modules") name

/-- All targets in exports begin with `./`. -/
def DottedExports (fs : Fs) : Prop := ∀ v, IsField fs cs!"exports" v → ∀ t ∈ v.strings, cs!"./" <+: t

end Verif
