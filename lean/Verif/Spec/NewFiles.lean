import Verif.Spec.Packages
import Verif.Spec.Modules
import Verif.Spec.TreeFs
/-!
# New files
-/

namespace Verif

/-- `fs'` is `fs` with new regular files; the paths of these are `P`. -/
structure Adds (P : Str → Prop) (fs fs' : Fs) : Prop where
  new : ∀ p, P p → fs.isFile p = false ∧ fs.isDir p = false
  isFile : ∀ p, fs'.isFile p = true ↔ fs.isFile p = true ∨ P p
  isDir : ∀ p, fs'.isDir p = fs.isDir p
  pathExists : ∀ p, ¬ P p → fs'.pathExists p = fs.pathExists p
  read : ∀ p, ¬ P p → fs'.read p = fs.read p
  mtime : ∀ p, ¬ P p → fs'.mtime p = fs.mtime p
  canon : ∀ p, ¬ P p → fs'.canon p = fs.canon p
  dot : ∀ d t, getTargetKind t = .normal → P (pjoin d t) → P (pjoin d (cs!"./" ++ t))

/-- The answer is one of the files `P` in its final form (or that its path has no final form). -/
def AnswerIn (P : Str → Prop) (o : Opts) (fs : Fs) (a : Except Err Result) : Prop :=
  ∃ p query fragment, P p ∧ FileAnswer o fs p query fragment a

/-- The tree `t'` is `t` with a new file at `loc`: at all other places there is the same. -/
structure FileAdded (t t' : Tree) (loc : List Str) : Prop where
  absent : t.at loc = none
  file : ∃ doc m, t'.at loc = some (.file doc m)
  dir : ∀ l, ((t'.at l).map Tree.isDir = some true) ↔ ((t.at l).map Tree.isDir = some true)
  other : ∀ l doc m, l ≠ loc → (t'.at l = some (.file doc m) ↔ t.at l = some (.file doc m))

/-- A place of the name of a package: `…/node_modules/m` or `…/node_modules/@s/m`. -/
def PackagePlace (loc : List Str) : Prop :=
  ∃ l m, loc = l ++ [cs!"node_modules", m] ∨
    ∃ s, cs!"@" <+: s ∧ loc = l ++ [cs!"node_modules", s, m]

end Verif
