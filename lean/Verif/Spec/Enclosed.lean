import Verif.Spec.Moved
/-!
# What lies outside of a project
-/

namespace Verif

/-- A path into the project in `a`. -/
def InProject (a : List Str) (p : Str) : Prop := ∃ s, Below s ∧ p = absText a ++ s

/-- The two file systems have the same project in `a`; links from within the project lead to places in it. -/
structure SameProject (a : List Str) (fs fs' : Fs) : Prop where
  isFile : ∀ p, InProject a p → fs'.isFile p = fs.isFile p
  isDir : ∀ p, InProject a p → fs'.isDir p = fs.isDir p
  pathExists : ∀ p, InProject a p → fs'.pathExists p = fs.pathExists p
  read : ∀ p, InProject a p → fs'.read p = fs.read p
  mtime : ∀ p, InProject a p → fs'.mtime p = fs.mtime p
  canon : ∀ p, InProject a p → fs'.canon p = fs.canon p
  links : ∀ p q, InProject a p → fs.canon p = some q → InProject a q

/-- A project that does not refer to its place or lead out of it, and that nothing outside of it has a say in. -/
structure Enclosed (o : Opts) (a : List Str) (fs : Fs) : Prop where
  place : IsPlace a
  alone : OnItsOwn o fs a
  self : SelfContained o fs a
  opts : PlacelessOpts o

/-- A call for a path in the project that does not lead out of it. -/
inductive Call.InProject (o : Opts) (a : List Str) : Call → Prop where
  | resolve {s request : Str} : Below s → AsksInside o s request → Call.InProject o a (.resolve (absText a ++ s) request)
  | sideEffects {s : Str} : Below s → Call.InProject o a (.sideEffects (absText a ++ s))

/-- The same place as a path into the project. -/
def InProjectSim (a : List Str) (p : Str) : Prop := ∃ q, comps p = comps q ∧ InProject a q

/-- All paths in the answer are in the project. -/
def Answer.InProject (a : List Str) : Answer → Prop
  | .resolve (.ok (.info i)) => Verif.InProject a i.path
  | .sideEffects (.ok (some (p, _))) => InProjectSim a p
  | .resolve (.error e) => ∀ p, e.place = some p → InProjectSim a p
  | .sideEffects (.error e) => ∀ p, e.place = some p → InProjectSim a p
  | _ => True

end Verif
