import Verif.Spec.SideEffects
import Verif.Spec.BrowserMap
import Verif.Spec.Trees
/-!
# Specification of what the caches hold
-/

namespace Verif

/-- The package was read from the description file of the directory `d`, which was a directory: on one of the
file systems `F` each. -/
structure PkgWas (F : Fs → Prop) (desc d : Str) (p : Pkg) : Prop where
  dir : p.absDir = d
  isDir : ∃ fs, F fs ∧ fs.isDir d = true
  file : ∃ fs doc, F fs ∧ fs.read (pjoin d desc) = some doc ∧ doc.json = some p.raw
  name : ∀ s, p.name = some s ↔ p.raw.get cs!"name" = some (.str s)
  version : ∀ s, p.version = some s ↔ p.raw.get cs!"version" = some (.str s)
  browser : (∀ m, p.raw.get cs!"browser" = some (.obj m) → UniqueKeys m) →
    ∀ k v, (k, v) ∈ p.aliasFields ↔ BrowserEntry p.raw k v
  trees : OwnTrees F p
  sideEffects : SideEffectsIs p.raw p.sideEffects
  /-- the entries of `browser` are in the order of some hash seed -/
  order : ∃ seed fields, browserFields p.raw = some fields ∧ p.aliasFields = permute seed fields

/-- `d` is `p`, or the parent of `p`, or the parent of that, and so on. -/
inductive Up (d : Str) : Str → Prop where
  | refl : Up d d
  | step {p q : Str} : pparent p = some q → Up d q → Up d p

/-- `d` was a directory, and neither it nor any parent had a description file. -/
structure NoneWas (F : Fs → Prop) (desc d : Str) : Prop where
  isDir : ∃ fs, F fs ∧ fs.isDir d = true
  noFile : ∀ up, Up up d → ∃ fs, F fs ∧ fs.isFile (pjoin up desc) = false

/-- What is stored for a directory was so. -/
def EntryWas (F : Fs → Prop) (desc d : Str) : Option Pkg → Prop
  | some p => PkgWas F desc d p
  | none => NoneWas F desc d

/-- A time is that of a file that was readable. -/
def TimeWas (F : Fs → Prop) (key : List Comp) (m : Nat) : Prop :=
  ∃ p fs fs' doc, comps p = key ∧ F fs ∧ fs.mtime p = some m ∧ F fs' ∧ fs'.read p = some doc

end Verif
