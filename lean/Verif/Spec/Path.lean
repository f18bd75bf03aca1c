import Verif.Model.Basic
/-!
# Specification: what a path text means when walked from a directory

A location is the list of names leading to it from the root.
-/

namespace Verif

/-- Entering one named step: `.` stays, `..` goes to the parent (the root is its own parent),
any other name goes down. -/
def enter (loc : List Str) (name : Str) : List Str :=
  if name = cs!"." then loc
  else if name = cs!".." then loc.dropLast
  else loc ++ [name]

/-- `Walk loc text loc'`: starting at `loc`, reading `text` left to right leads to `loc'`.
Separators are skipped; a maximal run of other characters is one step. -/
inductive Walk : List Str → Str → List Str → Prop where
  | done (loc : List Str) : Walk loc [] loc
  | sep {loc loc' : List Str} {text : Str} : Walk loc text loc' → Walk loc ('/' :: text) loc'
  | step {loc loc' : List Str} {name text : Str} :
      name ≠ [] → '/' ∉ name → (text = [] ∨ ∃ r, text = '/' :: r) →
      Walk (enter loc name) text loc' → Walk loc (name ++ text) loc'

/-- The text of the absolute path to a location. -/
def absText (loc : List Str) : Str := '/' :: List.intercalate ['/'] loc

end Verif
