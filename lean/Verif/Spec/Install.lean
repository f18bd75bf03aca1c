import Verif.Spec.TreeFs
/-!
# Installing something in a directory tree
-/

namespace Verif

/-- The tree with `sub` at the location, in place of what was there; if the directory is missing, nothing happens. -/
def Tree.install (sub : Tree) : List Str → Tree → Tree
  | [n], .dir l => .dir (ainsert n sub l)
  | n :: k :: r, .dir l =>
    match alookup n l with
    | some c => .dir (ainsert n (Tree.install sub (k :: r) c) l)
    | none => .dir l
  | _, t => t

end Verif
