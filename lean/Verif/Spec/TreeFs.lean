import Verif.Model.Json
import Verif.Model.Path
import Verif.Spec.Path
/-!
# A symlink-free file system

A concrete instance of `Fs`: a finite tree of directories and regular files, with the path
lookup of POSIX. Used to show that hypotheses about file systems can be met and to say what
paths mean.
-/

namespace Verif

/-- A directory tree. A file has contents (`none`: not UTF-8) and a modification time. -/
inductive Tree where
  | file (doc : Option Doc) (mtime : Nat)
  | dir (entries : List (Str × Tree))

/-- The entry of a directory. -/
def Tree.child (t : Tree) (name : Str) : Option Tree :=
  match t with
  | .file _ _ => none
  | .dir l => alookup name l

/-- What is at a location. -/
def Tree.at : Tree → List Str → Option Tree
  | t, [] => some t
  | t, n :: l =>
    match t.child n with
    | some t' => t'.at l
    | none => none

/-- Whether this is a directory. -/
def Tree.isDir : Tree → Bool
  | .dir _ => true
  | .file _ _ => false

/-- POSIX path resolution over the pieces between separators: every piece, also an empty one,
is looked up in a directory that must exist. -/
def Tree.reach (t : Tree) : List Str → List Str → Option (List Str)
  | loc, [] => if (t.at loc).isSome then some loc else none
  | loc, s :: l =>
    match t.at loc with
    | some (.dir _) => t.reach (if s = [] then loc else enter loc s) l
    | _ => none

/-- Path resolution relative to the working directory `cwd`. -/
def Tree.lookup (t : Tree) (cwd : List Str) (p : Str) : Option (List Str) :=
  if p = [] then none
  else t.reach (if isAbs p then [] else cwd) (splitC '/' p)

/-- The node a path names. -/
def Tree.node (t : Tree) (cwd : List Str) (p : Str) : Option Tree :=
  match t.lookup cwd p with
  | some loc => t.at loc
  | none => none

/-- The tree as a file system. -/
def treeFs (t : Tree) (cwd : List Str) : Fs where
  isFile p := match t.node cwd p with
    | some (.file _ _) => true
    | _ => false
  isDir p := match t.node cwd p with
    | some (.dir _) => true
    | _ => false
  pathExists p := (t.node cwd p).isSome
  read p := match t.node cwd p with
    | some (.file doc _) => doc
    | _ => none
  mtime p := match t.node cwd p with
    | some (.file _ m) => some m
    | some (.dir _) => some 0
    | none => none
  canon p := (t.lookup cwd p).map absText

mutual
/-- All readable files of the tree satisfy `P`. -/
def Tree.allDoc (P : Doc → Bool) : Tree → Bool
  | .file none _ => true
  | .file (some d) _ => P d
  | .dir l => allDocList P l
/-- See `Tree.allDoc`. -/
def allDocList (P : Doc → Bool) : List (Str × Tree) → Bool
  | [] => true
  | (_, t) :: l => t.allDoc P && allDocList P l
end

mutual
/-- The tree with other file contents. -/
def Tree.mapDoc (f : Doc → Doc) : Tree → Tree
  | .file d m => .file (d.map f) m
  | .dir l => .dir (mapDocList f l)
/-- See `Tree.mapDoc`. -/
def mapDocList (f : Doc → Doc) : List (Str × Tree) → List (Str × Tree)
  | [] => []
  | (n, t) :: l => (n, t.mapDoc f) :: mapDocList f l
end

end Verif
