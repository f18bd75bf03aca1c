import Verif.Model.Json
import Verif.Model.Path
import Verif.Spec.Path
/-!
# A file system with symbolic links

As `Verif.Spec.TreeFs`, but with symbolic links, followed as POSIX says: the text of a link is put in
the place of its name, and at most 40 links are followed for one path.
-/

namespace Verif

/-- A directory tree with links. -/
inductive Links where
  | file (doc : Option Doc) (mtime : Nat)
  | dir (entries : List (Str × Links))
  | link (text : Str)

/-- The entry of a directory. -/
def Links.child (t : Links) (name : Str) : Option Links :=
  match t with
  | .dir l => alookup name l
  | _ => none

/-- What is at a location, without following links. -/
def Links.at : Links → List Str → Option Links
  | t, [] => some t
  | t, n :: l =>
    match t.child n with
    | some t' => t'.at l
    | none => none

/-- Whether there is a directory at a location. -/
def Links.dirAt (t : Links) (loc : List Str) : Bool :=
  match t.at loc with
  | some (.dir _) => true
  | _ => false

/-- Path resolution over the pieces between separators. Every piece, also an empty one, is looked up
in a directory that must exist. `onLink` goes on after a link. -/
def Links.go (t : Links) (onLink : List Str → List Str → Option (List Str)) :
    List Str → List Str → Option (List Str)
  | loc, [] => if (t.at loc).isSome then some loc else none
  | loc, s :: l =>
    if t.dirAt loc then
      if s = [] then t.go onLink loc l
      else
        match t.at (enter loc s) with
        | some (.link text) =>
          if text = [] then none
          else onLink (if isAbs text then [] else loc) (splitC '/' text ++ l)
        | _ => t.go onLink (enter loc s) l
    else none

/-- Path resolution in which at most `n` links are followed. -/
def Links.follow (t : Links) : Nat → List Str → List Str → Option (List Str)
  | 0 => t.go fun _ _ => none
  | n + 1 => t.go (t.follow n)

/-- Path resolution relative to the working directory `cwd`. -/
def Links.lookup (t : Links) (cwd : List Str) (p : Str) : Option (List Str) :=
  if p = [] then none
  else t.follow 40 (if isAbs p then [] else cwd) (splitC '/' p)

/-- The node a path names. -/
def Links.node (t : Links) (cwd : List Str) (p : Str) : Option Links :=
  match t.lookup cwd p with
  | some loc => t.at loc
  | none => none

/-- Whether this is a directory. -/
def Links.isDir : Links → Bool
  | .dir _ => true
  | _ => false

/-- The tree as a file system. -/
def linkFs (t : Links) (cwd : List Str) : Fs where
  isFile p := match t.node cwd p with
    | some (.file _ _) => true
    | _ => false
  isDir p := match t.node cwd p with
    | some (.dir _) => true
    | _ => false
  pathExists p := (t.node cwd p).isSome
  read p := match t.node cwd p with
    | some (.file doc _) => doc
    | _ => none
  mtime p := match t.node cwd p with
    | some (.file _ m) => some m
    | some _ => some 0
    | none => none
  canon p := (t.lookup cwd p).map absText

mutual
/-- All readable files of the tree satisfy `P`. -/
def Links.allDoc (P : Doc → Bool) : Links → Bool
  | .file none _ => true
  | .file (some d) _ => P d
  | .dir l => allDocLinks P l
  | .link _ => true
/-- See `Links.allDoc`. -/
def allDocLinks (P : Doc → Bool) : List (Str × Links) → Bool
  | [] => true
  | (_, t) :: l => t.allDoc P && allDocLinks P l
end

end Verif
