import Verif.Spec.Packages
/-!
# The files that have a say in the answer to a request by path
-/

namespace Verif

/-- A main field as a target: `./` is put in front if it is not there. -/
def mainTarget (m : Str) : Str := if cs!"./" <+: m then m else cs!"./" ++ m

/-- The description file in the directory `d` has the text `m` in the field `f`. -/
def NamesMain (o : Opts) (fs : Fs) (d f m : Str) : Prop :=
  ∃ desc doc json, o.descriptionFile = some desc ∧ fs.isDir d = true ∧ fs.read (pjoin d desc) = some doc ∧
    doc.json = some json ∧ json.get f = some (.str m)

/-- Where the main fields of `d` lead to, with `l` the fields that remain to be tried. (A main field that is found
to be a directory and leads to nothing is where the next one starts from, see `C87_fields_violated`.) -/
inductive MainsLead (o : Opts) (fs : Fs) (d : Str) : List Str → Str → Prop where
  | here : MainsLead o fs d o.mainFields d
  | next {p f : Str} {l : List Str} : MainsLead o fs d (f :: l) p → MainsLead o fs d l p
  | main {p f m : Str} {l : List Str} : MainsLead o fs d (f :: l) p → NamesMain o fs d f m →
      MainsLead o fs d l (targetPath p (mainTarget m))

/-- Where a path leads to, through main fields. -/
inductive PathLeads (o : Opts) (fs : Fs) (p : Str) : Str → Prop where
  | here : PathLeads o fs p p
  | mains {d q : Str} {l : List Str} : PathLeads o fs p d → MainsLead o fs d l q → PathLeads o fs p q

/-- Paths that are looked at on behalf of the path `q`: it with and without extension, the main files in it, and
the description files in it and above. -/
inductive LookedAt (o : Opts) (q : Str) : Str → Prop where
  | file {w : Str} : w ∈ q :: o.extensions.map (q ++ ·) → LookedAt o q w
  | mainFile {m w : Str} : m ∈ o.mainFiles →
      w ∈ pjoin q (cs!"./" ++ m) :: o.extensions.map (pjoin q (cs!"./" ++ m) ++ ·) → LookedAt o q w
  | above {w : Str} : w ∈ upward (q.length + 1) q → LookedAt o q w
  | description {a desc : Str} : a ∈ upward (q.length + 1) q → o.descriptionFile = some desc →
      LookedAt o q (pjoin a desc)

/-- The paths that have a say in the answer to a request that names `p`. -/
def Watched (o : Opts) (fs : Fs) (p w : Str) : Prop := ∃ q, PathLeads o fs p q ∧ LookedAt o q w

/-- The two file systems have the same at the paths `W`. (Times may differ.) -/
structure SameAt (W : Str → Prop) (fs fs' : Fs) : Prop where
  isFile : ∀ w, W w → fs'.isFile w = fs.isFile w
  isDir : ∀ w, W w → fs'.isDir w = fs.isDir w
  read : ∀ w, W w → fs'.read w = fs.read w
  mtime : ∀ w, W w → (fs'.mtime w).isSome = (fs.mtime w).isSome
  canon : ∀ w, W w → fs'.canon w = fs.canon w

end Verif
