import Verif.Spec.Reads
/-!
# Absolute paths and the current directory: words for the statements
-/

namespace Verif

/-- The path that is looked at. -/
def Query.path : Query → Option Str
  | .isFile p => some p
  | .isDir p => some p
  | .pathExists p => some p
  | .read p => some p
  | .mtime p => some p
  | .canon p => some p
  | .release => none

/-- The tsconfig of a resolver, if there is one, has an absolute path. -/
def Opts.tsconfigAbs (o : Opts) : Prop := ∀ location, o.tsconfig = some location → isAbs location = true

/-- File systems that differ in the current directory at most: they say the same of all absolute
paths. -/
structure SameFiles (fs fs' : Fs) : Prop where
  isFile : ∀ p, isAbs p = true → fs.isFile p = fs'.isFile p
  isDir : ∀ p, isAbs p = true → fs.isDir p = fs'.isDir p
  pathExists : ∀ p, isAbs p = true → fs.pathExists p = fs'.pathExists p
  read : ∀ p, isAbs p = true → fs.read p = fs'.read p
  mtime : ∀ p, isAbs p = true → fs.mtime p = fs'.mtime p
  canon : ∀ p, isAbs p = true → fs.canon p = fs'.canon p

/-- Two histories that differ in the current directory at most. -/
inductive SameEvents : List Event → List Event → Prop
  | nil : SameEvents [] []
  | start (rid : Nat) (call : Call) (fuel : Nat) {l l' : List Event} :
      SameEvents l l' → SameEvents (.start rid call fuel :: l) (.start rid call fuel :: l')
  | change {fs fs' : Fs} {l l' : List Event} :
      SameFiles fs fs' → SameEvents l l' → SameEvents (.change fs :: l) (.change fs' :: l')
  | step (i seed : Nat) {l l' : List Event} :
      SameEvents l l' → SameEvents (.step i seed :: l) (.step i seed :: l')

end Verif
