import Verif.Spec.Static
import Verif.Spec.Exec
/-!
# File systems that change between calls
-/

namespace Verif

/-- The directory has a description file. -/
def Fs.Has (fs : Fs) (desc d : Str) : Prop :=
  fs.isDir d = true ∧ fs.isFile (pjoin d desc) = true

/-- Every description file can be read and is well-formed. -/
def Readable (fs : Fs) (desc : Str) : Prop :=
  ∀ d, isAbs d = true → fs.Has desc d → ∃ p, readPkg fs d (pjoin d desc) = .ret (.ok p)

/-- A change of the file system. Description files do not go away, and their times do not go back;
if the contents change then the time advances by at least `dur`. A directory without description
file at it or above it does not get one. Everything else may change in any way. -/
structure Update (fs fs' : Fs) (desc : Str) (dur : Nat) : Prop where
  kept : ∀ d, isAbs d = true → fs.Has desc d → fs'.Has desc d
  time : ∀ d m m', isAbs d = true → fs.Has desc d → fs.mtime (pjoin d desc) = some m →
    fs'.mtime (pjoin d desc) = some m' → m ≤ m' ∧
      (fs'.read (pjoin d desc) = fs.read (pjoin d desc) ∨ m + dur ≤ m')
  absent : ∀ d, isAbs d = true → closest fs desc d = none → closest fs' desc d = none

/-- A system of resolvers and the file systems it may come across. -/
structure Changing (cfg : Nat → Config) (ser : Json → Str) (F : Fs → Prop) : Prop where
  static : ∀ fs, F fs → Static cfg ser fs
  relative : ∀ rid desc, (cfg rid).opts.descriptionFile = some desc → isAbs desc = false
  readable : ∀ fs rid desc, F fs → (cfg rid).opts.descriptionFile = some desc → Readable fs desc
  mix : ∀ fs fs' v t, F fs → F fs' → IsField fs cs!"exports" v → IsField fs' cs!"imports" v →
    buildTree .imports v = some (.ok t) → buildTree .exports v = some (.ok t)

/-- No call is in progress. -/
def Sys.Idle (s : Sys) : Prop := ∀ t ∈ s.tasks, ∃ o, t.prog.outcome = some o

/-- Events that happen one after the other: no call starts, and no file changes, while a call is in
progress. Calls have absolute paths, and changes are updates for every resolver. -/
def Turns (cfg : Nat → Config) (ser : Json → Str) (F : Fs → Prop) : Sys → List Event → Prop
  | _, [] => True
  | s, e :: l =>
    (match e with
    | .step _ _ => True
    | .start _ call _ => s.Idle ∧ call.abs
    | .change fs' => s.Idle ∧ F fs' ∧ ∀ rid desc, (cfg rid).opts.descriptionFile = some desc →
        Update s.fs fs' desc (cfg rid).duration) ∧
    Turns cfg ser F (s.next cfg ser e) l

end Verif
