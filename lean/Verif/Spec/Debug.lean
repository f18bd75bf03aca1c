import Verif.Spec.Changes
/-!
# Debug builds and release builds
-/

namespace Verif

/-- The same resolver in a release build. -/
def Config.release (c : Config) : Config := { c with debug := false }

/-- A relative file name that does not begin with `./`. -/
def PlainName (desc : Str) : Prop := isAbs desc = false ∧ ∀ l, comps desc ≠ .cur :: l

/-- Every description file can be read and is well-formed. -/
def SoundFiles (fs : Fs) (desc : Str) : Prop :=
  ∀ d, fs.isFile (pjoin d desc) = true → ∃ p, readPkg fs d (pjoin d desc) = .ret (.ok p)

/-- No call starts while another is in progress. Files may change at any time, to those of `F`. -/
def OneAtATime (cfg : Nat → Config) (ser : Json → Str) (F : Fs → Prop) : Sys → List Event → Prop
  | _, [] => True
  | s, e :: l =>
    (match e with
    | .step _ _ => True
    | .start _ _ _ => s.Idle
    | .change fs => F fs) ∧
    OneAtATime cfg ser F (s.next cfg ser e) l

/-- The events that come from outside: calls and changes of files. -/
def inputs (l : List Event) : List Event :=
  l.filter fun
    | .step _ _ => false
    | _ => true

end Verif
