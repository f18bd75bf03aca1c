import Verif.Model.Machine
/-!
# Specification of the sideEffects entry
-/

namespace Verif

/-- The entry of a description file stands for `se`: absent, a boolean, or an array of strings. -/
def SideEffectsIs (json : Json) : Option SideEffects → Prop
  | none => json.get cs!"sideEffects" = none
  | some (.bool b) => json.get cs!"sideEffects" = some (.bool b)
  | some (.array l) => json.get cs!"sideEffects" = some (.arr (l.map .str))

/-- The part of a bad entry that is no good: the first item of an array that is no string, or the entry
itself if it is neither an array nor a boolean. -/
def BadPart (json v : Json) : Prop :=
  (∃ (l : List Str) (l' : List Json), json.get cs!"sideEffects" = some (.arr (l.map .str ++ v :: l')) ∧ ∀ s, v ≠ .str s) ∨
  (json.get cs!"sideEffects" = some v ∧ (∀ b, v ≠ .bool b) ∧ ∀ l, v ≠ .arr l)

/-- The file systems of a history. -/
def Versions (fs : Fs) (l : List Event) (fs' : Fs) : Prop := fs' = fs ∨ .change fs' ∈ l

end Verif
