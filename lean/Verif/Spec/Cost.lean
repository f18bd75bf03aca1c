import Verif.Spec.Live
/-!
# The number of steps of a call: words for the statements
-/

namespace Verif

/-- The number of components of a path, which is its depth (plus one for the root). -/
def depth (p : Str) : Nat := (comps p).length

/-- How many steps of call number `i` there are in a history. -/
def stepsOf (i : Nat) : List Event → Nat
  | [] => 0
  | .step j _ :: l => (if j = i then 1 else 0) + stepsOf i l
  | _ :: l => stepsOf i l

/-- The files on which `D` are the directories and `F` are the directories that have a description
file, among absolute paths; everything else is left open. -/
structure Layout (desc : Option Str) (D F : Str → Bool) (fs : Fs) : Prop where
  isDir : ∀ p, isAbs p = true → fs.isDir p = D p
  isFile : ∀ d name, desc = some name → isAbs d = true → fs.isFile (pjoin d name) = F d

end Verif
