import Verif.Spec.Debug
/-!
# Calls that are made again: words for the statements
-/

namespace Verif

/-- Two spellings of a directory have the same description file. -/
structure Spelled (fs : Fs) (desc : Str) : Prop where
  file : ∀ d d', comps d = comps d' → fs.isFile (pjoin d desc) = fs.isFile (pjoin d' desc)
  mtime : ∀ d d', comps d = comps d' → fs.mtime (pjoin d desc) = fs.mtime (pjoin d' desc)

/-- Every directory for which a package is stored has a description file: none was deleted after it was
read. -/
def NoneLost (fs : Fs) (desc : Option Str) (w : World) : Prop :=
  ∀ name, desc = some name → ∀ d p, w.pkg (comps d) = some (some p) → fs.isFile (pjoin d name) = true

/-- Conditions on a resolver and its files: description files have a plain relative name and are well-formed,
and the spelling of directories does not matter; entries do not expire at once. -/
structure Env.Steady (e : Env) : Prop where
  plain : ∀ name, e.opts.descriptionFile = some name → PlainName name
  sound : ∀ name, e.opts.descriptionFile = some name → SoundFiles e.fs name
  spelled : ∀ name, e.opts.descriptionFile = some name → Spelled e.fs name
  duration : 0 < e.duration

/-- The state after some calls, one after the other, whether or not they return. -/
def afterCalls (e : Env) : List (Call × Nat) → World → World
  | [], w => w
  | (call, fuel) :: l, w => afterCalls e l ((call.prog e fuel).run w).2

end Verif
