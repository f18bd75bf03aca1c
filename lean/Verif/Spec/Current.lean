import Verif.Spec.Stored
/-!
# Resolvers that look at description files every time: words for the statements
-/

namespace Verif

/-- All description files in the present version `fs` are in or below directories that have one in all versions `V`. -/
def Covered (V : Fs → Prop) (fs : Fs) (desc : Str) : Prop :=
  ∀ d, isAbs d = true → fs.isFile (pjoin d desc) = true →
    ∃ up, Up up d ∧ ∀ fs', V fs' → fs'.isFile (pjoin up desc) = true

/-- The description files in the versions `V` are still there in the present version `fs`, or their directories are gone,
and none has had a later time than it has now. New ones may have come below others. Contents and all other files may
differ. -/
structure InPlace (V : Fs → Prop) (fs : Fs) (desc : Str) : Prop where
  stays : ∀ fs' d, V fs' → isAbs d = true → fs'.isFile (pjoin d desc) = true → fs.isDir d = true →
    fs.isFile (pjoin d desc) = true
  above : Covered V fs desc
  read : ∀ fs' p doc, V fs' → fs'.read p = some doc → fs'.isFile p = true
  time : ∀ fs' d p m m', V fs' → isAbs d = true → comps p = comps (pjoin d desc) → fs'.mtime p = some m →
    fs.mtime (pjoin d desc) = some m' → m ≤ m'

/-- Whenever the description files of the present version `fs` were well-formed JSON in the versions `V`, they had the
contents that they have now. -/
def Kept (V : Fs → Prop) (fs : Fs) (desc : Str) : Prop :=
  ∀ fs' d d' doc json, V fs' → isAbs d = true → comps d' = comps d → fs'.read (pjoin d' desc) = some doc →
    doc.json = some json → fs.isFile (pjoin d desc) = true → ∃ doc', fs.read (pjoin d desc) = some doc' ∧ doc'.json = some json

/-- No exports value of the present version is an imports value of any version that means something else as such. -/
def NeverMix (V : Fs → Prop) (fs : Fs) : Prop :=
  ∀ fs' v t, V fs' → IsField fs cs!"exports" v → IsField fs' cs!"imports" v →
    buildTree .imports v = some (.ok t) → buildTree .exports v = some (.ok t)

end Verif
