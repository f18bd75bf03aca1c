import Verif.Spec.Current
import Verif.Spec.Changes
/-!
# Description files that are all touched: words for the statements
-/

namespace Verif

/-- The description files in the versions `V` are still there in `fs`, with times at least `dur` later. New ones may have
come below others. Contents and all other files may differ. -/
structure Touched (V : Fs → Prop) (fs : Fs) (desc : Str) (dur : Nat) : Prop where
  stays : ∀ fs' d, V fs' → isAbs d = true → fs'.isFile (pjoin d desc) = true → fs.isFile (pjoin d desc) = true
  above : Covered V fs desc
  dir : ∀ d, isAbs d = true → fs.isFile (pjoin d desc) = true → fs.isDir d = true
  read : ∀ fs' d p doc, V fs' → isAbs d = true → comps p = comps (pjoin d desc) → fs'.read p = some doc →
    fs'.isFile (pjoin d desc) = true
  time : ∀ fs' d p m m', V fs' → isAbs d = true → comps p = comps (pjoin d desc) → fs.isFile (pjoin d desc) = true →
    fs'.mtime p = some m → fs.mtime (pjoin d desc) = some m' → m + dur ≤ m'

/-- No exports value is anywhere also an imports value that means something else as such. -/
def NotMixed (W : Fs → Prop) : Prop :=
  ∀ fs fs' v t, W fs → W fs' → IsField fs cs!"exports" v → IsField fs' cs!"imports" v →
    buildTree .imports v = some (.ok t) → buildTree .exports v = some (.ok t)

end Verif
