import Verif.Spec.Packages
/-!
# Specification of requests of a package for itself (C74)
-/

namespace Verif

/-- The directory of a package called `name` that has a `node_modules`, in which nothing on the way to the
target has a description file of its own. -/
structure Itself (o : Opts) (fs : Fs) (dir name target : Str) (pkg : Pkg) : Prop where
  isDir : fs.isDir dir = true
  loads : Loads o fs dir (.ok (some pkg))
  name : pkg.name = some name
  modules : fs.isDir (pjoin dir cs!"node_modules") = true
  own : ∃ desc, o.descriptionFile = some desc ∧ fs.isFile (pjoin dir desc) = true ∧
    ∀ q, isAbs q = true → comps dir <+: comps q →
      comps q <+: comps (pjoin (pjoin dir cs!"node_modules") target) → comps q ≠ comps dir →
      fs.isDir q = true → fs.isFile (pjoin q desc) = false

end Verif
