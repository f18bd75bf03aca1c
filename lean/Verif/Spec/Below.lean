import Verif.Spec.Packages
/-!
# Directories without `node_modules`
-/

namespace Verif

/-- `q` is the `k`-th directory above `p`, and there is no `node_modules` in `p` and the directories on the way. -/
inductive NoModulesBelow (fs : Fs) : Nat → Str → Str → Prop where
  | here (p : Str) : NoModulesBelow fs 0 p p
  | up {k : Nat} {p d q : Str} : fs.isDir (pjoin p cs!"node_modules") = false → pparent p = some d →
      NoModulesBelow fs k d q → NoModulesBelow fs (k + 1) p q

end Verif
