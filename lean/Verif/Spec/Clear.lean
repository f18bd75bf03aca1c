import Verif.Spec.Static
import Verif.Spec.Tsconfig
/-!
# tsconfig `paths` whose order does not matter
-/

namespace Verif

/-- At most one of the `paths` entries matches the target. (If there are two or more entries, the
target is ASCII: an entry can panic for others, see `C40_star_violated`.) -/
def Clear (target : Str) (entries : List (Str × List Str)) : Prop :=
  entries.length ≤ 1 ∨
    (∀ c ∈ target, c.utf8Size = 1) ∧ entries.Pairwise fun a b =>
      ¬((∃ m, StarMatch a.1 target m) ∧ ∃ m, StarMatch b.1 target m)

/-- A call that does not use a tsconfig, or whose request at most one entry of the `paths` of the
tsconfig matches. -/
def TsClear (o : Opts) (fs : Fs) : Call → Prop
  | .resolve _ request => ∀ loc, o.tsconfig = some loc → WfDocs fs ∧
      ∀ n json entries, (tsValue (pureCtx o fs false) n loc).Returns (.ok json) →
        HasEntries loc json entries → Clear (parseRequest request).target entries
  | .sideEffects _ => True

end Verif
