import Verif.Spec.Live
/-!
# The looks of calls at files
-/

namespace Verif.Live

/-- The same answer to a look, but for the time of a file. -/
def ReplyLike : (q : Query) → q.Ret → q.Ret → Prop
  | .mtime _, r, r' => Option.isSome (α := Nat) r = Option.isSome (α := Nat) r'
  | .isFile _, r, r' => r = r'
  | .isDir _, r, r' => r = r'
  | .pathExists _, r, r' => r = r'
  | .read _, r, r' => r = r'
  | .canon _, r, r' => r = r'
  | .release, _, _ => True

end Verif.Live
