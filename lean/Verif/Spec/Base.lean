import Verif.Spec.Static
import Verif.Spec.Request
/-!
# Calls that differ in the base path only
-/

namespace Verif

/-- Two calls that differ in the spelling of an absolute path only. If the request (or one that an alias
makes of it) is empty or `.`, the two texts for the path also end alike: both with a separator, or
neither. -/
def SameCall (o : Opts) : Call → Call → Prop
  | .resolve p request, .resolve q request' =>
    request = request' ∧ isAbs p = true ∧ comps p = comps q ∧
      (lastSeg p = lastSeg q ∨
        ((parseRequest request).target ≠ [] ∧ (parseRequest request).target ≠ cs!".") ∧
        ∀ kv ∈ o.alias, ∀ t, kv.2 = .target t → t ≠ [] ∧ t ≠ cs!".")
  | .sideEffects p, .sideEffects q => isAbs p = true ∧ comps p = comps q
  | _, _ => False

/-- Outcomes of the same request from two directories that are the same, but for the directory in the
message "Resolve … failed in …". -/
inductive BaseOnly (request p q : Str) :
    Outcome (Except Err Result) → Outcome (Except Err Result) → Prop where
  | same (o : Outcome (Except Err Result)) : BaseOnly request p q o o
  | failed : BaseOnly request p q (.done (.error (.failed request p)))
      (.done (.error (.failed request q)))

/-- The path that a request by path names. -/
def namedPath (dir target : Str) : Str :=
  if target = [] ∨ target = cs!"." then dir
  else if target.head? = some '/' then target
  else if dir = [] ∨ dir.getLast? = some '/' then dir ++ target
  else dir ++ '/' :: target

/-- A target that is a relative or an absolute path. -/
def ByPath (target : Str) : Prop := SpecRelative target ∨ SpecPosix target

/-- Nothing is tried before the path itself: no alias applies, and with `prefer_relative` the target begins
with `./` or `../`. -/
structure Direct (o : Opts) (dir target : Str) : Prop where
  alias : MODULE <:+: dir ∨ ∀ kv ∈ o.alias, ¬ kv.1 <+: target
  prefer : o.preferRelative = false ∨ cs!"./" <+: target ∨ cs!"../" <+: target

/-- Two requests, from directories `p` and `q`, for the same path with the same query and fragment. -/
structure SameRequest (o : Opts) (p request q request' : Str) : Prop where
  abs : isAbs p = true
  path : Sim (namedPath p (parseRequest request).target) (namedPath q (parseRequest request').target)
  query : (parseRequest request).query = (parseRequest request').query
  fragment : (parseRequest request).fragment = (parseRequest request').fragment
  left : ByPath (parseRequest request).target
  right : ByPath (parseRequest request').target
  direct : Direct o p (parseRequest request).target
  direct' : Direct o q (parseRequest request').target

/-- Answers to requests for the same path: the same, up to the spelling of paths in errors, or both times
the message that names the request. -/
def SameReply (p request q request' : Str) : Except Err Result → Except Err Result → Prop
  | .ok a, .ok b => a = b
  | .error a, .error b => ErrSim a b ∨ ErrSim a (.failed request p) ∧ ErrSim b (.failed request' q)
  | _, _ => False

/-- The path returned for a file is that of a file, and its own final form. (With lexical normalisation
this fails if `..` follows a symbolic link.) -/
def FinalFiles (o : Opts) (fs : Fs) : Prop :=
  ∀ p q, isAbs p = true → fs.isFile p = true → FinalPath o fs p q →
    isAbs q = true ∧ fs.isFile q = true ∧ FinalPath o fs q q

end Verif
