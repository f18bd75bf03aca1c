import Verif.Spec.Base
import Verif.Spec.Options
/-!
# A separator at the end of a request
-/

namespace Verif

/-- What is in front of a separator in the path of a file is a directory. (So the path of a file does not end in a
separator.) -/
def Fs.Solid (fs : Fs) : Prop :=
  ∀ d r : Str, isAbs (d ++ cs!"/") = true → fs.isFile (d ++ '/' :: r) = true → fs.isDir (d ++ cs!"/") = true

/-- Two requests, from directories `p` and `q`, for the same path with the same query and fragment. The path may end
in a separator in one of them only. In neither of them is it the path of a file, with or without extension. -/
structure SameDirectory (o : Opts) (fs : Fs) (p request q request' : Str) : Prop where
  abs : isAbs p = true
  path : comps (namedPath p (parseRequest request).target) = comps (namedPath q (parseRequest request').target)
  query : (parseRequest request).query = (parseRequest request').query
  fragment : (parseRequest request).fragment = (parseRequest request').fragment
  left : ByPath (parseRequest request).target
  right : ByPath (parseRequest request').target
  direct : Direct o p (parseRequest request).target
  direct' : Direct o q (parseRequest request').target
  noFile : ∀ x ∈ fileCandidates o (namedPath p (parseRequest request).target), fs.isFile x = false
  noFile' : ∀ x ∈ fileCandidates o (namedPath q (parseRequest request').target), fs.isFile x = false

end Verif
