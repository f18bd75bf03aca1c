import Verif.Spec.Options
/-!
# Specification of the search through `node_modules` directories
-/

namespace Verif

/-- The name of the package in a bare target: everything up to the first `/`, or up to the
second one for a scoped name. -/
inductive PackageName : Str → Str → Prop where
  /-- `m`, `m/…` -/
  | plain {name rest : Str} : ¬ ['@'] <+: name ++ rest → '/' ∉ name →
      (rest = [] ∨ ['/'] <+: rest) → PackageName (name ++ rest) name
  /-- `@s/m`, `@s/m/…` -/
  | inScope {a b rest : Str} : ['@'] <+: a → '/' ∉ a → '/' ∉ b →
      (rest = [] ∨ ['/'] <+: rest) → PackageName (a ++ '/' :: (b ++ rest)) (a ++ '/' :: b)
  /-- `@s` -/
  | scope {a : Str} : ['@'] <+: a → '/' ∉ a → PackageName a a

/-- A directory and all directories above it, nearest first. -/
inductive Ancestors : Str → List Str → Prop where
  | top {d : Str} : pparent d = none → Ancestors d [d]
  | up {d d' : Str} {l : List Str} : pparent d = some d' → Ancestors d' l → Ancestors d (d :: l)

/-- The files tried for the main file of a directory. -/
def mainCandidates (o : Opts) (dir : Str) : List Str :=
  o.mainFiles.flatMap fun m => fileCandidates o (pjoin dir (cs!"./" ++ m))

/-- The files tried for a bare target below `d/node_modules` without description files. If the
package is not a directory, the target is a file next to the packages. -/
def moduleCandidates (o : Opts) (fs : Fs) (name target d : Str) : List Str :=
  let root := pjoin d cs!"node_modules"
  if fs.isDir root = true then
    if fs.isDir (pjoin root name) = true then
      fileCandidates o (pjoin root (cs!"./" ++ target)) ++
        if fs.isDir (pjoin root (cs!"./" ++ target)) = true then
          mainCandidates o (pjoin root (cs!"./" ++ target))
        else []
    else fileCandidates o (pjoin root target)
  else []

/-- The target is no directory below `d/node_modules` without a file to resolve to. -/
def NoDeadDir (o : Opts) (fs : Fs) (name target d : Str) : Prop :=
  fs.isDir (pjoin d cs!"node_modules") = true →
  fs.isDir (pjoin (pjoin d cs!"node_modules") name) = true →
  fs.isDir (pjoin (pjoin d cs!"node_modules") (cs!"./" ++ target)) = true →
  ∃ p ∈ moduleCandidates o fs name target d, fs.isFile p = true

end Verif
