import Verif.Spec.TreeFs
import Verif.Spec.Exec
import Verif.Model.Ser
import Verif.Model.Machine
/-!
# Small concrete environments for the examples beside the theorems
-/

namespace Verif

/-- A readable file with JSON contents (the same for both parsers). -/
def jsonFile (j : Json) : Tree := .file (some ⟨some j, .ok (some j)⟩) 0

/-- A readable file that is not JSON. -/
def textFile : Tree := .file (some ⟨none, .error cs!"not json"⟩) 0

/-- The environment of a resolver (release build) on a tree. -/
def treeEnv (o : Opts) (t : Tree) : Env := ⟨o.new, treeFs t [], false, 1000000000, serJson⟩

/-- `/p/a.js`, `/p/b.json/`, `/p/node_modules/m/index.js`, `/p/node_modules/m/lib/x.js`. -/
def treeA : Tree :=
  .dir [(cs!"p", .dir [
    (cs!"a.js", textFile),
    (cs!"b.json", .dir []),
    (cs!"node_modules", .dir [(cs!"m", .dir [
      (cs!"index.js", textFile),
      (cs!"lib", .dir [(cs!"x.js", textFile)])])])])]

/-- Default options, lexical normalisation. -/
def optsA : Opts := { Opts.default with symlinks := false }

/-- Calls one after the other, each with `k` steps and hash seed `seed`. -/
def oneByOne (k seed : Nat) (l : List (Nat × Call)) : List Event :=
  l.zipIdx.flatMap fun x => .start x.1.1 x.1.2 20 :: List.replicate k (.step x.2 seed)

/-- How the call number `i` ended. -/
def Sys.outcome (s : Sys) (i : Nat) : Option (Outcome Answer) :=
  match s.tasks[i]? with
  | some t => t.prog.outcome
  | none => none

/-- The information returned by call number `i`, if it was a successful `resolve`. -/
def Sys.info (s : Sys) (i : Nat) : Option Info :=
  match s.outcome i with
  | some (.done (.resolve (.ok (.info i)))) => some i
  | _ => none

/-- The crash of call number `i`. -/
def Sys.crash (s : Sys) (i : Nat) : Option Crash :=
  match s.outcome i with
  | some (.crashed c) => some c
  | _ => none

/-- Whether call number `i` was a `resolve` that returned an error. -/
def Sys.failed (s : Sys) (i : Nat) : Bool :=
  match s.outcome i with
  | some (.done (.resolve (.error _))) => true
  | _ => false

/-- A resolver: options, number of the cache. -/
def config (o : Opts) (cache : Nat) : Config := ⟨o.new, cache, false, 1000000000⟩

end Verif
