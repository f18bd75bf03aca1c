import Verif.Props.SideEffects
import Verif.Props.Changes
/-!
# Further cases in which the code does not have a property
-/

namespace Verif

/-- The file that a call on a new resolver finds. -/
def foundPath (o : Opts) (t : Tree) (path request : Str) : Option Str :=
  ((resolve (treeEnv o t) 20 path request).freshInfo).map (·.path)

/-- `/etc/x.js`, and the package `m` with a `*` at the beginning of a target. -/
def treeStarAbs : Tree :=
  .dir [(cs!"etc", .dir [(cs!"x.js", textFile)]),
    (cs!"p", .dir [(cs!"node_modules", .dir [(cs!"m", .dir [
      (cs!"package.json", jsonFile (.obj [(cs!"exports", .obj [(cs!"./f*", .str cs!"*.js")]),
        (cs!"imports", .obj [(cs!"#f*", .str cs!"*.js")])]))])])])]

/-- C23 does not hold for a target that starts with `*`: the request says what it stands for, and that may be an
absolute path. So a request to a package, or a `#` request in it, leads to a file anywhere on the disk. -/
theorem C23_absolute_violated :
    foundPath optsA treeStarAbs cs!"/p" cs!"m/f/etc/x" = some cs!"/etc/x.js" ∧
    foundPath optsA treeStarAbs cs!"/p/node_modules/m" cs!"#f/etc/x" = some cs!"/etc/x.js" := by
  decide +kernel

/-- The package `m`, whose `browser` map has an entry for the target of its exports. -/
def treeOut : Tree :=
  .dir [(cs!"p", .dir [(cs!"s.js", textFile), (cs!"node_modules", .dir [(cs!"m", .dir [
    (cs!"package.json", jsonFile (.obj [(cs!"exports", .str cs!"./a.js"),
      (cs!"browser", .obj [(cs!"./a.js", .str cs!"../../s.js")])])),
    (cs!"a.js", textFile)])])])]

/-- C23 does not hold with a `browser` map: it can lead from a target of exports out of the package. -/
theorem C23_browser_violated :
    foundPath { optsA with browserField := true } treeOut cs!"/p" cs!"m" = some cs!"/p/s.js" ∧
    foundPath optsA treeOut cs!"/p" cs!"m" = some cs!"/p/node_modules/m/a.js" := by
  decide +kernel

/-- `/p` with imports for `#a` (`a.js`), and files named `index.js` and `#a.js`. -/
def treeHashA (files : List (Str × Tree)) : Tree :=
  .dir [(cs!"p", .dir ([
    (cs!"package.json", jsonFile (.obj [(cs!"imports", .obj [(cs!"#a", .str cs!"./a.js")]),
      (cs!"browser", .obj [(cs!"./a.js", .str cs!"./b.js")])])),
    (cs!"tsconfig.json", jsonFile (.obj [(cs!"compilerOptions", .obj [(cs!"baseUrl", .str cs!"."),
      (cs!"paths", .obj [(cs!"#a", .arr [.str cs!"b.js"])])])])),
    (cs!"a.js", textFile), (cs!"b.js", textFile), (cs!"index.js", textFile)] ++ files))]

/-- C18 does not hold for a `#` request: `./` in front of it makes it a request for the directory, with a fragment,
and that request resolves; but `prefer_relative` looks for a file of the name `#a`. -/
theorem C18_hash_violated :
    let o := { optsA with preferRelative := true }
    foundPath optsA (treeHashA []) cs!"/p" cs!"./#a" = some cs!"/p/index.js" ∧
    foundPath o (treeHashA []) cs!"/p" cs!"#a" = some cs!"/p/a.js" := by
  decide +kernel

/-- C65 does not hold with aliases, `prefer_relative`, a tsconfig or a `browser` map: they come before imports, or
after. -/
theorem C65_options_violated :
    foundPath optsA (treeHashA [(cs!"#a.js", textFile)]) cs!"/p" cs!"#a" = some cs!"/p/a.js" ∧
    foundPath { optsA with preferRelative := true } (treeHashA [(cs!"#a.js", textFile)]) cs!"/p" cs!"#a" =
      some cs!"/p/#a.js" ∧
    foundPath { optsA with alias := [(cs!"#a", .target cs!"./b.js")] } (treeHashA []) cs!"/p" cs!"#a" =
      some cs!"/p/b.js" ∧
    foundPath { optsA with tsconfig := some cs!"/p/tsconfig.json" } (treeHashA []) cs!"/p" cs!"#a" =
      some cs!"/p/b.js" ∧
    foundPath { optsA with browserField := true } (treeHashA []) cs!"/p" cs!"#a" = some cs!"/p/b.js" := by
  decide +kernel

/-- The package `m` has exports with keys beyond ASCII. -/
def treeKeys : Tree :=
  .dir [(cs!"p", .dir [(cs!"node_modules", .dir [(cs!"m", .dir [
    (cs!"package.json", jsonFile (.obj [(cs!"exports", .obj [(cs!"./éé*", .str cs!"./a.js"),
      (cs!"./éé/*", .str cs!"./b.js")])])),
    (cs!"a.js", textFile), (cs!"b.js", textFile)])])])]

/-- C25 does not hold for `*` keys beyond ASCII: the key `./éé/*` is the longest that matches, but the request gets
the target of another one (as in `C19_selection_violated`). -/
theorem C25_key_violated : foundPath optsA treeKeys cs!"/p" cs!"m/éé/x" = some cs!"/p/node_modules/m/a.js" := by
  decide +kernel

/-- C46 does not hold when files change: after the description file was deleted, `load_side_effects` still returns
it. (A new resolver returns nothing.) -/
theorem C46_deleted_violated :
    let ask (i : Nat) : List Event := .start 0 (.sideEffects cs!"/p") 20 :: List.replicate 20 (.step i 0)
    let s := (Sys.init (treeFs (treeSub true) [])).after cfgCh serJson
      (ask 0 ++ .change (treeFs (treeSub false) []) :: ask 1)
    (treeFs (treeSub false) []).isFile cs!"/p/package.json" = false ∧
      s.sideEffectsOf 1 = some (cs!"/p/package.json", some (.bool true)) ∧
      ((Sys.init (treeFs (treeSub false) [])).after cfgCh serJson (ask 0)).sideEffectsOf 0 = none := by
  decide +kernel

end Verif
