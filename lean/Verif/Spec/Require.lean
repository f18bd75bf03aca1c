import Verif.Spec.Imports
import Verif.Spec.Node
import Verif.Spec.Path
/-!
# The algorithm of Node.js for `require`

A transcription of `require(X)`, `LOAD_AS_FILE`, `LOAD_INDEX`, `LOAD_AS_DIRECTORY`, `LOAD_NODE_MODULES`,
`NODE_MODULES_PATHS`, `LOAD_PACKAGE_SELF` and `LOAD_PACKAGE_EXPORTS` of the Node.js documentation ("Modules: CommonJS
modules", "All together"), up to the path of the file, and for `#` requests of `LOAD_PACKAGE_IMPORTS`,
`LOOKUP_PACKAGE_SCOPE` and `PACKAGE_RESOLVE`. Core modules and the global folders are left out. Of the model it uses the
file system and JSON values only.
-/

namespace Verif

/-- `X` in the directory `Y`, as text. -/
def under (dir x : Str) : Str := if dir.getLast? = some '/' then dir ++ x else dir ++ '/' :: x

/-- `LOAD_AS_FILE(X)`. -/
def loadAsFile (fs : Fs) (x : Str) : Option Str :=
  [x, x ++ cs!".js", x ++ cs!".json", x ++ cs!".node"].find? fs.isFile

/-- `LOAD_INDEX(X)`. There is a file in `X` only if `X` is a directory. -/
def loadIndex (fs : Fs) (x : Str) : Option Str :=
  if fs.isDir x then
    [under x cs!"index.js", under x cs!"index.json", under x cs!"index.node"].find? fs.isFile
  else none

/-- The JSON of `X/package.json`, if that is a file. -/
def packageJson (fs : Fs) (x : Str) : Option Json :=
  if fs.isDir x && fs.isFile (under x cs!"package.json") then
    (fs.read (under x cs!"package.json")).bind Doc.json
  else none

/-- The `main` field, if it is not falsy. -/
def mainOf (j : Json) : Option Str :=
  match j.get cs!"main" with
  | some (.str []) => none
  | some (.str m) => some m
  | _ => none

/-- The `exports` field, if it is neither null nor undefined. -/
def exportsOf (j : Json) : Option Json :=
  match j.get cs!"exports" with
  | some .null => none
  | r => r

/-- `LOAD_AS_DIRECTORY(X)`. -/
def loadAsDirectory (fs : Fs) (x : Str) : Option Str :=
  match (packageJson fs x).bind mainOf with
  | none => loadIndex fs x
  | some m => (loadAsFile fs (under x m)).or ((loadIndex fs (under x m)).or (loadIndex fs x))

/-- `LOAD_AS_FILE(X)`, then `LOAD_AS_DIRECTORY(X)`. -/
def loadPath (fs : Fs) (x : Str) : Option Str := (loadAsFile fs x).or (loadAsDirectory fs x)

/-- The path of a request that begins with `/`, `./` or `../`, from the directory `start`. -/
def requestPath (start x : Str) : Str := if cs!"/" <+: x then x else under start x

/-- What `require` comes to: a file, or an error. -/
inductive Required where
  | found (p : Str)
  | throws
  deriving DecidableEq

/-- `PACKAGE_EXPORTS_RESOLVE` for the package in `dir` with these exports, and `RESOLVE_ESM_MATCH`. -/
def loadExports (fs : Fs) (conditions : List Str) (dir rest : Str) (exports : Json) : Required :=
  match nodeExports conditions ('.' :: rest) exports with
  | .found t => if fs.isFile (under dir t) then .found (under dir t) else .throws
  | _ => .throws

/-- The loop of `LOAD_NODE_MODULES` for one directory: `X` is the package name and what follows. -/
def loadModule (fs : Fs) (conditions : List Str) (name rest dir : Str) : Option Required :=
  if fs.isDir dir then
    match (packageJson fs (under dir name)).bind exportsOf with
    | some exports => some (loadExports fs conditions (under dir name) rest exports)
    | none => (loadPath fs (under dir (name ++ rest))).map .found
  else none

/-- The directories from `parts` up to the root, as `parts` and its beginnings. -/
def upParts (parts : List Str) : List (List Str) :=
  (List.range (parts.length + 1)).reverse.map parts.take

/-- `NODE_MODULES_PATHS(START)`, where `parts` are the parts of `START`. -/
def nodeModulesPaths (parts : List Str) : List Str :=
  ((upParts parts).filter fun p => p.getLast? ≠ some cs!"node_modules").map fun p =>
    absText (p ++ [cs!"node_modules"])

/-- `LOOKUP_PACKAGE_SCOPE`: the nearest directory with a description file, not above a `node_modules`. -/
def packageScope (fs : Fs) (parts : List Str) : Option (List Str × Json) :=
  ((upParts parts).takeWhile fun p => p.getLast? ≠ some cs!"node_modules").findSome? fun p =>
    (packageJson fs (absText p)).map fun j => (p, j)

/-- `LOAD_PACKAGE_SELF(X, DIR)`, and `PACKAGE_SELF_RESOLVE`. -/
def loadSelf (fs : Fs) (conditions : List Str) (name rest : Str) (parts : List Str) : Option Required :=
  match packageScope fs parts with
  | none => none
  | some (p, j) =>
    match exportsOf j with
    | none => none
    | some exports =>
      if (j.get cs!"name").bind Json.asStr = some name then
        some (loadExports fs conditions (absText p) rest exports)
      else none

/-- `require(X)` from the directory `/parts[0]/parts[1]/…` for an `X` that is the package name and what follows. -/
def requireBare (fs : Fs) (conditions : List Str) (name rest : Str) (parts : List Str) : Option Required :=
  (loadSelf fs conditions name rest parts).or
    ((nodeModulesPaths parts).findSome? (loadModule fs conditions name rest))

/-- The `imports` field, if it is neither null nor undefined. -/
def importsOf (j : Json) : Option Json :=
  match j.get cs!"imports" with
  | some .null => none
  | r => r

/-- A file, or an error if there is none. -/
def fileAt (fs : Fs) (p : Str) : Required := if fs.isFile p then .found p else .throws

/-- The loop of `PACKAGE_RESOLVE` for one directory, and `RESOLVE_ESM_MATCH`. -/
def packageIn (fs : Fs) (conditions : List Str) (name rest : Str) (parts : List Str) : Option Required :=
  let dir := under (absText (parts ++ [cs!"node_modules"])) name
  if fs.isDir dir then
    match (packageJson fs dir).bind exportsOf with
    | some exports => some (loadExports fs conditions dir rest exports)
    | none =>
      if rest = [] then
        match (packageJson fs dir).bind mainOf with
        | some m => some (fileAt fs (under dir m))
        | none => some .throws
      else some (fileAt fs (dir ++ rest))
  else none

/-- `PACKAGE_RESOLVE` for the package name and what follows, from the directory `/parts[0]/parts[1]/…`. -/
def packageResolve (fs : Fs) (conditions : List Str) (name rest : Str) (parts : List Str) : Required :=
  ((loadSelf fs conditions name rest parts).or
    ((upParts parts).findSome? (packageIn fs conditions name rest))).getD .throws

/-- The name of the package at the beginning of a request: up to the first `/`, or the second if there is a scope. -/
def packageNameOf (x : Str) : Str :=
  if cs!"@" <+: x then
    x.takeWhile (· ≠ '/') ++ ((x.dropWhile (· ≠ '/')).take 1) ++ ((x.dropWhile (· ≠ '/')).drop 1).takeWhile (· ≠ '/')
  else x.takeWhile (· ≠ '/')

/-- `LOAD_PACKAGE_IMPORTS(X, DIR)`, where `parts` are the parts of `DIR`. -/
def requireHash (fs : Fs) (conditions : List Str) (x : Str) (parts : List Str) : Option Required :=
  match packageScope fs parts with
  | none => none
  | some (p, j) =>
    match importsOf j with
    | none => none
    | some imports =>
      some <| match nodeImports conditions x imports with
        | .found t =>
          if cs!"./" <+: t then fileAt fs (under (absText p) t)
          else packageResolve fs conditions (packageNameOf t) (t.drop (packageNameOf t).length) p
        | _ => .throws

/-! ## What both sides understand -/

/-- The options that make the algorithm that of Node.js. -/
structure NodeOpts (o : Opts) : Prop where
  extensions : o.extensions = [cs!".js", cs!".json", cs!".node"]
  enforce : o.enforceExtension ≠ some true
  description : o.descriptionFile = some cs!"package.json"
  mainFields : o.mainFields = [cs!"main"]
  mainFiles : o.mainFiles = [cs!"index"]
  browser : o.browserField = false
  alias : o.alias = []
  prefer : o.preferRelative = false
  tsconfig : o.tsconfig = none

/-- The description file of a path can be loaded, if there is one. -/
def LoadsOk (o : Opts) (fs : Fs) (p : Str) : Prop := ∃ pkg, Loads o fs p (.ok pkg)

/-- A value of `main` that both read alike: not the directory itself and not absolute; if it names a directory, that
directory has no description file and no file `index`. -/
structure CommonMain (o : Opts) (fs : Fs) (x m : Str) : Prop where
  ne : m ≠ [] ∧ m ≠ cs!"." ∧ m ≠ cs!"./"
  rel : ¬ cs!"/" <+: m
  plain : fs.isDir (under x m) = true → fs.isFile (under (under x m) cs!"package.json") = false ∧
    fs.isFile (under (under x m) cs!"index") = false ∧ LoadsOk o fs (under x m)

/-- A directory that both read alike, and that is found: it has no file `index`, and its `main` is common. -/
structure CommonDir (o : Opts) (fs : Fs) (x : Str) : Prop where
  index : fs.isFile (under x cs!"index") = false
  main : ∀ j m, packageJson fs x = some j → j.get cs!"main" = some (.str m) → CommonMain o fs x m
  found : loadPath fs x ≠ none

/-- A place where both read a package alike: `dir` is a `node_modules` directory. -/
structure CommonModule (o : Opts) (fs : Fs) (name rest dir : Str) : Prop where
  /-- the description file can be loaded -/
  loads : LoadsOk o fs (under dir (name ++ rest))
  /-- a package has a description file, and there is none between that and what is asked for -/
  own : fs.isDir (under dir name) = true → ∃ d, closest fs cs!"package.json" (under dir (name ++ rest)) = some d ∧
    comps d = comps (under dir name)
  /-- otherwise the package above has no name with which the request begins -/
  other : fs.isDir (under dir name) = false → ∀ pkg n, Loads o fs (under dir (name ++ rest)) (.ok (some pkg)) →
    pkg.name = some n → ¬ n <+: name ++ rest
  /-- without exports, the request does not lead to a directory in which nothing is found -/
  live : (packageJson fs (under dir name)).bind (·.get cs!"exports") = none →
    fs.isDir (under dir (name ++ rest)) = true → CommonDir o fs (under dir (name ++ rest))
  /-- exports are read alike, and what Node.js finds is a file -/
  exports : ∀ e, (packageJson fs (under dir name)).bind (·.get cs!"exports") = some e →
    CommonExports e ∧ CommonRequest e.topKeys ('.' :: rest) ∧
      ∀ t, nodeExports o.conditionNames ('.' :: rest) e = .found t →
        fs.isFile (under (under dir name) t) = true ∧ Contained t ∧ cs!"./" <+: t ∧ '?' ∉ t ∧ '#' ∉ t

/-- A bare request that both read alike, from the directory `/parts[0]/parts[1]/…`. -/
structure CommonBare (o : Opts) (fs : Fs) (request name rest : Str) (parts : List Str) : Prop where
  target : BareTarget request name rest
  marks : '?' ∉ request ∧ '#' ∉ request
  slash : rest.getLast? ≠ some '/'
  names : ∀ x ∈ parts, x ≠ [] ∧ x ≠ cs!"." ∧ x ≠ cs!".." ∧ '/' ∉ x
  /-- no `node_modules` directly in a `node_modules` -/
  nested : ∀ p ∈ upParts parts, p.getLast? = some cs!"node_modules" →
    fs.isDir (absText (p ++ [cs!"node_modules"])) = false
  /-- the request is not for the package it is made in -/
  self : loadSelf fs o.conditionNames name rest parts = none
  loads : LoadsOk o fs (under (absText (parts ++ [cs!"node_modules"])) request)
  modules : ∀ p ∈ upParts parts, fs.isDir (absText (p ++ [cs!"node_modules"])) = true →
    CommonModule o fs name rest (absText (p ++ [cs!"node_modules"]))

/-- A `#` request that both read alike, from the directory `/parts[0]/parts[1]/…` in the package in `/p[0]/p[1]/…`
that has the imports `l`. -/
structure CommonHash (o : Opts) (fs : Fs) (request : Str) (parts p : List Str) (l : List (Str × Json)) : Prop where
  key : ImportsKey request
  marks : '?' ∉ request ∧ '#' ∉ request.tail
  slash : request.getLast? ≠ some '/'
  names : ∀ x ∈ parts, x ≠ [] ∧ x ≠ cs!"." ∧ x ≠ cs!".." ∧ '/' ∉ x
  scope : ∃ j, packageScope fs parts = some (p, j) ∧ j.get cs!"imports" = some (.obj l)
  keys : ∀ kv ∈ l, ImportsKey kv.1
  imports : CommonMap .imports l
  common : CommonRequest (l.map Prod.fst) request
  /-- the description file can be loaded, and no other is nearer to the request, taken as a path -/
  loads : LoadsOk o fs (under (absText parts) request)
  own : ∃ d, closest fs cs!"package.json" (under (absText parts) request) = some d ∧ comps d = comps (absText p)
  /-- what Node.js finds is a path in the package, or a package in its `node_modules`, with exports -/
  found : ∀ t, nodeImports o.conditionNames request (.obj l) = .found t → '?' ∉ t ∧ '#' ∉ t ∧
    (cs!"./" <+: t ∧ Contained t ∨
      ∃ name rest e, BareTarget t name rest ∧ rest.getLast? ≠ some '/' ∧
        loadSelf fs o.conditionNames name rest p = none ∧
        CommonModule o fs name rest (absText (p ++ [cs!"node_modules"])) ∧
        (packageJson fs (under (absText (p ++ [cs!"node_modules"])) name)).bind (·.get cs!"exports") = some e)

/-- A request of a package for itself that both read alike, from the directory `/parts[0]/parts[1]/…` in the package in
`/p[0]/p[1]/…` that has the exports `e`. -/
structure CommonSelf (o : Opts) (fs : Fs) (request name rest : Str) (parts p : List Str) (e : Json) : Prop where
  target : BareTarget request name rest
  marks : '?' ∉ request ∧ '#' ∉ request
  slash : rest.getLast? ≠ some '/'
  names : ∀ x ∈ parts, x ≠ [] ∧ x ≠ cs!"." ∧ x ≠ cs!".." ∧ '/' ∉ x
  scope : ∃ j, packageScope fs parts = some (p, j) ∧ j.get cs!"name" = some (.str name) ∧
    j.get cs!"exports" = some e
  /-- the package has a `node_modules`, and there is none between that and the directory of the request -/
  modules : fs.isDir (absText (p ++ [cs!"node_modules"])) = true
  between : ∀ q ∈ upParts parts, p.length < q.length → fs.isDir (absText (q ++ [cs!"node_modules"])) = false
  /-- no package of the same name with a description file is installed there -/
  first : LoadsOk o fs (under (absText (parts ++ [cs!"node_modules"])) request)
  loads : LoadsOk o fs (under (absText (p ++ [cs!"node_modules"])) request)
  own : ∃ d, closest fs cs!"package.json" (under (absText (p ++ [cs!"node_modules"])) request) = some d ∧
    comps d = comps (absText p)
  /-- exports are read alike, and what Node.js finds is a file -/
  exports : CommonExports e ∧ CommonRequest e.topKeys ('.' :: rest) ∧
    ∀ t, nodeExports o.conditionNames ('.' :: rest) e = .found t →
      fs.isFile (under (absText p) t) = true ∧ Contained t ∧ cs!"./" <+: t ∧ '?' ∉ t ∧ '#' ∉ t

end Verif
