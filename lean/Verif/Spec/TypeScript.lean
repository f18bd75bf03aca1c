import Verif.Spec.Tsconfig
/-!
# How TypeScript reads `paths`

After the TSConfig reference (`extends`, `baseUrl`, `paths`) and the compiler (`tryLoadModuleUsingPaths`,
`matchPatternOrExact`, `findBestPatternMatch`): which paths are tried for a module name before it is looked up
as usual. The lookup of the name itself below `baseUrl` is left out here (see `C78_base_violated`).
-/

namespace Verif

/-- One tsconfig of a chain: its directory and its own options. -/
structure TsOwn where
  dir : Str
  baseUrl : Option Str
  paths : Option (List (Str × List Str))

/-- The JSON value of `paths`. -/
def pathsJson (paths : List (Str × List Str)) : Json :=
  .obj (paths.map fun kp => (kp.1, .arr (kp.2.map .str)))

/-- The options that a file has itself. -/
structure TsOwn.Of (f : TsOwn) (json : Json) : Prop where
  options : json.at [cs!"compilerOptions"] = none ∨
    ∃ o, json.at [cs!"compilerOptions"] = some (.obj o)
  baseUrl : json.at [cs!"compilerOptions", cs!"baseUrl"] = f.baseUrl.map .str
  paths : json.at [cs!"compilerOptions", cs!"paths"] = f.paths.map pathsJson

/-- The directory of a file. -/
def dirOf (loc : Str) : Str := (pparent loc).getD []

/-- The chain of a tsconfig: itself, the one it extends, and so on. `ext dir s p`: asked for from the directory
`dir`, `s` is the file `p`. -/
inductive TsChain (fs : Fs) (ext : Str → Str → Str → Prop) : Str → List TsOwn → Prop where
  | last {loc doc json f} : fs.read loc = some doc → doc.jsonc = .ok (some json) →
      json.at [cs!"extends"] = none → f.dir = dirOf loc → f.Of json → TsChain fs ext loc [f]
  | more {loc doc json f s p l} : fs.read loc = some doc → doc.jsonc = .ok (some json) →
      json.at [cs!"extends"] = some (.str s) → f.dir = dirOf loc → f.Of json → ext (dirOf loc) s p →
      TsChain fs ext p l → TsChain fs ext loc (f :: l)

/-- An option comes from the first file that has it. -/
def firstSome {α β : Type} (f : α → Option β) : List α → Option β
  | [] => none
  | x :: l =>
    match f x with
    | some y => some y
    | none => firstSome f l

/-- `paths` in force, and the directory that they are relative to: `baseUrl`, which is relative to the directory
of the file it comes from, and without it the directory of the file that `paths` comes from. -/
def tsPathsOf (chain : List TsOwn) : Option (Str × List (Str × List Str)) :=
  match firstSome (fun f => f.paths.map fun p => (f.dir, p)) chain with
  | none => none
  | some (dir, paths) =>
    match firstSome (fun f => f.baseUrl.map fun b => pjoin f.dir b) chain with
    | some base => some (base, paths)
    | none => some (dir, paths)

/-- The text that the `*` of a pattern stands for. -/
def tsCapture (pattern name : Str) : Option Str :=
  let pre := pattern.takeWhile (· ≠ '*')
  let post := (pattern.dropWhile (· ≠ '*')).drop 1
  if pre.isPrefixOf name && post.isSuffixOf name && pre.length + post.length ≤ name.length then
    some ((name.drop pre.length).take (name.length - pre.length - post.length))
  else none

/-- Whether a pattern fits a name. -/
def tsFits (pattern name : Str) : Bool :=
  if pattern.contains '*' then (tsCapture pattern name).isSome else pattern = name

/-- The entry with the longest text before the `*`. -/
def tsLongest : List (Str × List Str) → Option (Str × List Str)
  | [] => none
  | kp :: l =>
    match tsLongest l with
    | none => some kp
    | some b =>
      if (b.1.takeWhile (· ≠ '*')).length > (kp.1.takeWhile (· ≠ '*')).length then some b else some kp

/-- The entry for a name: one that equals it, otherwise the pattern with the longest prefix. -/
def tsChosen (paths : List (Str × List Str)) (name : Str) : Option (Str × List Str) :=
  match paths.find? fun kp => !kp.1.contains '*' && kp.1 = name with
  | some kp => some kp
  | none => tsLongest (paths.filter fun kp => kp.1.contains '*' && tsFits kp.1 name)

/-- A substitution with the text in place of its first `*`. -/
def tsSubst (s text : Str) : Str :=
  match s with
  | [] => []
  | c :: s => if c = '*' then text ++ s else c :: tsSubst s text

/-- Names to which `paths` do not apply. -/
def tsRelative (name : Str) : Bool :=
  name = cs!"." || name = cs!".." || cs!"./".isPrefixOf name || cs!"../".isPrefixOf name

/-- The paths to try for a name, in order. -/
def tsWanted (chain : List TsOwn) (name : Str) : List Str :=
  if tsRelative name then []
  else
    match tsPathsOf chain with
    | none => []
    | some (base, paths) =>
      match tsChosen paths name with
      | none => []
      | some (pattern, substs) =>
        substs.map fun s => pjoin base
          (if pattern.contains '*' then tsSubst s ((tsCapture pattern name).getD []) else s)

/-- What the code reads in the same way. -/
structure TsCommon (chain : List TsOwn) (name : Str) : Prop where
  /-- the name is not relative and has no `*` -/
  named : tsRelative name = false ∧ '*' ∉ name
  /-- `paths` comes with a `baseUrl`, which comes from a file in the directory of the first, without `*` -/
  base : ∀ base paths, tsPathsOf chain = some (base, paths) → '*' ∉ base ∧
    ∃ f l b, chain = f :: l ∧ firstSome TsOwn.baseUrl chain = some b ∧ base = pjoin f.dir b
  /-- only one file has `paths` -/
  once : (chain.filter fun f => f.paths.isSome).length ≤ 1
  /-- only one pattern fits -/
  unique : ∀ base paths, tsPathsOf chain = some (base, paths) →
    (paths.filter fun kp => tsFits kp.1 name).length ≤ 1
  /-- the text in place of the `*` is not empty -/
  full : ∀ base paths kp, tsPathsOf chain = some (base, paths) → kp ∈ paths → kp.1.contains '*' →
    tsCapture kp.1 name ≠ some []
  /-- at most one `*` in a substitution, none if the pattern has none, and none at the beginning -/
  stars : ∀ base paths kp s, tsPathsOf chain = some (base, paths) → kp ∈ paths → s ∈ kp.2 →
    s.head? ≠ some '*' ∧ s.count '*' ≤ if kp.1.contains '*' then 1 else 0

/-- JSON values of tsconfig files in which the options have the right types. -/
def TsSound (fs : Fs) : Prop :=
  ∀ p doc json, fs.read p = some doc → doc.jsonc = .ok (some json) →
    (json.at [cs!"extends"] = none ∨ ∃ s, json.at [cs!"extends"] = some (.str s)) ∧
    ∃ f : TsOwn, f.Of json

/-- Somewhere in the chain an `extends` is not found. `ext dir s st`: asked for from `dir`, `s` may give `st`. -/
inductive TsLost (fs : Fs) (ext : Str → Str → Stats → Prop) : Str → Prop where
  | here {loc doc json s st} : fs.read loc = some doc → doc.jsonc = .ok (some json) →
      json.at [cs!"extends"] = some (.str s) → ext (dirOf loc) s st → (∀ r, st ≠ .success r) →
      TsLost fs ext loc
  | there {loc doc json s i} : fs.read loc = some doc → doc.jsonc = .ok (some json) →
      json.at [cs!"extends"] = some (.str s) → ext (dirOf loc) s (.success (.info i)) →
      TsLost fs ext i.getPath → TsLost fs ext loc

/-- What `extends` may give. -/
def extBy (c : Ctx) (dir s : Str) (st : Stats) : Prop :=
  ∃ m, (resolveInner c m ⟨dir, parseRequest s⟩).Returns st

/-- The file that `extends` may give. -/
def extFile (c : Ctx) (dir s p : Str) : Prop :=
  ∃ i, extBy c dir s (.success (.info i)) ∧ p = i.getPath

end Verif
