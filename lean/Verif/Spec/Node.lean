import Verif.Spec.Maps
import Verif.Spec.Termination
/-!
# The algorithm of Node.js for exports and imports

A transcription of `PACKAGE_EXPORTS_RESOLVE`, `PACKAGE_IMPORTS_RESOLVE`, `PACKAGE_IMPORTS_EXPORTS_RESOLVE`,
`PATTERN_KEY_COMPARE` and `PACKAGE_TARGET_RESOLVE` of the Node.js documentation ("Modules: ECMAScript modules",
"Resolution Algorithm Specification"), up to the text of the target: that the target is turned into a URL of a
file, or for imports looked up as a package, is left out. It uses no part of the model but JSON values.
-/

namespace Verif

/-- The errors that the algorithm throws. -/
inductive NodeErr where
  /-- Invalid Package Target -/
  | target
  /-- Invalid Package Configuration -/
  | config
  /-- Invalid Module Specifier -/
  | specifier
  /-- Package Path Not Exported, Package Import Not Defined -/
  | notDefined
  deriving DecidableEq

/-- What a part of the algorithm returns or throws. -/
inductive NodeOut where
  | undefined
  | null
  | found (target : Str)
  | throws (e : NodeErr)
  deriving DecidableEq

/-- The value of a hexadecimal digit. -/
def hexDigit (c : Char) : Option Nat :=
  if '0' ≤ c ∧ c ≤ '9' then some (c.toNat - '0'.toNat)
  else if 'a' ≤ c ∧ c ≤ 'f' then some (c.toNat - 'a'.toNat + 10)
  else if 'A' ≤ c ∧ c ≤ 'F' then some (c.toNat - 'A'.toNat + 10)
  else none

/-- A text without percent encodings. -/
def percentDecoded : Str → Str
  | [] => []
  | '%' :: a :: b :: s =>
    match hexDigit a, hexDigit b with
    | some x, some y => Char.ofNat (16 * x + y) :: percentDecoded s
    | _, _ => '%' :: percentDecoded (a :: b :: s)
  | c :: s => c :: percentDecoded s

/-- Split on `/` or `\`, a text has a segment that is empty, `.`, `..` or `node_modules`, case insensitive and
including percent encoded variants. -/
def hasBadSegment (s : Str) : Bool :=
  (splitC '/' (s.map fun c => if c = '\\' then '/' else c)).any fun seg =>
    [[], cs!".", cs!"..", cs!"node_modules"].contains ((percentDecoded seg).map Char.toLower)

/-- A text that is a valid URL: it begins with a scheme. -/
def isUrl (s : Str) : Bool :=
  match s with
  | [] => false
  | c :: _ =>
    c.isAlpha && s.contains ':' &&
      (s.takeWhile (· ≠ ':')).all fun c => c.isAlphanum || c = '+' || c = '-' || c = '.'

/-- An array index, as defined in ECMA-262. -/
def isIndexKey (k : Str) : Bool :=
  k ≠ [] && k.all Char.isDigit && (k = cs!"0" || k.head? ≠ some '0') &&
    decide (k.foldl (fun n c => 10 * n + (c.toNat - '0'.toNat)) 0 < 4294967295)

/-- `target` with every `*` replaced. -/
def withMatch (target : Str) : Option Str → Str
  | none => target
  | some c => target.flatMap fun x => if x = '*' then c else [x]

/-- `PACKAGE_TARGET_RESOLVE` for a string. -/
def nodeString (isImports : Bool) (patternMatch : Option Str) (target : Str) : NodeOut :=
  if !cs!"./".isPrefixOf target then
    if !isImports || cs!"../".isPrefixOf target || cs!"/".isPrefixOf target || isUrl target then
      .throws .target
    else .found (withMatch target patternMatch)
  else if hasBadSegment (target.drop 2) then .throws .target
  else
    match patternMatch with
    | none => .found target
    | some c => if hasBadSegment c then .throws .specifier else .found (withMatch target (some c))

mutual
/-- `PACKAGE_TARGET_RESOLVE`. -/
def nodeTarget (isImports : Bool) (conditions : List Str) (patternMatch : Option Str) : Json → NodeOut
  | .str target => nodeString isImports patternMatch target
  | .obj l =>
    if l.any fun kv => isIndexKey kv.1 then .throws .config
    else nodeFields isImports conditions patternMatch l
  | .arr [] => .null
  | .arr (j :: l) => nodeItems isImports conditions patternMatch .undefined (j :: l)
  | .null => .null
  | _ => .throws .target
/-- The loop over the properties of an object, in insertion order. -/
def nodeFields (isImports : Bool) (conditions : List Str) (patternMatch : Option Str) :
    List (Str × Json) → NodeOut
  | [] => .undefined
  | (p, j) :: l =>
    if p = cs!"default" ∨ p ∈ conditions then
      match nodeTarget isImports conditions patternMatch j with
      | .undefined => nodeFields isImports conditions patternMatch l
      | r => r
    else nodeFields isImports conditions patternMatch l
/-- The loop over an array, with the last null return or error. -/
def nodeItems (isImports : Bool) (conditions : List Str) (patternMatch : Option Str) (last : NodeOut) :
    List Json → NodeOut
  | [] => last
  | j :: l =>
    match nodeTarget isImports conditions patternMatch j with
    | .undefined => nodeItems isImports conditions patternMatch last l
    | .null => nodeItems isImports conditions patternMatch .null l
    | .throws .target => nodeItems isImports conditions patternMatch (.throws .target) l
    | r => r
end

/-- What is before the first `*` of a key. -/
def patternBase (key : Str) : Str := key.takeWhile (· ≠ '*')

/-- What is after the first `*` of a key. -/
def patternTrailer (key : Str) : Str := (key.dropWhile (· ≠ '*')).drop 1

/-- `PATTERN_KEY_COMPARE(a, b) ≤ 0`. -/
def patternBefore (a b : Str) : Bool :=
  (patternBase a).length > (patternBase b).length ||
    (patternBase a).length = (patternBase b).length && a.length ≥ b.length

/-- Put an entry where it belongs. -/
def insertPattern (kv : Str × Json) : List (Str × Json) → List (Str × Json)
  | [] => [kv]
  | x :: l => if patternBefore kv.1 x.1 then kv :: x :: l else x :: insertPattern kv l

/-- Sort by `PATTERN_KEY_COMPARE`. -/
def sortPatterns : List (Str × Json) → List (Str × Json)
  | [] => []
  | kv :: l => insertPattern kv (sortPatterns l)

/-- A key that matches with a text in the place of the `*`. -/
def patternMatches (matchKey key : Str) : Bool :=
  (patternBase key).isPrefixOf matchKey && matchKey ≠ patternBase key &&
    (patternTrailer key = [] || (patternTrailer key).isSuffixOf matchKey && matchKey.length ≥ key.length)

/-- `PACKAGE_IMPORTS_EXPORTS_RESOLVE`. -/
def nodeMatch (isImports : Bool) (conditions : List Str) (matchKey : Str) (matchObj : List (Str × Json)) :
    NodeOut :=
  if matchKey.getLast? = some '/' then .null
  else
    let expansion : NodeOut :=
      match (sortPatterns (matchObj.filter fun kv => kv.1.count '*' = 1)).find? fun kv =>
          patternMatches matchKey kv.1 with
      | none => .null
      | some (key, j) =>
        nodeTarget isImports conditions (some ((matchKey.drop (patternBase key).length).take
          (matchKey.length - (patternBase key).length - (patternTrailer key).length))) j
    match alookup matchKey matchObj with
    | some j => if '*' ∈ matchKey then expansion else nodeTarget isImports conditions none j
    | none => expansion

/-- Nothing found is an error. -/
def NodeOut.orThrow : NodeOut → NodeOut
  | .undefined => .throws .notDefined
  | .null => .throws .notDefined
  | r => r

/-- `PACKAGE_EXPORTS_RESOLVE`. -/
def nodeExports (conditions : List Str) (subpath : Str) (exports : Json) : NodeOut :=
  let dot (kv : Str × Json) : Bool := cs!".".isPrefixOf kv.1
  match exports with
  | .obj l =>
    if l.any dot && l.any fun kv => !dot kv then .throws .config
    else if subpath = cs!"." then
      if !l.any dot then (nodeTarget false conditions none (.obj l)).orThrow
      else
        match alookup cs!"." l with
        | some j => (nodeTarget false conditions none j).orThrow
        | none => .throws .notDefined
    else if l.all dot then (nodeMatch false conditions subpath l).orThrow
    else .throws .notDefined
  | j => if subpath = cs!"." then (nodeTarget false conditions none j).orThrow else .throws .notDefined

/-- `PACKAGE_IMPORTS_RESOLVE`, where `imports` are those of the package. -/
def nodeImports (conditions : List Str) (specifier : Str) (imports : Json) : NodeOut :=
  if specifier = cs!"#" || cs!"#/".isPrefixOf specifier then .throws .specifier
  else
    match imports with
    | .obj l => (nodeMatch true conditions specifier l).orThrow
    | _ => .throws .notDefined

/-! ## What both sides understand -/

/-- A target that both allow: `./…` without odd segments, or for imports another text that is neither a
path nor a URL, and does not end in `/`. -/
def CommonTarget (k : FieldKind) (t : Str) : Prop :=
  cs!"./" <+: t ∧ hasBadSegment (t.drop 2) = false ∨
    k = .imports ∧ ¬ cs!"./" <+: t ∧ ¬ cs!"../" <+: t ∧ ¬ cs!"/" <+: t ∧ isUrl t = false ∧
      t.getLast? ≠ some '/'

mutual
/-- A value that both understand: a string, an array of strings, or an object with such values and different
keys, in which `default` is last. -/
def Json.common : Json → Bool
  | .str _ => true
  | .arr l => l.all fun
    | .str _ => true
    | _ => false
  | .obj l => decide (l.map Prod.fst).Nodup && l.all (fun kv => !isIndexKey kv.1) && commonFields l
  | _ => false
/-- See `Json.common`. -/
def commonFields : List (Str × Json) → Bool
  | [] => true
  | (p, j) :: l => (p ≠ cs!"default" || l.isEmpty) && j.common && commonFields l
end

/-- A map that both understand: the keys are different and have no `*` but at the end, do not end in `/`, and
keys without `*` have targets without `*`. -/
structure CommonMap (k : FieldKind) (l : List (Str × Json)) : Prop where
  nodup : (l.map Prod.fst).Nodup
  key : ∀ kv ∈ l, '*' ∉ kv.1.dropLast ∧ kv.1.getLast? ≠ some '/'
  value : ∀ kv ∈ l, kv.2.common = true ∧ ∀ t ∈ kv.2.strings, CommonTarget k t ∧ ('*' ∈ t → '*' ∈ kv.1)

/-- Exports that both understand: a map with the keys `.` and `./…`, or a value for `.`. -/
inductive CommonExports : Json → Prop where
  | paths {l : List (Str × Json)} : l ≠ [] → (∀ kv ∈ l, ExportsKey kv.1) → CommonMap .exports l →
      CommonExports (.obj l)
  | main {j : Json} : j.common = true → (∀ t ∈ j.strings, CommonTarget .exports t ∧ '*' ∉ t) →
      (∀ l, j = .obj l → ∀ kv ∈ l, ¬ cs!"." <+: kv.1 ∧ ¬ cs!"/" <+: kv.1) → CommonExports j

/-- A request that both read alike: for all `*` keys with a base that it begins with, the base is ASCII, and the
rest is not empty, has no `$` and no odd segments. -/
def CommonRequest (keys : List Str) (request : Str) : Prop :=
  ∀ lit rest, lit ++ cs!"*" ∈ keys → request = lit ++ rest →
    (∀ c ∈ lit, c.utf8Size = 1) ∧ rest ≠ [] ∧ '$' ∉ rest ∧ hasBadSegment rest = false

/-- The keys of an object. -/
def Json.topKeys : Json → List Str
  | .obj l => l.map Prod.fst
  | _ => []

/-- The first of the targets, or the error that there is none. -/
def firstTarget (l : List Str) : NodeOut :=
  match l with
  | [] => .throws .notDefined
  | t :: _ => .found t

end Verif
