import Verif.Model.Json
/-!
# exports / imports maps (src/map.rs)
-/

namespace Verif

/-- Errors (`RResult` messages) of the crate, as structured values. The message text is
`Err.render` in `Verif.Model.Types`. -/
inductive Err where
  /-- `RAISE_RESOLVE_ERROR_TAG` (src/utils.rs:5) -/
  | tag
  /-- src/utils.rs:12-18 -/
  | failed (request : Str) (path : Str)
  /-- `"Open {} failed"` (src/fs.rs:30, src/description.rs:47, src/tsconfig.rs:55) -/
  | openFailed (path : Str)
  /-- `"Parse {} failed"` (src/description.rs:52) -/
  | parseFailed (path : Str)
  /-- `"Compare SystemTime failed in {}"` (src/fs.rs:48) -/
  | compareFailed (path : Str)
  /-- `"sideEffects in {} had unexpected value {}"` (src/description.rs:116-128) -/
  | sideEffects (path : Str) (value : Json)
  /-- `"Package path {target} is not exported"` (src/plugin/exports_field.rs:100,
  src/plugin/imports_field.rs:24,83) -/
  | notExported (target : Str)
  /-- `"Default condition should be last one"` (src/map.rs:36) -/
  | defaultNotLast
  /-- `"Request should be relative path and start with '.', but got {}"` (src/map.rs:252-260) -/
  | exportsRequest (r : Str)
  /-- `"Only requesting file allowed"` (src/map.rs:262,345) -/
  | onlyFile
  /-- `"Export should be relative path and start with \"./\", but got {}"` (src/map.rs:272) -/
  | exportTarget (t : Str)
  /-- `"Expected {} is folder mapping"` (src/map.rs:148) -/
  | expectedFolder (t : Str)
  /-- `"Expected {} is file mapping"` (src/map.rs:149) -/
  | expectedFile (t : Str)
  /-- `"{} had some wrong"` (src/map.rs:159) -/
  | someWrong (t : Str)
  /-- `"Export field key can't mixed relative path and conditional object"` (src/map.rs:299) -/
  | mixedKeys
  /-- `"Export field key should be relative path and start with \"./\", but got {}"`
  (src/map.rs:312) -/
  | exportKey (k : Str)
  /-- `"Request should start with #, but got {}"` (src/map.rs:337) -/
  | importsRequest (r : Str)
  /-- `"Request should have at least 2 characters"` (src/map.rs:339) -/
  | importsRequestShort
  /-- `"Import field key should not start with #/, but got {}"` (src/map.rs:341,379) -/
  | importsSlash (k : Str)
  /-- `"Imports field key should start with #, but got {}"` (src/map.rs:370) -/
  | importsKey (k : Str)
  /-- `"Imports field key should have at least 2 characters, but got {}"` (src/map.rs:375) -/
  | importsKeyShort (k : Str)
  /-- `"Path normalized failed"` (src/normalize.rs:43) -/
  | normalizeFailed
  /-- `"Parse {} failed. Error: {}"` (src/tsconfig.rs:57) -/
  | tsParseFailed (path : Str) (err : Str)
  /-- `"{} had been ignored in {}"` (src/tsconfig.rs:70) -/
  | extendsIgnored (s : Str) (path : Str)
  deriving Inhabited

/-- `MappingValue` (src/map.rs:16-20). Simplification: the element type `AvailableMapping`
(src/map.rs:9-13) of arrays is the same type without the `arr` constructor; `fromJson` never
builds a nested array (`Verif.fromJson_wf`), as the Rust type enforces. -/
inductive MV where
  | direct (target : Str)
  | cond (map : List (Str × MV))
  | arr (items : List MV)
  deriving Repr, Inhabited

/-- `PathTreeNode` (src/map.rs:73-78). -/
inductive Node where
  | mk (children : Option (List (Str × Node))) (folder : Option MV)
      (wildcards : Option (List (Str × MV))) (files : List (Str × MV))

instance : Inhabited Node := ⟨.mk none none none []⟩

def Node.children : Node → Option (List (Str × Node)) | .mk c _ _ _ => c
def Node.folder : Node → Option MV | .mk _ f _ _ => f
def Node.wildcards : Node → Option (List (Str × MV)) | .mk _ _ w _ => w
def Node.files : Node → List (Str × MV) | .mk _ _ _ f => f

/-- `PathTreeNode::default()` (src/map.rs:72). -/
def Node.empty : Node := .mk none none none []

/-- Which implementation of the trait `Field` (src/map.rs:82): `ExportsField` (249-332) or
`ImportsField` (334-387). -/
inductive FieldKind where
  | exports
  | imports
  deriving DecidableEq, Repr

mutual
/-- `Field::from_json` (src/map.rs:108-137). `none` is a panic: `unreachable!()` for null,
booleans and numbers (line 134), or a nested array (line 122). It never returns `Err`. -/
def fromJson : Json → Option MV
  | .str s => some (.direct s)
  | .arr l => (fromJsonArr l).map .arr
  | .obj l => (fromJsonObj l []).map .cond
  | _ => none
/-- The array loop (src/map.rs:116-124). -/
def fromJsonArr : List Json → Option (List MV)
  | [] => some []
  | j :: l =>
    match fromJson j with
    | some (.arr _) => none
    | some v => (fromJsonArr l).map (v :: ·)
    | none => none
/-- The object loop (src/map.rs:129-131), with the `IndexMap` built so far. -/
def fromJsonObj : List (Str × Json) → List (Str × MV) → Option (List (Str × MV))
  | [], acc => some acc
  | (k, j) :: l, acc =>
    match fromJson j with
    | some v => fromJsonObj l (ainsert k v acc)
    | none => none
end

mutual
/-- Number of constructors; used as fuel bound. Not in the code. -/
def MV.size : MV → Nat
  | .direct _ => 1
  | .cond l => 1 + condSize l
  | .arr l => 1 + arrSize l
/-- See `MV.size`. -/
def condSize : List (Str × MV) → Nat
  | [] => 0
  | (_, v) :: l => 1 + v.size + condSize l
/-- See `MV.size`. -/
def arrSize : List MV → Nat
  | [] => 0
  | v :: l => 1 + v.size + arrSize l
end

/-- What the inner `for` of `conditional_mapping` does (src/map.rs:34-65). -/
inductive CondEvent where
  /-- ran off the end: `lookup.pop()` (line 66) -/
  | exhausted
  /-- `return Err` (line 36) -/
  | bad
  /-- `return Ok(Some(value))` (lines 47, 61) -/
  | found (v : MV)
  /-- save `i + 1`, push `inner`, `continue 'outer` (lines 42-45, 56-59) -/
  | push (i : Nat) (inner : List (Str × MV))

/-- The inner `for` of `conditional_mapping` (src/map.rs:34-65): `i` is the index of the first
key of the list, `len` the number of keys of the whole object. -/
def condScan (mapping : List (Str × MV)) (len : Nat) (names : List Str) :
    Nat → List Str → CondEvent
  | _, [] => .exhausted
  | i, c :: rest =>
    if i ≠ len - 1 ∧ c = cs!"default" then .bad
    else
      let names' := if c = cs!"default" then alookup cs!"default" mapping else none
      match names' with
      | some (.cond inner) => .push i inner
      | some v => .found v
      | none =>
        if names.contains c then
          match alookup c mapping with
          | some (.cond inner) => .push i inner
          | some v => .found v
          | none => condScan mapping len names (i + 1) rest
        else condScan mapping len names (i + 1) rest

/-- The `while` loop of `conditional_mapping` (src/map.rs:31-67). The stack has its top first;
an entry is a mapping, its keys and the saved position. The outer `Option` is fuel
(`none` = out of fuel, excluded by `Verif.condMapping_isSome`). -/
def condLoop (names : List Str) :
    Nat → List (List (Str × MV) × List Str × Nat) → Option (Except Err (Option MV))
  | 0, _ => none
  | _ + 1, [] => some (.ok none)
  | n + 1, (mapping, keys, j) :: stack =>
    match condScan mapping keys.length names j (keys.drop j) with
    | .bad => some (.error .defaultNotLast)
    | .found v => some (.ok (some v))
    | .push i inner =>
      condLoop names n ((inner, inner.map (·.1), 0) :: (mapping, keys, i + 1) :: stack)
    | .exhausted => condLoop names n stack

/-- `conditional_mapping` (src/map.rs:25-70). -/
def condMapping (map : List (Str × MV)) (names : List Str) : Option (Except Err (Option MV)) :=
  condLoop names (2 * condSize map + 2) [(map, map.map (·.1), 0)]

/-- `PathTreeNode::get_next_list` (src/map.rs:390-402), from index `i` on: entry `j` is the
index of the first `c` at or after `j`. -/
def nextListAux (c : Char) : Nat → Str → List (Option Nat)
  | _, [] => []
  | i, x :: xs =>
    let r := nextListAux c (i + 1) xs
    (if x = c then some i else r.head?.join) :: r

/-- `PathTreeNode::get_next_list` (src/map.rs:390-402). -/
def nextList (path : Str) (c : Char) : List (Option Nat) := nextListAux c 0 path

/-- The loop of `Field::check_target` (src/map.rs:88-101) at index `i` with depth `cd`. The
slice accesses of lines 89, 90, 96 are in bounds (`Verif.checkTarget_in_bounds`). -/
def checkTargetLoop (path : Str) (nexts : List (Option Nat)) : Nat → Nat → Int → Bool
  | 0, _, _ => true
  | n + 1, i, cd =>
    match nexts[i]? with
    | some (some slash) =>
      if path[i]? = some '.' ∧ path[i + 1]? = some '.' then
        if cd - 1 < 0 then false else checkTargetLoop path nexts n (slash + 1) (cd - 1)
      else if path[i]? = some '.' then checkTargetLoop path nexts n (slash + 1) cd
      else checkTargetLoop path nexts n (slash + 1) (cd + 1)
    | _ => true

/-- `Field::check_target` (src/map.rs:83-103). Fuel: every round consumes a character. -/
def checkTarget (path : Str) : Bool :=
  checkTargetLoop path (nextList path '/') (path.length + 1) 0 0

/-- `assert_request` (src/map.rs:250-267 for exports, 335-349 for imports). -/
def assertRequest (k : FieldKind) (r : Str) : Except Err Str :=
  match k with
  | .exports =>
    if !startsWith r cs!"." then .error (.exportsRequest r)
    else if utf8Len r = 1 then .ok []
    else if !startsWith r cs!"./" then .error (.exportsRequest r)
    else if endsWithC r '/' then .error .onlyFile
    else .ok (r.drop 2)
  | .imports =>
    if !startsWith r cs!"#" then .error (.importsRequest r)
    else if utf8Len r = 1 then .error .importsRequestShort
    else if startsWith r cs!"#/" then .error (.importsSlash r)
    else if endsWithC r '/' then .error .onlyFile
    else .ok (r.drop 1)

/-- `assert_target(exp, expect_folder)` (src/map.rs:269-280 for exports, 351-358 for imports). -/
def assertTarget (k : FieldKind) (t : Str) (expectFolder : Bool) : Except Err Bool :=
  match k with
  | .exports =>
    if utf8Len t < 2 || startsWith t cs!"/" || (startsWith t cs!"." && !startsWith t cs!"./") then
      .error (.exportTarget t)
    else if endsWithC t '/' != expectFolder then .ok (!expectFolder)
    else .ok true
  | .imports =>
    if endsWithC t '/' != expectFolder then .ok (!expectFolder) else .ok true

/-- `Field::target_mapping` (src/map.rs:139-161). -/
def targetMapping (k : FieldKind) (remaining : Option Str) (subpath : Bool) (target : Str) :
    Except Err Str :=
  match assertTarget k target true with
  | .error e => .error e
  | .ok isFolder =>
    match remaining with
    | some request =>
      match subpath, isFolder with
      | true, true => .ok (target ++ request)
      | true, false => .error (.expectedFolder target)
      | false, true => .error (.expectedFile target)
      | false, false => .ok (replaceChar target '*' (replaceChar request '$' cs!"$$"))
    | none => if !isFolder then .ok target else .error (.someWrong target)

mutual
/-- `Field::mapping` (src/map.rs:163-213). The outer `Option` is fuel (`none` = out of fuel,
excluded by `Verif.mapping_isSome`). -/
def mapping (k : FieldKind) (remaining : Option Str) (subpath : Bool) (names : List Str) :
    Nat → MV → Option (Except Err (List Str))
  | 0, _ => none
  | _ + 1, .direct t =>
    match targetMapping k remaining subpath t with
    | .error e => some (.error e)
    | .ok s => some (.ok [s])
  | n + 1, .arr l => mappingArr k remaining subpath names n l
  | n + 1, .cond m =>
    match condMapping m names with
    | none => none
    | some (.error e) => some (.error e)
    | some (.ok none) => some (.ok [])
    | some (.ok (some v)) => mapping k remaining subpath names n v
/-- The array loop of `Field::mapping` (src/map.rs:178-201). -/
def mappingArr (k : FieldKind) (remaining : Option Str) (subpath : Bool) (names : List Str) :
    Nat → List MV → Option (Except Err (List Str))
  | 0, _ => none
  | _ + 1, [] => some (.ok [])
  | n + 1, v :: l =>
    -- the element: a direct target (lines 181-185) or a conditional object (186-198)
    match mapping k remaining subpath names n v with
    | none => none
    | some (.error e) => some (.error e)
    | some (.ok a) =>
      match mappingArr k remaining subpath names n l with
      | none => none
      | some (.error e) => some (.error e)
      | some (.ok b) => some (.ok (a ++ b))
end

/-- `PathTreeNode::apply_folder_mapping` (src/map.rs:404-414). -/
def applyFolder (last : Option (MV × Int)) (node : Node) (i : Nat) : Option (MV × Int) :=
  match node.folder with
  | some m => some (m, -(i : Int) - 1)
  | none => last

/-- The loop of `apply_wildcard_mappings` (src/map.rs:423-430). -/
def applyWildcardsLoop (rem : Str) (i : Nat) :
    List (Str × MV) → Option (MV × Int) → Option (MV × Int)
  | [], last => last
  | (key, target) :: l, last =>
    if startsWith rem key then
      let index : Int := (i : Int) + utf8Len key
      match last with
      | none => applyWildcardsLoop rem i l (some (target, index))
      | some (v, j) =>
        if j < index then applyWildcardsLoop rem i l (some (target, index))
        else applyWildcardsLoop rem i l (some (v, j))
    else applyWildcardsLoop rem i l last

/-- `PathTreeNode::apply_wildcard_mappings` (src/map.rs:416-433). -/
def applyWildcards (last : Option (MV × Int)) (node : Node) (rem : Str) (i : Nat) :
    Option (MV × Int) :=
  match node.wildcards with
  | some l => applyWildcardsLoop rem i l last
  | none => last

/-- The part of `find_match` after the loop (src/map.rs:481-497). -/
def findMatchEnd (node : Node) (req : Str) (i : Nat) (last : Option (MV × Int)) :
    Option (MV × Int) :=
  let rem := req.drop i
  match alookup rem node.files with
  | some v => some (v, (utf8Len rem : Int) + 1)
  | none => applyWildcards (applyFolder last node i) node rem i

/-- The loop of `find_match` (src/map.rs:452-480). Fuel: every round consumes a character. -/
def findMatchLoop (req : Str) (nexts : List (Option Nat)) :
    Nat → Node → Nat → Option (MV × Int) → Option (MV × Int)
  | 0, node, i, last => findMatchEnd node req i last
  | n + 1, node, i, last =>
    match nexts[i]? with
    | some (some slash) =>
      let last := applyFolder last node i
      if node.wildcards.isNone && node.children.isNone then last
      else
        let folder := (req.drop i).take (slash - i)
        let last := applyWildcards last node folder i
        match node.children with
        | none => last
        | some ch =>
          match alookup folder ch with
          | some node' => findMatchLoop req nexts n node' (slash + 1) last
          | none => last
    | _ => findMatchEnd node req i last

/-- `PathTreeNode::find_match` (src/map.rs:435-499). The number is `i32` in Rust; lengths are
assumed to fit. -/
def findMatch (root : Node) (req : Str) : Option (MV × Int) :=
  if req = [] then (alookup [] root.files).map fun v => (v, 1)
  else if root.children.isNone && root.folder.isNone && root.wildcards.isNone then
    (alookup req root.files).map fun v => (v, (req.length : Int) + 1)
  else findMatchLoop req (nextList req '/') (req.length + 1) root 0 none

/-- `Field::field_process` (src/map.rs:215-246). The outer `Option` is fuel of `mapping`. -/
def fieldProcess (k : FieldKind) (root : Node) (target : Str) (names : List Str) :
    Option (Except Err (List Str)) :=
  match assertRequest k target with
  | .error e => some (.error e)
  | .ok req =>
    match findMatch root req with
    | none => some (.ok [])
    | some (m, idx) =>
      let remaining : Option Str :=
        if idx = (req.length : Int) + 1 then none
        else if idx < 0 then some (req.drop (idx.natAbs - 1))
        else some (req.drop idx.toNat)
      mapping k remaining (decide (idx < 0)) names (m.size + 1) m

/-- The part of `walk` after the loop (src/map.rs:525-545). -/
def walkEnd (path : Str) (i : Nat) (target : MV) (node : Node) : Node :=
  if i ≥ path.length then .mk node.children (some target) node.wildcards node.files
  else
    let file := path.drop i
    if endsWithC file '*' then
      .mk node.children node.folder
        (some (ainsert file.dropLast target (node.wildcards.getD []))) node.files
    else .mk node.children node.folder node.wildcards (ainsert file target node.files)

/-- The loop of `walk` (src/map.rs:510-523). Descending with `&mut` becomes rebuilding the
child. Fuel: every round consumes a character. -/
def walkLoop (path : Str) (nexts : List (Option Nat)) (target : MV) : Nat → Nat → Node → Node
  | 0, i, node => walkEnd path i target node
  | n + 1, i, node =>
    match nexts[i]? with
    | some (some slash) =>
      let folder := (path.drop i).take (slash - i)
      let ch := node.children.getD []
      let child := (alookup folder ch).getD Node.empty
      .mk (some (ainsert folder (walkLoop path nexts target n (slash + 1) child) ch))
        node.folder node.wildcards node.files
    | _ => walkEnd path i target node

/-- `PathTreeNode::walk` (src/map.rs:502-546). -/
def walk (root : Node) (path : Str) (target : MV) : Node :=
  if path = [] then .mk root.children (some target) root.wildcards root.files
  else walkLoop path (nextList path '/') target (path.length + 1) 0 root

/-- The key loop of exports `build_field_path_tree` (src/map.rs:307-318). -/
def buildExportsLoop : List (Str × MV) → Node → Except Err Node
  | [], root => .ok root
  | (key, value) :: l, root =>
    if utf8Len key = 1 then
      buildExportsLoop l (.mk root.children root.folder root.wildcards (ainsert [] value root.files))
    else if !startsWith key cs!"./" then .error (.exportKey key)
    else buildExportsLoop l (walk root (key.drop 2) value)

/-- `build_field_path_tree` of `ExportsField` after `from_json` (src/map.rs:286-330). -/
def buildExportsMV (field : MV) : Except Err Node :=
  match field with
  | .cond map =>
    let isDirect (k : Str) : Bool := startsWith k cs!"." || startsWith k cs!"/"
    let allConditional := map.all fun kv => !isDirect kv.1
    let allDirect := map.all fun kv => isDirect kv.1
    if !allConditional && !allDirect then .error .mixedKeys
    else if allConditional then .ok (.mk none none none [([], .cond map)])
    else buildExportsLoop map Node.empty
  | .arr l => .ok (.mk none none none [([], .arr l)])
  | .direct s => .ok (.mk none none none [([], .direct s)])

/-- The key loop of imports `build_field_path_tree` (src/map.rs:368-384). -/
def buildImportsLoop : List (Str × MV) → Node → Except Err Node
  | [], root => .ok root
  | (key, value) :: l, root =>
    if !startsWith key cs!"#" then .error (.importsKey key)
    else if utf8Len key = 1 then .error (.importsKeyShort key)
    else if startsWith key cs!"#/" then .error (.importsSlash key)
    else buildImportsLoop l (walk root (key.drop 1) value)

/-- `build_field_path_tree` (src/map.rs:284-331 for exports, 362-386 for imports). The outer
`Option` is a panic: in `from_json`, or `unreachable!()` for imports that are not an object
(line 365). -/
def buildTree (k : FieldKind) (j : Json) : Option (Except Err Node) :=
  match fromJson j with
  | none => none
  | some field =>
    match k with
    | .exports => some (buildExportsMV field)
    | .imports =>
      match field with
      | .cond m => some (buildImportsLoop m Node.empty)
      | _ => none

end Verif
