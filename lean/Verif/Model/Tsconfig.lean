import Verif.Model.Resolve
/-!
# tsconfig (src/tsconfig.rs, src/tsconfig_path.rs)
-/

namespace Verif

/-- `CompilerOptions` / `TsConfigInfo` (src/tsconfig.rs:15-18, src/tsconfig_path.rs:11-14).
`paths` is in insertion order; the iteration order is chosen where it is used. The `extends`
field of `TsConfig` (src/tsconfig.rs:45) is never read. -/
structure TsInfo where
  baseUrl : Option Str
  paths : Option (List (Str × List Str))

mutual
/-- `merge` (src/tsconfig.rs:79-92): `&mut a` becomes the returned value. -/
def jmerge (a b : Json) : Json :=
  match b with
  | .obj fb =>
    match a with
    | .obj fa => .obj (jmergeFields fa fb)
    | .null => .obj fb
    | a => a
  | b =>
    match a with
    | .null => b
    | a => a
/-- The loop over the fields of `b` (src/tsconfig.rs:82-84): `entry(k).or_insert(Null)`, then
`merge` into it. -/
def jmergeFields (fa : List (Str × Json)) : List (Str × Json) → List (Str × Json)
  | [] => fa
  | (k, v) :: l => jmergeFields (ainsert k (jmerge ((alookup k fa).getD .null) v) fa) l
end

/-- `parse_file_to_value` (src/tsconfig.rs:53-77). Fuel: `extends` chains are not bounded. -/
def tsValue (c : Ctx) : Nat → Str → Prog (Except Err Json)
  | 0, _ => .crash .fuel
  | n + 1, location =>
    match c.fs.read location with
    | none => .ret (.error (.openFailed location))
    | some doc =>
      match doc.jsonc with
      | .error msg => .ret (.error (.tsParseFailed location msg))
      | .ok none => .panic .tsEmpty
      | .ok (some json) =>
        match json.get cs!"extends" with
        | some (.str s) =>
          match pparent location with
          | none => .panic .tsParent
          | some dir =>
            (resolveInner c n ⟨dir, parseRequest s⟩).bind fun
            | .success (.info i) =>
              (tsValue c n i.getPath).bind fun
              | .error err => .ret (.error err)
              | .ok ext => .ret (.ok (jmerge json ext))
            | .success .ignored => .ret (.error (.extendsIgnored s location))
            | _ => .ret (.ok json)
        | _ => .ret (.ok json)

/-- `.map(|v| v.as_str().unwrap().to_string()).collect()` (src/tsconfig.rs:34-38);
`none` is a panic. -/
def tsStrings : List Json → Option (List Str)
  | [] => some []
  | v :: l =>
    match v.asStr with
    | none => none
    | some s => (tsStrings l).map (s :: ·)

/-- The loop over `paths` (src/tsconfig.rs:31-40); `none` is a panic. -/
def tsPathsLoop : List (Str × Json) → List (Str × List Str) → Option (List (Str × List Str))
  | [], acc => some acc
  | (k, v) :: l, acc =>
    match v.asArr.bind tsStrings with
    | none => none
    | some r => tsPathsLoop l (ainsert k r acc)

/-- `compilerOptions` of a merged tsconfig (src/tsconfig.rs:23-44, src/tsconfig_path.rs:43-48);
`none` is a panic. -/
def tsInfoOf (json : Json) : Option TsInfo :=
  match json.get cs!"compilerOptions" with
  | none => some ⟨none, none⟩
  | some options =>
    let baseUrl : Option (Option Str) :=
      match options.get cs!"baseUrl" with
      | none => some none
      | some v => v.asStr.map some
    let paths : Option (Option (List (Str × List Str))) :=
      match options.get cs!"paths" with
      | none => some none
      | some v => (v.asObj.bind fun o => tsPathsLoop o []).map some
    match baseUrl, paths with
    | some b, some p => some ⟨b, p⟩
    | _, _ => none

/-- `Resolver::match_star` (src/tsconfig_path.rs:51-70). The outer `Option` is a panic of a
byte slice off a character boundary. -/
def matchStar (pattern search : Str) : Option (Option Str) :=
  if utf8Len search < utf8Len pattern then some none
  else if pattern = cs!"*" then some (some search)
  else
    match splitFirst '*' pattern with
    | none => some none
    | some (part1, rest) =>
      let part2 := rest.drop 1
      let star := utf8Len part1
      match takeBytes search star with
      | none => none
      | some a =>
        if a ≠ part1 then some none
        else
          match dropBytes search (utf8Len search - utf8Len part2) with
          | none => none
          | some b =>
            if b ≠ part2 then some none
            else
              match (dropBytes search star).bind fun s =>
                  takeBytes s (utf8Len search - utf8Len part2 - utf8Len part1) with
              | none => none
              | some m => some (some m)

/-- `create_match_list` and `get_absolute_mapping_entries` (src/tsconfig_path.rs:24-39, 72-88),
without the iteration order; `none` is the panic of `parent().unwrap()`. -/
def createMatchList (location : Str) (ts : TsInfo) : Option (List (Str × List Str)) :=
  match pparent location with
  | none => none
  | some dir =>
    match ts.baseUrl with
    | none => some []
    | some b =>
      match ts.paths with
      | none => some []
      | some paths => some (paths.map fun kp => (kp.1, kp.2.map (pjoin (pjoin dir b))))

/-- The inner loop over the physical paths of one entry (src/tsconfig_path.rs:112-123). -/
def tsPathsTry (rec : Info → Prog Stats) (star : Str) (next : Prog Stats) :
    List Str → Prog Stats
  | [] => next
  | p :: l =>
    (rec ⟨replaceChar p '*' star, Request.empty⟩).bind fun
    | .success r => .ret (.success r)
    | _ => tsPathsTry rec star next l

/-- The outer loop over the entries (src/tsconfig_path.rs:102-124), then line 125. -/
def tsEntries (rec : Info → Prog Stats) (info : Info) : List (Str × List Str) → Prog Stats
  | [] => rec info
  | (pattern, paths) :: l =>
    let star : Option (Option Str) :=
      if pattern = info.request.target then some (some [])
      else matchStar pattern info.request.target
    match star with
    | none => .panic .starSlice
    | some none => tsEntries rec info l
    | some (some s) => tsPathsTry rec s (tsEntries rec info l) paths

/-- `Resolver::_resolve_with_tsconfig` (src/tsconfig_path.rs:90-126). -/
def resolveWithTsconfig (c : Ctx) (fuel : Nat) (info : Info) (location : Str) : Prog Stats :=
  (tsValue c fuel location).bind fun
  | .error err => .ret (.error err info)
  | .ok json =>
    match tsInfoOf json with
    | none => .panic .tsShape
    | some ts =>
      match createMatchList location ts with
      | none => .panic .tsParent
      | some entries =>
        -- iteration order of the `HashMap` of paths (src/tsconfig.rs:29)
        .op .seed fun seed =>
          tsEntries (resolveInner c fuel) info (permute (seed : Nat) entries)

/-- `Resolver::normalize_path` (src/normalize.rs:40-48). -/
def normalizePath (c : Ctx) (p : Str) : Except Err Str :=
  if c.opts.symlinks then
    match c.fs.canon p with
    | some q => .ok q
    | none => .error .normalizeFailed
  else .ok (normalizeLex p)

/-- `Resolver::normalize_result` (src/normalize.rs:50-63). -/
def normalizeResult (c : Ctx) (r : Result) : Prog (Except Err Result) :=
  match r with
  | .info info =>
    if c.debug && info.request.target ≠ [] then .panic .dbgTarget
    else
      match normalizePath c info.path with
      | .error e => .ret (.error e)
      | .ok p => .ret (.ok (.info (info.withPath p)))
  | .ignored => .ret (.ok .ignored)

/-- The stage of `Resolver::resolve` before the result is normalised (src/lib.rs:188-195). -/
def resolveStats (c : Ctx) (fuel : Nat) (path request : Str) : Prog Stats :=
  let info : Info := ⟨path, parseRequest request⟩
  match c.opts.tsconfig with
  | some location => resolveWithTsconfig c fuel info location
  | none => resolveInner c fuel info

/-- `Resolver::resolve` (src/lib.rs:187-211) with a loader of description files. -/
def resolveCtx (c : Ctx) (fuel : Nat) (path request : Str) : Prog (Except Err Result) :=
  (resolveStats c fuel path request).bind fun
  | .success r => normalizeResult c r
  | .error err _ => .ret (.error err)
  | .resolving _ => .panic .apiUnreachable

/-- `Resolver::resolve` (src/lib.rs:187-211). -/
def resolve (e : Env) (fuel : Nat) (path request : Str) : Prog (Except Err Result) :=
  resolveCtx e.ctx fuel path request

end Verif
