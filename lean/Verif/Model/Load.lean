import Verif.Model.Prog
/-!
# Description files and their caches (src/description.rs, src/fs.rs, src/utils.rs)
-/

namespace Verif

/-- What a resolver works with, apart from shared state: its options, the file system, whether
debug assertions are on, the duration of its file cache in nanoseconds (src/lib.rs:177:
1000 ms), and `serde_json::to_string` (src/description.rs:71, 86). -/
structure Env where
  opts : Opts
  fs : Fs
  debug : Bool
  duration : Nat
  ser : Json → Str

/-- `Resolver::find_up` (src/utils.rs:20-29). Fuel: each parent is shorter; callers pass the
length plus one (`Verif.findUp_fuel`). -/
def findUp (fs : Fs) (file : Str) : Nat → Str → Option Str
  | 0, _ => none
  | n + 1, dir =>
    if fs.isFile (pjoin dir file) then some dir
    else match pparent dir with
      | some parent => findUp fs file n parent
      | none => none

/-- `CacheFile::need_update` (src/fs.rs:36-53). -/
def needUpdate (e : Env) (path : Str) : Prog (Except Err Bool) :=
  if !e.fs.isFile path then .ret (.ok false)
  else .op (.getFile path) fun r =>
    match (r : Option Nat) with
    | none => .ret (.ok true)
    | some stored =>
      match e.fs.mtime path with
      | none => .ret (.error (.openFailed path))
      | some now =>
        if now < stored then .ret (.error (.compareFailed path))
        else .ret (.ok (decide (now - stored ≥ e.duration)))

/-- `CacheFile::read_to_string` (src/fs.rs:56-67). -/
def readToString (e : Env) (path : Str) : Prog (Except Err Doc) :=
  match e.fs.read path with
  | none => .ret (.error (.openFailed path))
  | some doc =>
    match e.fs.mtime path with
    | none => .ret (.error (.openFailed path))
    | some m => .op (.putFile path m) fun _ => .ret (.ok doc)

/-- The loop over the `browser` object (src/description.rs:59-66), with the map built so far.
`none` is the failed `assert!(!b)`. -/
def browserLoop : List (Str × Json) → List (Str × AliasMap) → Option (List (Str × AliasMap))
  | [], acc => some acc
  | (key, v) :: l, acc =>
    match v.asBool with
    | some true => none
    | some false => browserLoop l (ainsert key .ignored acc)
    | none =>
      match v.asStr with
      | some s => browserLoop l (ainsert key (.target s) acc)
      | none => browserLoop l acc

/-- The `alias_fields` of a package, in insertion order (src/description.rs:55-68). -/
def browserFields (json : Json) : Option (List (Str × AliasMap)) :=
  match json.get cs!"browser" with
  | none => some []
  | some v =>
    match v.asObj with
    | none => some []
    | some map => browserLoop map []

/-- The array loop of `sideEffects` (src/description.rs:111-123). -/
def sideEffectsLoop (path : Str) : List Json → Except Err (List Str)
  | [] => .ok []
  | v :: l =>
    match v.asStr with
    | none => .error (.sideEffects path v)
    | some s =>
      match sideEffectsLoop path l with
      | .error e => .error e
      | .ok r => .ok (s :: r)

/-- `sideEffects` (src/description.rs:105-131). -/
def parseSideEffects (path : Str) (json : Json) : Except Err (Option SideEffects) :=
  match json.get cs!"sideEffects" with
  | none => .ok none
  | some v =>
    match v.asBool with
    | some b => .ok (some (.bool b))
    | none =>
      match v.asArr with
      | none => .error (.sideEffects path v)
      | some l =>
        match sideEffectsLoop path l with
        | .error e => .error e
        | .ok r => .ok (some (.array r))

/-- The exports tree of a description file (src/description.rs:70-83). -/
def exportsTreeOf (e : Env) (json : Json) : Prog (Except Err (Option Node)) :=
  match json.get cs!"exports" with
  | none => .ret (.ok none)
  | some value =>
    .op (.getExports (e.ser value)) fun r =>
      match (r : Option Node) with
      | some tree => .ret (.ok (some tree))
      | none =>
        match buildTree .exports value with
        | none => .panic .buildTree
        | some (.error err) => .ret (.error err)
        | some (.ok tree) =>
          .op (.putExports (e.ser value) tree) fun _ => .ret (.ok (some tree))

/-- The imports tree of a description file (src/description.rs:85-98). Line 93 inserts into
`exports_content_to_tree`. -/
def importsTreeOf (e : Env) (json : Json) : Prog (Except Err (Option Node)) :=
  match json.get cs!"imports" with
  | none => .ret (.ok none)
  | some value =>
    .op (.getImports (e.ser value)) fun r =>
      match (r : Option Node) with
      | some tree => .ret (.ok (some tree))
      | none =>
        match buildTree .imports value with
        | none => .panic .buildTree
        | some (.error err) => .ret (.error err)
        | some (.ok tree) =>
          .op (.putExports (e.ser value) tree) fun _ => .ret (.ok (some tree))

/-- The debug-only check (src/description.rs:30-42), then the rest. -/
def dbgGuard {α : Type} (e : Env) (path : Str) (k : Prog α) : Prog α :=
  if e.debug then
    .op (.dbgHas path) fun r =>
      match (r : Bool) with
      | true => .panic .dbgReparse
      | false => .op (.dbgIns path) fun _ => k
  else k

/-- `Resolver::parse_description_file` (src/description.rs:29-148). -/
def parseDescription (e : Env) (dir path : Str) : Prog (Except Err Pkg) :=
  dbgGuard e path <|
  (readToString e path).bind fun
  | .error _ => .ret (.error (.openFailed path))
  | .ok doc =>
    match doc.json with
    | none => .ret (.error (.parseFailed path))
    | some json =>
      -- a new `HashMap` gets random keys (line 55)
      .op .seed fun seed =>
      match browserFields json with
      | none => .panic .browserTrue
      | some aliasFields =>
        (exportsTreeOf e json).bind fun
        | .error err => .ret (.error err)
        | .ok exportsTree =>
          (importsTreeOf e json).bind fun
          | .error err => .ret (.error err)
          | .ok importsTree =>
            match parseSideEffects path json with
            | .error err => .ret (.error err)
            | .ok sideEffects =>
              .ret (.ok {
                absDir := dir
                name := (json.get cs!"name").bind Json.asStr
                version := (json.get cs!"version").bind Json.asStr
                aliasFields := permute (seed : Nat) aliasFields
                exportsTree := exportsTree
                importsTree := importsTree
                sideEffects := sideEffects
                raw := json })

/-- The negative-cache loop (src/description.rs:206-217). If `path` is not a directory the
Rust `loop` spins forever: `hang`. Fuel: each parent is shorter. -/
def cacheNone (fs : Fs) : Nat → Str → Prog (Except Err (Option Pkg))
  | 0, _ => .crash .fuel
  | n + 1, path =>
    if fs.isDir path then
      .op (.putPkg path none) fun _ =>
        match pparent path with
        | some parent => cacheNone fs n parent
        | none => .ret (.ok none)
    else .crash .hang

/-- Parse and store (src/description.rs:221-229). -/
def parseAndStore (e : Env) (path descPath : Str) : Prog (Except Err (Option Pkg)) :=
  (parseDescription e path descPath).bind fun
  | .error err => .ret (.error err)
  | .ok pkg => .op (.putPkg path (some pkg)) fun _ => .ret (.ok (some pkg))

/-- `Resolver::load_pkg_file` (src/description.rs:165-230). The `DashMap` guard of line 180 is
held until line 184, so the value returned is the one found. Fuel: the path gets shorter on
every recursive call. -/
def loadPkgAux (e : Env) : Nat → Str → Prog (Except Err (Option Pkg))
  | 0, _ => .crash .fuel
  | n + 1, path =>
    match e.opts.descriptionFile with
    | none => .ret (.ok none)
    | some desc =>
      if !e.fs.isDir path then
        match pparent path with
        | some dir => loadPkgAux e n dir
        | none => .ret (.error .tag)
      else
        let descPath := pjoin path desc
        .op (.getPkg path) fun r =>
          match (r : Option (Option Pkg)) with
          | some cached =>
            (needUpdate e descPath).bind fun
            | .error err => .ret (.error err)
            | .ok false => .ret (.ok cached)
            | .ok true =>
              if e.debug then .op (.dbgDel descPath) fun _ => parseAndStore e path descPath
              else parseAndStore e path descPath
          | none =>
            if !e.fs.isFile descPath then
              match findUp e.fs desc (path.length + 1) path with
              | some dir => loadPkgAux e n dir
              | none => cacheNone e.fs (path.length + 1) path
            else parseAndStore e path descPath

/-- `Resolver::load_pkg_file` (src/description.rs:165-230) with fuel that suffices
(`Verif.loadPkg_fuel`). -/
def loadPkg (e : Env) (path : Str) : Prog (Except Err (Option Pkg)) :=
  loadPkgAux e (path.length + 1) path

/-- `Resolver::load_side_effects` (src/description.rs:150-162). -/
def loadSideEffects (e : Env) (path : Str) :
    Prog (Except Err (Option (Str × Option SideEffects))) :=
  (loadPkg e path).bind fun
  | .error err => .ret (.error err)
  | .ok none => .ret (.ok none)
  | .ok (some pkg) =>
    match e.opts.descriptionFile with
    | none => .panic .descUnwrap
    | some desc => .ret (.ok (some (pjoin pkg.absDir desc, pkg.sideEffects)))

end Verif
