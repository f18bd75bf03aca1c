import Verif.Model.Tsconfig
/-!
# Calls on files that change while they run

In `Verif.Model.Load`, `Resolve` and `Tsconfig` a call sees one file system from beginning to end.
Here every look at a file is an operation of its own (`ask`), answered by the file system of that
moment. `Verif.Proofs.Live` shows that on files that stand still these trees are the ones of the other
modules (`Live.resolve_freeze`), so this is the same reading of the code, with finer grain.

Functions of the code that look at no file are not repeated.
-/

namespace Verif

/-- One step outside shared state: a look at the file system (`std::fs`, `std::path::Path`), or the end of
a `DashMap` guard. -/
inductive Query where
  /-- `Path::is_file` -/
  | isFile (p : Str)
  /-- `Path::is_dir` -/
  | isDir (p : Str)
  /-- `Path::exists` -/
  | pathExists (p : Str)
  /-- `fs::read_to_string` -/
  | read (p : Str)
  /-- `fs::metadata(..)` and `modified()` -/
  | mtime (p : Str)
  /-- `Path::canonicalize` -/
  | canon (p : Str)
  /-- the drop of the guard that `DashMap::get` returned (src/description.rs:192); no look at a file.
  `Verif.Model.Locks` gives it a meaning -/
  | release
  deriving DecidableEq

/-- The type of the answer. -/
def Query.Ret : Query → Type
  | .isFile _ => Bool
  | .isDir _ => Bool
  | .pathExists _ => Bool
  | .read _ => Option Doc
  | .mtime _ => Option Nat
  | .canon _ => Option Str
  | .release => Unit

/-- What a file system answers. -/
def Query.answer (fs : Fs) : (q : Query) → q.Ret
  | .isFile p => fs.isFile p
  | .isDir p => fs.isDir p
  | .pathExists p => fs.pathExists p
  | .read p => fs.read p
  | .mtime p => fs.mtime p
  | .canon p => fs.canon p
  | .release => ()

/-- A call: finished, crashed, about to look at a file, or about to perform an operation on shared
state. -/
inductive Live (α : Type) where
  | ret (a : α)
  | crash (c : Crash)
  | ask (q : Query) (k : q.Ret → Live α)
  | op (o : Op) (k : o.Ret → Live α)

namespace Live

/-- Sequencing. -/
def bind {α β : Type} : Live α → (α → Live β) → Live β
  | .ret a, f => f a
  | .crash c, _ => .crash c
  | .ask q k, f => .ask q fun r => (k r).bind f
  | .op o k, f => .op o fun r => (k r).bind f

/-- A panic at the given site. -/
def panic {α : Type} (s : Site) : Live α := .crash (.panic s)

/-- A tree that looks at no file. -/
def lift {α : Type} : Prog α → Live α
  | .ret a => .ret a
  | .crash c => .crash c
  | .op o k => .op o fun r => lift (k r)

/-- `Path::is_file`. -/
def isFile (p : Str) : Live Bool := .ask (.isFile p) fun b => .ret b

/-- `Path::is_dir`. -/
def isDir (p : Str) : Live Bool := .ask (.isDir p) fun b => .ret b

/-- `Path::exists`. -/
def pathExists (p : Str) : Live Bool := .ask (.pathExists p) fun b => .ret b

/-- `fs::canonicalize`. -/
def canon (p : Str) : Live (Option Str) := .ask (.canon p) fun r => .ret r

/-- What a resolver works with, apart from shared state and files: its options, whether debug
assertions are on, the duration of its file cache in nanoseconds (src/lib.rs:177), and
`serde_json::to_string` (src/description.rs:71, 86). `spin` bounds how often the loader may repeat
itself because files come and go while it runs (the code has no bound). -/
structure Host where
  opts : Opts
  debug : Bool
  duration : Nat
  ser : Json → Str
  spin : Nat

/-- With a file system that stands still. -/
def Host.env (h : Host) (fs : Fs) : Env := ⟨h.opts, fs, h.debug, h.duration, h.ser⟩

/-- A file system without files, for functions that look at none. -/
def noFs : Fs :=
  ⟨fun _ => false, fun _ => false, fun _ => false, fun _ => none, fun _ => none, fun _ => none⟩

/-! ## Description files (src/description.rs, src/fs.rs, src/utils.rs) -/

/-- `Resolver::find_up` (src/utils.rs:20-29). Fuel: each parent is shorter. -/
def findUp (file : Str) : Nat → Str → Live (Option Str)
  | 0, _ => .ret none
  | n + 1, dir =>
    (isFile (pjoin dir file)).bind fun found =>
      if found then .ret (some dir)
      else match pparent dir with
        | some parent => findUp file n parent
        | none => .ret none

/-- `CacheFile::need_update` (src/fs.rs:36-53). -/
def needUpdate (h : Host) (path : Str) : Live (Except Err Bool) :=
  (isFile path).bind fun file =>
    if !file then .ret (.ok false)
    else .op (.getFile path) fun r =>
      match (r : Option Nat) with
      | none => .ret (.ok true)
      | some stored =>
        .ask (.mtime path) fun m =>
          match (m : Option Nat) with
          | none => .ret (.error (.openFailed path))
          | some now =>
            if now < stored then .ret (.error (.compareFailed path))
            else .ret (.ok (decide (now - stored ≥ h.duration)))

/-- `CacheFile::read_to_string` (src/fs.rs:56-67): contents first, then the time. -/
def readToString (path : Str) : Live (Except Err Doc) :=
  .ask (.read path) fun r =>
    match (r : Option Doc) with
    | none => .ret (.error (.openFailed path))
    | some doc =>
      .ask (.mtime path) fun m =>
        match (m : Option Nat) with
        | none => .ret (.error (.openFailed path))
        | some m => .op (.putFile path m) fun _ => .ret (.ok doc)

/-- `parse_description_file` from line 49 on (src/description.rs:49-147), where no file is looked at:
the rest of `Verif.parseDescription`. -/
def parseContents (h : Host) (dir path : Str) (doc : Doc) : Prog (Except Err Pkg) :=
  let e := h.env noFs
  match doc.json with
  | none => .ret (.error (.parseFailed path))
  | some json =>
    .op .seed fun seed =>
    match browserFields json with
    | none => .panic .browserTrue
    | some aliasFields =>
      (exportsTreeOf e json).bind fun
      | .error err => .ret (.error err)
      | .ok exportsTree =>
        (importsTreeOf e json).bind fun
        | .error err => .ret (.error err)
        | .ok importsTree =>
          match parseSideEffects path json with
          | .error err => .ret (.error err)
          | .ok sideEffects =>
            .ret (.ok {
              absDir := dir
              name := (json.get cs!"name").bind Json.asStr
              version := (json.get cs!"version").bind Json.asStr
              aliasFields := permute (seed : Nat) aliasFields
              exportsTree := exportsTree
              importsTree := importsTree
              sideEffects := sideEffects
              raw := json })

/-- The debug-only check (src/description.rs:30-42), then the rest. -/
def dbgGuard {α : Type} (h : Host) (path : Str) (k : Live α) : Live α :=
  if h.debug then
    .op (.dbgHas path) fun r =>
      match (r : Bool) with
      | true => .panic .dbgReparse
      | false => .op (.dbgIns path) fun _ => k
  else k

/-- `Resolver::parse_description_file` (src/description.rs:29-148). -/
def parseDescription (h : Host) (dir path : Str) : Live (Except Err Pkg) :=
  dbgGuard h path <|
  (readToString path).bind fun
  | .error _ => .ret (.error (.openFailed path))
  | .ok doc => lift (parseContents h dir path doc)

/-- The negative-cache loop (src/description.rs:206-217). While `path` is no directory the Rust `loop`
spins; if that does not change within the fuel, the model says `hang`. -/
def cacheNone : Nat → Str → Live (Except Err (Option Pkg))
  | 0, _ => .crash .hang
  | n + 1, path =>
    (isDir path).bind fun dir =>
      if dir then
        .op (.putPkg path none) fun _ =>
          match pparent path with
          | some parent => cacheNone n parent
          | none => .ret (.ok none)
      else cacheNone n path

/-- Parse and store (src/description.rs:221-229). -/
def parseAndStore (h : Host) (path descPath : Str) : Live (Except Err (Option Pkg)) :=
  (parseDescription h path descPath).bind fun
  | .error err => .ret (.error err)
  | .ok pkg => .op (.putPkg path (some pkg)) fun _ => .ret (.ok (some pkg))

/-- `Resolver::load_pkg_file` (src/description.rs:165-230). Here the path need not get shorter on
every recursive call: a description file may appear between lines 194 and 201. The guard that the `get`
of line 180 returns lives until the end of the block, line 192, or until a `return` or `?` in it
(lines 182, 184). -/
def loadPkgAux (h : Host) : Nat → Str → Live (Except Err (Option Pkg))
  | 0, _ => .crash .fuel
  | n + 1, path =>
    match h.opts.descriptionFile with
    | none => .ret (.ok none)
    | some desc =>
      (isDir path).bind fun dir =>
        if !dir then
          match pparent path with
          | some dir => loadPkgAux h n dir
          | none => .ret (.error .tag)
        else
          let descPath := pjoin path desc
          .op (.getPkg path) fun r =>
            match (r : Option (Option Pkg)) with
            | some cached =>
              (needUpdate h descPath).bind fun
              | .error err => .ask .release fun _ => .ret (.error err)
              | .ok false => .ask .release fun _ => .ret (.ok cached)
              | .ok true =>
                if h.debug then
                  .op (.dbgDel descPath) fun _ => .ask .release fun _ => parseAndStore h path descPath
                else .ask .release fun _ => parseAndStore h path descPath
            | none =>
              (isFile descPath).bind fun file =>
                if !file then
                  (findUp desc (path.length + 1) path).bind fun
                  | some dir => loadPkgAux h n dir
                  | none => cacheNone (path.length + 1 + h.spin) path
                else parseAndStore h path descPath

/-- `Resolver::load_pkg_file` (src/description.rs:165-230). -/
def loadPkg (h : Host) (path : Str) : Live (Except Err (Option Pkg)) :=
  loadPkgAux h (path.length + 1 + h.spin) path

/-- `Resolver::load_side_effects` (src/description.rs:150-162). -/
def loadSideEffects (h : Host) (path : Str) :
    Live (Except Err (Option (Str × Option SideEffects))) :=
  (loadPkg h path).bind fun
  | .error err => .ret (.error err)
  | .ok none => .ret (.ok none)
  | .ok (some pkg) =>
    match h.opts.descriptionFile with
    | none => .panic .descUnwrap
    | some desc => .ret (.ok (some (pjoin pkg.absDir desc, pkg.sideEffects)))

/-! ## Plugins and resolution (src/plugin/*.rs, src/resolve.rs, src/lib.rs) -/

/-- `ResolverStats::and_then` (src/lib.rs:137-142). -/
def andThen (s : Stats) (f : Info → Live Stats) : Live Stats :=
  match s with
  | .resolving i => f i
  | s => .ret s

/-- `ExtensionsPlugin::apply` (src/plugin/extensions.rs:19-29), the loop. -/
def extensionsLoop (path : Str) (info : Info) : List Str → Live Stats
  | [] => .ret (.resolving info)
  | ext :: l =>
    (isFile (appendExt path ext)).bind fun file =>
      if file then .ret (.success (.info ((info.withPath (appendExt path ext)).withTarget [])))
      else extensionsLoop path info l

/-- `Resolver::resolve_as_file` (src/resolve.rs:18-25). -/
def resolveAsFile (h : Host) (info : Info) : Live Stats :=
  let path := info.getPath
  if h.opts.enforceExtension.getD false then extensionsLoop path info h.opts.extensions
  else
    (isFile path).bind fun file =>
      if file then .ret (.success (.info ((info.withPath path).withTarget [])))
      else extensionsLoop path info h.opts.extensions

/-- The request `./…` looked up in exports (src/plugin/exports_field.rs:47-78). -/
def exportsRequestOf (pkg : Pkg) (info : Info) : Live (Option Str) :=
  let target := info.request.target
  let chars : Option Str :=
    if startsWith target cs!"@" then (splitFirst '/' target).map fun (_, b) => b.drop 1
    else some target
  let withRest (t : Str) : Str :=
    if info.request.query ≠ [] ∨ info.request.fragment ≠ [] then
      (if t = cs!"." then cs!"./" else t) ++ info.request.query ++ info.request.fragment
    else t
  match chars with
  | none => .panic .scopedNoSlash
  | some chars =>
    match splitFirst '/' chars with
    | some (_, b) => .ret (some (withRest ('.' :: b)))
    | none =>
      (pathExists (pjoin info.path target)).bind fun there =>
        if there || pkg.name = some target then .ret (some (withRest cs!"."))
        else .ret none

/-- The loop over the mapped targets (src/plugin/exports_field.rs:92-99). -/
def exportsPick (absDir : Str) : List Str → Live (Option Info)
  | [] => .ret none
  | item :: l =>
    let info : Info := ⟨absDir, parseRequest item⟩
    (isFile info.getPath).bind fun file =>
      if file && checkTarget info.request.target then .ret (some info)
      else exportsPick absDir l

/-- `ExportsFieldPlugin::apply` (src/plugin/exports_field.rs:34-105). -/
def exportsPlugin (h : Host) (pkg : Option Pkg) (info : Info) : Live Stats :=
  match pkg with
  | none => .ret (.resolving info)
  | some pkg =>
    if info.request.kind ≠ .normal then .ret (.resolving info)
    else if !isInModule pkg && !isResolveSelf pkg info then .ret (.resolving info)
    else
      match pkg.exportsTree with
      | none => .ret (.resolving info)
      | some root =>
        (exportsRequestOf pkg info).bind fun
        | none => .ret (.error .tag info)
        | some remaining =>
          match fieldProcess .exports root remaining h.opts.conditionNames with
          | none => .crash .fuel
          | some (.error err) => .ret (.error err info)
          | some (.ok list) =>
            (exportsPick pkg.absDir list).bind fun
            | some i => .ret (.resolving i)
            | none => .ret (.error (.notExported info.request.target) info)

/-- `AliasFieldPlugin::apply` (src/plugin/alias_field.rs:56-87): it looks at no file. -/
def aliasFieldPlugin (h : Host) (fuel : Nat) (pkg : Option Pkg) (info : Info) : Live Stats :=
  lift (Verif.aliasFieldPlugin ⟨h.opts, noFs, h.debug, fun _ => .ret (.ok none)⟩ fuel pkg info)

/-- `ImportsFieldPlugin::check_target` (src/plugin/imports_field.rs:20-26). -/
def importsCheck (info : Info) (target : Str) : Live Stats :=
  (isFile info.getPath).bind fun file =>
    if file && checkTarget info.request.target then .ret (.resolving info)
    else .ret (.error (.notExported target) info)

/-- `ImportsFieldPlugin::apply` (src/plugin/imports_field.rs:30-88). -/
def importsPlugin (h : Host) : Nat → Option Pkg → Info → Live Stats
  | 0, _, _ => .crash .fuel
  | n + 1, pkg?, info =>
    match pkg? with
    | none => .ret (.resolving info)
    | some pkg =>
      if !startsWith info.request.target cs!"#" then .ret (.resolving info)
      else
        let target := info.request.target
        match pkg.importsTree with
        | none => .ret (.resolving info)
        | some root =>
          match fieldProcess .imports root target h.opts.conditionNames with
          | none => .crash .fuel
          | some (.error err) => .ret (.error err info)
          | some (.ok []) => .ret (.error (.notExported target) info)
          | some (.ok (item :: _)) =>
            let request := parseRequest item
            if request.kind = .normal then
              let info' : Info := ⟨pjoin pkg.absDir MODULE, request⟩
              (loadPkg h info'.getPath).bind fun
              | .error err => .ret (.error err info')
              | .ok pkg' =>
                if outsideModule pkg' then .ret (.resolving info')
                else
                  (exportsPlugin h pkg' info').bind fun s =>
                  (andThen s fun i => importsPlugin h n pkg' i).bind fun s =>
                  (andThen s fun i => aliasFieldPlugin h n pkg' i).bind fun s =>
                  andThen s fun i => importsCheck i target
            else
              let info' : Info := ⟨pkg.absDir, request⟩
              if request.kind = .internal then importsPlugin h n pkg? info'
              else importsCheck info' target

/-- The loop of `MainFilePlugin::apply` (src/plugin/main_file.rs:22-34). -/
def mainFileLoop (h : Host) (fuel : Nat) (pkg : Option Pkg) (info : Info) :
    List Str → Info → Live Stats
  | [], _ => .ret (.resolving info)
  | mainFile :: l, cur =>
    let cur := cur.withTarget (cs!"./" ++ mainFile)
    ((exportsPlugin h pkg cur).bind fun s =>
      (andThen s fun i => importsPlugin h fuel pkg i).bind fun s =>
      (andThen s fun i => aliasFieldPlugin h fuel pkg i).bind fun s =>
      andThen s fun i => resolveAsFile h i).bind fun
    | .success r => .ret (.success r)
    | .resolving i => mainFileLoop h fuel pkg info l i
    | .error _ i => mainFileLoop h fuel pkg info l i

/-- The loop of `MainFieldPlugin::apply` (src/plugin/main_field.rs:26-54); `asDir` is
`resolve_as_dir`. -/
def mainFieldLoop (h : Host) (fuel : Nat) (asDir : Info → Live Stats) (pkg : Pkg) (info : Info) :
    List Str → Info → Live Stats
  | [], _ => .ret (.resolving info)
  | field :: l, cur =>
    match (pkg.raw.get field).bind Json.asStr with
    | none => mainFieldLoop h fuel asDir pkg info l cur
    | some mainField =>
      if mainField = cs!"." || mainField = cs!"./" then .ret (.resolving info)
      else
        let cur :=
          if startsWith mainField cs!"./" then cur.withTarget mainField
          else cur.withTarget (cs!"./" ++ mainField)
        ((aliasFieldPlugin h fuel (some pkg) cur).bind fun s =>
          (andThen s fun i => resolveAsFile h i).bind fun s =>
          andThen s asDir).bind fun
        | .success r => .ret (.success r)
        | .resolving i => mainFieldLoop h fuel asDir pkg info l i
        | .error _ i => mainFieldLoop h fuel asDir pkg info l i

/-- `MainFieldPlugin::apply` (src/plugin/main_field.rs:18-57). -/
def mainFieldPlugin (h : Host) (fuel : Nat) (asDir : Info → Live Stats) (pkg : Option Pkg)
    (info : Info) : Live Stats :=
  match pkg with
  | none => .ret (.resolving info)
  | some pkg =>
    if !pathEq info.path pkg.absDir then .ret (.resolving info)
    else mainFieldLoop h fuel asDir pkg info h.opts.mainFields info

/-- `Resolver::resolve_as_dir` (src/resolve.rs:28-42). -/
def resolveAsDir (h : Host) : Nat → Info → Live Stats
  | 0, _ => .crash .fuel
  | n + 1, info =>
    let dir := info.getPath
    (isDir dir).bind fun isdir =>
      if !isdir then .ret (.error .tag info)
      else
        (loadPkg h dir).bind fun
        | .error err => .ret (.error err info)
        | .ok pkg =>
          let info := (info.withPath dir).withTarget []
          (mainFieldPlugin h n (resolveAsDir h n) pkg info).bind fun s =>
          andThen s fun i => mainFileLoop h n pkg i h.opts.mainFiles i

/-- The chain for an existing package directory (src/resolve.rs:83-97). -/
def modulePackageChain (h : Host) (fuel : Nat) (pkg : Option Pkg) (moduleInfo : Info) : Live Stats :=
  (exportsPlugin h pkg moduleInfo).bind fun s =>
  (andThen s fun i => importsPlugin h fuel pkg i).bind fun s =>
  (andThen s fun i =>
    let i := if i.request.kind = .normal then i.withTarget (cs!"./" ++ i.request.target) else i
    aliasFieldPlugin h fuel pkg i).bind fun s =>
  (andThen s fun i => resolveAsFile h i).bind fun s =>
  andThen s fun i => resolveAsDir h fuel i

/-- The lookup in one `node_modules` directory (src/resolve.rs:48-112). The `Bool` is whether the
function returns at once (line 70). -/
def moduleStep (h : Host) (fuel : Nat) (info : Info) : Live (Stats × Bool) :=
  let root := pjoin info.path MODULE
  (isDir root).bind fun isdir =>
    if !isdir then .ret (.resolving info, false)
    else
      let target := info.request.target
      match moduleName target with
      | none => .panic .moduleSlice
      | some name =>
        let modulePath := pjoin root name
        let moduleInfo : Info := ⟨root, info.request⟩
        (loadPkg h (pjoin root target)).bind fun
        | .error err => .ret (.error err info, true)
        | .ok pkg =>
          (isDir modulePath).bind fun moduleDir =>
            if !moduleDir && !selfOf pkg moduleInfo then
              (resolveAsFile h moduleInfo).bind fun
              | .success r => .ret (.success r, false)
              | _ => .ret (.resolving info, false)
            else
              (modulePackageChain h fuel pkg moduleInfo).bind fun
              | .error err i =>
                if err.isTag then .ret (.resolving info, false) else .ret (.error err i, false)
              | s => .ret (s, false)

/-- `Resolver::resolve_as_modules` (src/resolve.rs:45-126). -/
def resolveAsModules (h : Host) : Nat → Info → Live Stats
  | 0, _ => .crash .fuel
  | n + 1, info =>
    (moduleStep h n info).bind fun
    | (s, true) => .ret s
    | (s, false) =>
      (andThen s fun i =>
        match pparent info.path with
        | some parent => resolveAsModules h n (i.withPath parent)
        | none => .ret (.resolving i)).bind fun
      | .resolving i => .ret (.error .tag i)
      | s => .ret s

/-- The loop of `AliasPlugin::apply` (src/plugin/alias.rs:15-37); `rec` is `_resolve`. -/
def aliasLoop (rec : Info → Live Stats) (info : Info) : List (Str × AliasMap) → Live Stats
  | [] => .ret (.resolving info)
  | (from_, to) :: l =>
    let inner := info.request.target
    if startsWith inner from_ then
      match to with
      | .target to =>
        if inner = to || startsWith inner to then aliasLoop rec info l
        else
          (rec ⟨info.path, info.request.withTarget (replaceFirst inner from_ to)⟩).bind fun
          | .success r => .ret (.success r)
          | _ => aliasLoop rec info l
      | .ignored => .ret (.success .ignored)
    else aliasLoop rec info l

/-- `AliasPlugin::apply` (src/plugin/alias.rs:10-40). -/
def aliasPlugin (h : Host) (rec : Info → Live Stats) (info : Info) : Live Stats :=
  if containsStr info.path MODULE then .ret (.resolving info)
  else aliasLoop rec info h.opts.alias

/-- `PreferRelativePlugin::apply` (src/plugin/prefer_relative.rs:8-25). -/
def preferRelativePlugin (h : Host) (rec : Info → Live Stats) (info : Info) : Live Stats :=
  if startsWith info.request.target cs!"../" || startsWith info.request.target cs!"./" then
    .ret (.resolving info)
  else if h.opts.preferRelative then
    (rec ⟨info.path, info.request.withTarget (cs!"./" ++ info.request.target)⟩).bind fun
    | .success r => .ret (.success r)
    | _ => .ret (.resolving info)
  else .ret (.resolving info)

/-- The description-file stage of `_resolve` (src/lib.rs:219-232). -/
def pkgStage (h : Host) (fuel : Nat) (info : Info) : Live Stats :=
  let request :=
    if info.request.kind = .normal then pjoin (pjoin info.path MODULE) info.request.target
    else info.getPath
  (loadPkg h request).bind fun
  | .error err => .ret (.error err info)
  | .ok pkg =>
    (importsPlugin h fuel pkg info).bind fun s =>
    andThen s fun i => aliasFieldPlugin h fuel pkg i

/-- The last stage of `_resolve` (src/lib.rs:233-243). -/
def lastStage (h : Host) (fuel : Nat) (info : Info) : Live Stats :=
  match info.request.kind with
  | .absolutePosix | .absoluteWin | .relative =>
    (resolveAsFile h info).bind fun s => andThen s fun i => resolveAsDir h fuel i
  | _ => resolveAsModules h fuel info

/-- `Resolver::_resolve` (src/lib.rs:214-257). -/
def resolveInner (h : Host) : Nat → Info → Live Stats
  | 0, _ => .crash .fuel
  | n + 1, info =>
    ((aliasPlugin h (resolveInner h n) info).bind fun s =>
      (andThen s fun i => preferRelativePlugin h (resolveInner h n) i).bind fun s =>
      (andThen s fun i => pkgStage h n i).bind fun s =>
      andThen s fun i => lastStage h n i).bind fun
    | .success r => .ret (.success r)
    | .error err i => .ret (.error (if err.isTag then failedMessage info else err) i)
    | .resolving _ => .panic .resolveUnreachable

/-! ## tsconfig (src/tsconfig.rs, src/tsconfig_path.rs) and the entry point -/

/-- `parse_file_to_value` (src/tsconfig.rs:53-77). -/
def tsValue (h : Host) : Nat → Str → Live (Except Err Json)
  | 0, _ => .crash .fuel
  | n + 1, location =>
    .ask (.read location) fun r =>
      match (r : Option Doc) with
      | none => .ret (.error (.openFailed location))
      | some doc =>
        match doc.jsonc with
        | .error msg => .ret (.error (.tsParseFailed location msg))
        | .ok none => .panic .tsEmpty
        | .ok (some json) =>
          match json.get cs!"extends" with
          | some (.str s) =>
            match pparent location with
            | none => .panic .tsParent
            | some dir =>
              (resolveInner h n ⟨dir, parseRequest s⟩).bind fun
              | .success (.info i) =>
                (tsValue h n i.getPath).bind fun
                | .error err => .ret (.error err)
                | .ok ext => .ret (.ok (jmerge json ext))
              | .success .ignored => .ret (.error (.extendsIgnored s location))
              | _ => .ret (.ok json)
          | _ => .ret (.ok json)

/-- The inner loop over the physical paths of one entry (src/tsconfig_path.rs:112-123). -/
def tsPathsTry (rec : Info → Live Stats) (star : Str) (next : Live Stats) : List Str → Live Stats
  | [] => next
  | p :: l =>
    (rec ⟨replaceChar p '*' star, Request.empty⟩).bind fun
    | .success r => .ret (.success r)
    | _ => tsPathsTry rec star next l

/-- The outer loop over the entries (src/tsconfig_path.rs:102-124), then line 125. -/
def tsEntries (rec : Info → Live Stats) (info : Info) : List (Str × List Str) → Live Stats
  | [] => rec info
  | (pattern, paths) :: l =>
    let star : Option (Option Str) :=
      if pattern = info.request.target then some (some [])
      else matchStar pattern info.request.target
    match star with
    | none => .panic .starSlice
    | some none => tsEntries rec info l
    | some (some s) => tsPathsTry rec s (tsEntries rec info l) paths

/-- `Resolver::_resolve_with_tsconfig` (src/tsconfig_path.rs:90-126). -/
def resolveWithTsconfig (h : Host) (fuel : Nat) (info : Info) (location : Str) : Live Stats :=
  (tsValue h fuel location).bind fun
  | .error err => .ret (.error err info)
  | .ok json =>
    match tsInfoOf json with
    | none => .panic .tsShape
    | some ts =>
      match createMatchList location ts with
      | none => .panic .tsParent
      | some entries =>
        .op .seed fun seed =>
          tsEntries (resolveInner h fuel) info (permute (seed : Nat) entries)

/-- `Resolver::normalize_path` (src/normalize.rs:40-48). -/
def normalizePath (h : Host) (p : Str) : Live (Except Err Str) :=
  if h.opts.symlinks then
    (canon p).bind fun
      | some q => .ret (.ok q)
      | none => .ret (.error .normalizeFailed)
  else .ret (.ok (normalizeLex p))

/-- `Resolver::normalize_result` (src/normalize.rs:50-63). -/
def normalizeResult (h : Host) (r : Result) : Live (Except Err Result) :=
  match r with
  | .info info =>
    if h.debug && info.request.target ≠ [] then .panic .dbgTarget
    else
      (normalizePath h info.path).bind fun
      | .error e => .ret (.error e)
      | .ok p => .ret (.ok (.info (info.withPath p)))
  | .ignored => .ret (.ok .ignored)

/-- The stage of `Resolver::resolve` before the result is normalised (src/lib.rs:188-195). -/
def resolveStats (h : Host) (fuel : Nat) (path request : Str) : Live Stats :=
  let info : Info := ⟨path, parseRequest request⟩
  match h.opts.tsconfig with
  | some location => resolveWithTsconfig h fuel info location
  | none => resolveInner h fuel info

/-- `Resolver::resolve` (src/lib.rs:187-211). -/
def resolve (h : Host) (fuel : Nat) (path request : Str) : Live (Except Err Result) :=
  (resolveStats h fuel path request).bind fun
  | .success r => normalizeResult h r
  | .error err _ => .ret (.error err)
  | .resolving _ => .panic .apiUnreachable

end Live
end Verif
