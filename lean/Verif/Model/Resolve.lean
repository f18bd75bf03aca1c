import Verif.Model.Load
/-!
# Plugins and resolution (src/plugin/*.rs, src/resolve.rs, src/lib.rs)

The functions take the loader of description files as a parameter (`Ctx.load`), so that the
same code can be run with `loadPkg` (the real one) or with a cache-less specification.
-/

namespace Verif

/-- A resolver environment together with `self.load_pkg_file`. -/
structure Ctx where
  opts : Opts
  fs : Fs
  debug : Bool
  load : Str → Prog (Except Err (Option Pkg))

/-- The context of the real resolver. -/
def Env.ctx (e : Env) : Ctx := ⟨e.opts, e.fs, e.debug, loadPkg e⟩

/-- `ResolverStats::and_then` (src/lib.rs:137-142). -/
def Stats.andThen (s : Stats) (f : Info → Prog Stats) : Prog Stats :=
  match s with
  | .resolving i => f i
  | s => .ret s

/-- `ResolverStats::is_success` (src/lib.rs:144-146). -/
def Stats.isSuccess : Stats → Bool
  | .success _ => true
  | _ => false

/-- `Resolver::append_ext_for_path` (src/resolve.rs:13-15). -/
def appendExt (path ext : Str) : Str := path ++ ext

/-- `ExtensionsPlugin::apply` (src/plugin/extensions.rs:19-29). -/
def extensionsPlugin (c : Ctx) (path : Str) (info : Info) : Stats :=
  match c.opts.extensions.find? fun ext => c.fs.isFile (appendExt path ext) with
  | some ext => .success (.info ((info.withPath (appendExt path ext)).withTarget []))
  | none => .resolving info

/-- `Resolver::resolve_as_file` (src/resolve.rs:18-25). -/
def resolveAsFile (c : Ctx) (info : Info) : Stats :=
  let path := info.getPath
  if !(c.opts.enforceExtension.getD false) && c.fs.isFile path then
    .success (.info ((info.withPath path).withTarget []))
  else extensionsPlugin c path info

/-- `ExportsFieldPlugin::is_in_module` (src/plugin/exports_field.rs:20-22). -/
def isInModule (pkg : Pkg) : Bool := containsStr pkg.absDir MODULE

/-- `ExportsFieldPlugin::is_resolve_self` (src/plugin/exports_field.rs:24-30). -/
def isResolveSelf (pkg : Pkg) (info : Info) : Bool :=
  match pkg.name with
  | some name => startsWith info.request.target name
  | none => false

/-- The request `./…` looked up in exports (src/plugin/exports_field.rs:47-78).
`crash` is the `unwrap` of line 50; `none` is the error of line 65. -/
def exportsRequestOf (c : Ctx) (pkg : Pkg) (info : Info) : Prog (Option Str) :=
  let target := info.request.target
  let chars : Option Str :=
    if startsWith target cs!"@" then (splitFirst '/' target).map fun (_, b) => b.drop 1
    else some target
  match chars with
  | none => .panic .scopedNoSlash
  | some chars =>
    let target' : Option Str :=
      match splitFirst '/' chars with
      | some (_, b) => some ('.' :: b)
      | none =>
        if c.fs.pathExists (pjoin info.path target) || pkg.name = some target then some cs!"."
        else none
    match target' with
    | none => .ret none
    | some t =>
      if info.request.query ≠ [] ∨ info.request.fragment ≠ [] then
        .ret (some ((if t = cs!"." then cs!"./" else t) ++ info.request.query ++
          info.request.fragment))
      else .ret (some t)

/-- The loop over the mapped targets (src/plugin/exports_field.rs:92-99). -/
def exportsPick (c : Ctx) (absDir : Str) : List Str → Option Info
  | [] => none
  | item :: l =>
    let info : Info := ⟨absDir, parseRequest item⟩
    if c.fs.isFile info.getPath && checkTarget info.request.target then some info
    else exportsPick c absDir l

/-- `ExportsFieldPlugin::apply` (src/plugin/exports_field.rs:34-105). -/
def exportsPlugin (c : Ctx) (pkg : Option Pkg) (info : Info) : Prog Stats :=
  match pkg with
  | none => .ret (.resolving info)
  | some pkg =>
    if info.request.kind ≠ .normal then .ret (.resolving info)
    else if !isInModule pkg && !isResolveSelf pkg info then .ret (.resolving info)
    else
      match pkg.exportsTree with
      | none => .ret (.resolving info)
      | some root =>
        (exportsRequestOf c pkg info).bind fun
        | none => .ret (.error .tag info)
        | some remaining =>
          match fieldProcess .exports root remaining c.opts.conditionNames with
          | none => .crash .fuel
          | some (.error err) => .ret (.error err info)
          | some (.ok list) =>
            match exportsPick c pkg.absDir list with
            | some i => .ret (.resolving i)
            | none => .ret (.error (.notExported info.request.target) info)

/-- `AliasFieldPlugin::deal_with_alias_fields_recursive` (src/plugin/alias_field.rs:17-32).
`none` = out of fuel (the Rust recursion is unbounded). -/
def aliasChain (fields : List (Str × AliasMap)) : Nat → AliasMap → Option AliasMap
  | 0, _ => none
  | n + 1, .target t =>
    match alookup t fields with
    | some next => aliasChain fields n next
    | none => some (.target t)
  | _ + 1, .ignored => some .ignored

/-- `request_path_is_equal_alias_key_path` (src/plugin/alias_field.rs:41-52). -/
def aliasPathMatches (c : Ctx) (aliasPath : Str) (info : Info) : Bool :=
  pathEq aliasPath info.getPath ||
    c.opts.extensions.any fun ext => pathEq aliasPath (appendExt info.getPath ext)

/-- `should_deal_alias` (src/plugin/alias_field.rs:63-70). -/
def aliasMatches (c : Ctx) (pkg : Pkg) (info : Info) (key : Str) : Bool :=
  if info.request.kind = .normal then info.request.target = key
  else aliasPathMatches c (pjoin pkg.absDir key) info

/-- `AliasFieldPlugin::apply` (src/plugin/alias_field.rs:56-87). -/
def aliasFieldPlugin (c : Ctx) (fuel : Nat) (pkg : Option Pkg) (info : Info) : Prog Stats :=
  if !c.opts.browserField then .ret (.resolving info)
  else
    match pkg with
    | none => .ret (.resolving info)
    | some pkg =>
      match pkg.aliasFields.find? fun kv => aliasMatches c pkg info kv.1 with
      | none => .ret (.resolving info)
      | some (_, to) =>
        match aliasChain pkg.aliasFields fuel to with
        | none => .crash .fuel
        | some (.target converted) =>
          .ret (.resolving ((info.withPath pkg.absDir).withTarget converted))
        | some .ignored => .ret (.success .ignored)

/-- `ImportsFieldPlugin::check_target` (src/plugin/imports_field.rs:20-26). -/
def importsCheck (c : Ctx) (info : Info) (target : Str) : Stats :=
  if c.fs.isFile info.getPath && checkTarget info.request.target then .resolving info
  else .error (.notExported target) info

/-- The check that a package found lies outside `node_modules`
(src/plugin/imports_field.rs:66-70). -/
def outsideModule (pkg : Option Pkg) : Bool :=
  match pkg with
  | some p => !containsStr p.absDir MODULE
  | none => false

/-- `ImportsFieldPlugin::apply` (src/plugin/imports_field.rs:30-88). Fuel: lines 74 and 78
recurse without bound. -/
def importsPlugin (c : Ctx) : Nat → Option Pkg → Info → Prog Stats
  | 0, _, _ => .crash .fuel
  | n + 1, pkg?, info =>
    match pkg? with
    | none => .ret (.resolving info)
    | some pkg =>
      if !startsWith info.request.target cs!"#" then .ret (.resolving info)
      else
        let target := info.request.target
        match pkg.importsTree with
        | none => .ret (.resolving info)
        | some root =>
          match fieldProcess .imports root target c.opts.conditionNames with
          | none => .crash .fuel
          | some (.error err) => .ret (.error err info)
          | some (.ok []) => .ret (.error (.notExported target) info)
          | some (.ok (item :: _)) =>
            let request := parseRequest item
            if request.kind = .normal then
              let info' : Info := ⟨pjoin pkg.absDir MODULE, request⟩
              (c.load info'.getPath).bind fun
              | .error err => .ret (.error err info')
              | .ok pkg' =>
                if outsideModule pkg' then .ret (.resolving info')
                else
                  (exportsPlugin c pkg' info').bind fun s =>
                  (s.andThen fun i => importsPlugin c n pkg' i).bind fun s =>
                  (s.andThen fun i => aliasFieldPlugin c n pkg' i).bind fun s =>
                  s.andThen fun i => .ret (importsCheck c i target)
            else
              let info' : Info := ⟨pkg.absDir, request⟩
              if request.kind = .internal then importsPlugin c n pkg? info'
              else .ret (importsCheck c info' target)

/-- The loop of `MainFilePlugin::apply` (src/plugin/main_file.rs:22-34): `cur` is
`main_file_info`, `info` the original. -/
def mainFileLoop (c : Ctx) (fuel : Nat) (pkg : Option Pkg) (info : Info) :
    List Str → Info → Prog Stats
  | [], _ => .ret (.resolving info)
  | mainFile :: l, cur =>
    let cur := cur.withTarget (cs!"./" ++ mainFile)
    ((exportsPlugin c pkg cur).bind fun s =>
      (s.andThen fun i => importsPlugin c fuel pkg i).bind fun s =>
      (s.andThen fun i => aliasFieldPlugin c fuel pkg i).bind fun s =>
      s.andThen fun i => .ret (resolveAsFile c i)).bind fun
    | .success r => .ret (.success r)
    | .resolving i => mainFileLoop c fuel pkg info l i
    | .error _ i => mainFileLoop c fuel pkg info l i

/-- `MainFilePlugin::apply` (src/plugin/main_file.rs:20-36). -/
def mainFilePlugin (c : Ctx) (fuel : Nat) (pkg : Option Pkg) (info : Info) : Prog Stats :=
  mainFileLoop c fuel pkg info c.opts.mainFiles info

/-- The loop of `MainFieldPlugin::apply` (src/plugin/main_field.rs:26-54): `cur` is
`main_field_info`, `info` the original; `asDir` is `resolve_as_dir`. -/
def mainFieldLoop (c : Ctx) (fuel : Nat) (asDir : Info → Prog Stats) (pkg : Pkg) (info : Info) :
    List Str → Info → Prog Stats
  | [], _ => .ret (.resolving info)
  | field :: l, cur =>
    match (pkg.raw.get field).bind Json.asStr with
    | none => mainFieldLoop c fuel asDir pkg info l cur
    | some mainField =>
      if mainField = cs!"." || mainField = cs!"./" then .ret (.resolving info)
      else
        let cur :=
          if startsWith mainField cs!"./" then cur.withTarget mainField
          else cur.withTarget (cs!"./" ++ mainField)
        ((aliasFieldPlugin c fuel (some pkg) cur).bind fun s =>
          (s.andThen fun i => .ret (resolveAsFile c i)).bind fun s =>
          s.andThen asDir).bind fun
        | .success r => .ret (.success r)
        | .resolving i => mainFieldLoop c fuel asDir pkg info l i
        | .error _ i => mainFieldLoop c fuel asDir pkg info l i

/-- `MainFieldPlugin::apply` (src/plugin/main_field.rs:18-57). -/
def mainFieldPlugin (c : Ctx) (fuel : Nat) (asDir : Info → Prog Stats) (pkg : Option Pkg)
    (info : Info) : Prog Stats :=
  match pkg with
  | none => .ret (.resolving info)
  | some pkg =>
    if !pathEq info.path pkg.absDir then .ret (.resolving info)
    else mainFieldLoop c fuel asDir pkg info c.opts.mainFields info

/-- `Resolver::resolve_as_dir` (src/resolve.rs:28-42). Fuel: it recurses through
`MainFieldPlugin` without bound. -/
def resolveAsDir (c : Ctx) : Nat → Info → Prog Stats
  | 0, _ => .crash .fuel
  | n + 1, info =>
    let dir := info.getPath
    if !c.fs.isDir dir then .ret (.error .tag info)
    else
      (c.load dir).bind fun
      | .error err => .ret (.error err info)
      | .ok pkg =>
        let info := (info.withPath dir).withTarget []
        (mainFieldPlugin c n (resolveAsDir c n) pkg info).bind fun s =>
        s.andThen fun i => mainFilePlugin c n pkg i

/-- The index (in characters) of the `k`-th `/` (src/resolve.rs:52-62). -/
def slashIndex (target : Str) (k : Nat) : Option Nat :=
  ((target.zipIdx.filter fun ci => ci.1 = '/').map (·.2))[k]?

/-- `module_name` (src/resolve.rs:51-64). `none` is the panic of slicing bytes at a character
index that is not a boundary. -/
def moduleName (target : Str) : Option Str :=
  match slashIndex target (if startsWith target cs!"@" then 1 else 0) with
  | none => some target
  | some i => takeBytes target i

/-- The chain for an existing package directory (src/resolve.rs:83-97). -/
def modulePackageChain (c : Ctx) (fuel : Nat) (pkg : Option Pkg) (moduleInfo : Info) :
    Prog Stats :=
  (exportsPlugin c pkg moduleInfo).bind fun s =>
  (s.andThen fun i => importsPlugin c fuel pkg i).bind fun s =>
  (s.andThen fun i =>
    let i := if i.request.kind = .normal then i.withTarget (cs!"./" ++ i.request.target) else i
    aliasFieldPlugin c fuel pkg i).bind fun s =>
  (s.andThen fun i => .ret (resolveAsFile c i)).bind fun s =>
  s.andThen fun i => resolveAsDir c fuel i

/-- `is_resolve_self` of the package found, if any (src/resolve.rs:72-74). -/
def selfOf (pkg : Option Pkg) (info : Info) : Bool :=
  match pkg with
  | some p => isResolveSelf p info
  | none => false

/-- The lookup in one `node_modules` directory (src/resolve.rs:48-112). The `Bool` is whether
the function returns at once (lines 70), skipping the parent directories. -/
def moduleStep (c : Ctx) (fuel : Nat) (info : Info) : Prog (Stats × Bool) :=
  let root := pjoin info.path MODULE
  if !c.fs.isDir root then .ret (.resolving info, false)
  else
    let target := info.request.target
    match moduleName target with
    | none => .panic .moduleSlice
    | some name =>
      let modulePath := pjoin root name
      let moduleInfo : Info := ⟨root, info.request⟩
      (c.load (pjoin root target)).bind fun
      | .error err => .ret (.error err info, true)
      | .ok pkg =>
        if !c.fs.isDir modulePath && !selfOf pkg moduleInfo then
          match resolveAsFile c moduleInfo with
          | .success r => .ret (.success r, false)
          | _ => .ret (.resolving info, false)
        else
          (modulePackageChain c fuel pkg moduleInfo).bind fun
          | .error err i =>
            if err.isTag then .ret (.resolving info, false) else .ret (.error err i, false)
          | s => .ret (s, false)

/-- `Resolver::resolve_as_modules` (src/resolve.rs:45-126). Fuel for the recursion over parent
directories and for the inner calls. -/
def resolveAsModules (c : Ctx) : Nat → Info → Prog Stats
  | 0, _ => .crash .fuel
  | n + 1, info =>
    (moduleStep c n info).bind fun
    | (s, true) => .ret s
    | (s, false) =>
      (s.andThen fun i =>
        match pparent info.path with
        | some parent => resolveAsModules c n (i.withPath parent)
        | none => .ret (.resolving i)).bind fun
      | .resolving i => .ret (.error .tag i)
      | s => .ret s

/-- The loop of `AliasPlugin::apply` (src/plugin/alias.rs:15-37); `rec` is `_resolve`. -/
def aliasLoop (rec : Info → Prog Stats) (info : Info) : List (Str × AliasMap) → Prog Stats
  | [] => .ret (.resolving info)
  | (from_, to) :: l =>
    let inner := info.request.target
    if startsWith inner from_ then
      match to with
      | .target to =>
        if inner = to || startsWith inner to then aliasLoop rec info l
        else
          (rec ⟨info.path, info.request.withTarget (replaceFirst inner from_ to)⟩).bind fun
          | .success r => .ret (.success r)
          | _ => aliasLoop rec info l
      | .ignored => .ret (.success .ignored)
    else aliasLoop rec info l

/-- `AliasPlugin::apply` (src/plugin/alias.rs:10-40). -/
def aliasPlugin (c : Ctx) (rec : Info → Prog Stats) (info : Info) : Prog Stats :=
  if containsStr info.path MODULE then .ret (.resolving info)
  else aliasLoop rec info c.opts.alias

/-- `PreferRelativePlugin::apply` (src/plugin/prefer_relative.rs:8-25). -/
def preferRelativePlugin (c : Ctx) (rec : Info → Prog Stats) (info : Info) : Prog Stats :=
  if startsWith info.request.target cs!"../" || startsWith info.request.target cs!"./" then
    .ret (.resolving info)
  else if c.opts.preferRelative then
    (rec ⟨info.path, info.request.withTarget (cs!"./" ++ info.request.target)⟩).bind fun
    | .success r => .ret (.success r)
    | _ => .ret (.resolving info)
  else .ret (.resolving info)

/-- The description-file stage of `_resolve` (src/lib.rs:219-232). -/
def pkgStage (c : Ctx) (fuel : Nat) (info : Info) : Prog Stats :=
  let request :=
    if info.request.kind = .normal then pjoin (pjoin info.path MODULE) info.request.target
    else info.getPath
  (c.load request).bind fun
  | .error err => .ret (.error err info)
  | .ok pkg =>
    (importsPlugin c fuel pkg info).bind fun s =>
    s.andThen fun i => aliasFieldPlugin c fuel pkg i

/-- The last stage of `_resolve` (src/lib.rs:233-243). -/
def lastStage (c : Ctx) (fuel : Nat) (info : Info) : Prog Stats :=
  match info.request.kind with
  | .absolutePosix | .absoluteWin | .relative =>
    (resolveAsFile c info).andThen fun i => resolveAsDir c fuel i
  | _ => resolveAsModules c fuel info

/-- `Resolver::_resolve` (src/lib.rs:214-257). Fuel: it recurses through the alias and
prefer-relative plugins. -/
def resolveInner (c : Ctx) : Nat → Info → Prog Stats
  | 0, _ => .crash .fuel
  | n + 1, info =>
    ((aliasPlugin c (resolveInner c n) info).bind fun s =>
      (s.andThen fun i => preferRelativePlugin c (resolveInner c n) i).bind fun s =>
      (s.andThen fun i => pkgStage c n i).bind fun s =>
      s.andThen fun i => lastStage c n i).bind fun
    | .success r => .ret (.success r)
    | .error err i => .ret (.error (if err.isTag then failedMessage info else err) i)
    | .resolving _ => .panic .resolveUnreachable

end Verif
