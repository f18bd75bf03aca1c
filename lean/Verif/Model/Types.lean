import Verif.Model.Map
import Verif.Model.Parse
import Verif.Model.Path
/-!
# Options, results, errors, package information
-/

namespace Verif

/-- `AliasMap` (src/options.rs:6-9). -/
inductive AliasMap where
  | target (s : Str)
  | ignored
  deriving DecidableEq, Repr, Inhabited

/-- `ResolverOptions` (src/options.rs:12-63). `condition_names` is a `HashSet` used only through
`contains`; the model keeps a list. `external_cache` is which shared state the resolver runs on
(`Verif.Model.Machine`), so it is not a field here. -/
structure Opts where
  extensions : List Str
  enforceExtension : Option Bool
  alias : List (Str × AliasMap)
  preferRelative : Bool
  symlinks : Bool
  descriptionFile : Option Str
  mainFiles : List Str
  mainFields : List Str
  browserField : Bool
  conditionNames : List Str
  tsconfig : Option Str
  deriving DecidableEq, Repr

/-- `ResolverOptions::default` (src/options.rs:65-99). -/
def Opts.default : Opts where
  extensions := [cs!".js", cs!".json", cs!".node"]
  enforceExtension := none
  alias := []
  preferRelative := false
  symlinks := true
  descriptionFile := some cs!"package.json"
  mainFiles := [cs!"index"]
  mainFields := [cs!"main"]
  browserField := false
  conditionNames := [cs!"node"]
  tsconfig := none

/-- The options stored by `Resolver::new` (src/lib.rs:168-176). -/
def Opts.new (o : Opts) : Opts :=
  { o with enforceExtension :=
      match o.enforceExtension with
      | none => some (o.extensions.any fun e => e = [])
      | some b => some b }

/-- `SideEffects` (src/description.rs:8-11). -/
inductive SideEffects where
  | bool (b : Bool)
  | array (l : List Str)
  deriving DecidableEq, Repr

/-- `PkgFileInfo` (src/description.rs:14-25). `alias_fields` is a `HashMap`; the list is in its
iteration order, which is fixed when the map is built. -/
structure Pkg where
  absDir : Str
  name : Option Str
  version : Option Str
  aliasFields : List (Str × AliasMap)
  exportsTree : Option Node
  importsTree : Option Node
  sideEffects : Option SideEffects
  raw : Json

/-- `ResolveInfo` (src/lib.rs:85-88). -/
structure Info where
  path : Str
  request : Request
  deriving DecidableEq, Repr, Inhabited

/-- `ResolveInfo::get_path` (src/lib.rs:95-101). -/
def Info.getPath (i : Info) : Str :=
  if i.request.target = [] || i.request.target = cs!"." then i.path
  else pjoin i.path i.request.target

/-- `ResolveInfo::with_path` (src/lib.rs:103-105). -/
def Info.withPath (i : Info) (p : Str) : Info := { i with path := p }

/-- `ResolveInfo::with_target` (src/lib.rs:107-110). -/
def Info.withTarget (i : Info) (t : Str) : Info := { i with request := i.request.withTarget t }

/-- `ResolveInfo::join` (src/lib.rs:112-120). -/
def Info.join (i : Info) : Str := i.path ++ i.request.query ++ i.request.fragment

/-- `ResolveResult` (src/lib.rs:124-127). -/
inductive Result where
  | info (i : Info)
  | ignored
  deriving DecidableEq, Repr

/-- `ResolverStats` (src/lib.rs:130-134). -/
inductive Stats where
  | success (r : Result)
  | resolving (i : Info)
  | error (e : Err) (i : Info)

/-- `MODULE` (src/lib.rs:157). -/
def MODULE : Str := cs!"node_modules"

/-- `raise_resolve_failed_message` (src/utils.rs:12-18). -/
def failedMessage (i : Info) : Err := .failed i.request.display i.path

/-- Whether an error text equals `RAISE_RESOLVE_ERROR_TAG` (src/lib.rs:248, src/resolve.rs:101).
On structured errors this is being `tag`; `Verif.render_eq_tag` shows the two agree. -/
def Err.isTag : Err → Bool
  | .tag => true
  | _ => false

/-- The message text of an error; `pj` is `Display` of a JSON value. Sources as in `Err`. -/
def Err.render (pj : Json → Str) : Err → Str
  | .tag => cs!"T0"
  | .failed r p => cs!"Resolve '" ++ r ++ cs!"' failed in '" ++ p ++ cs!"'"
  | .openFailed p => cs!"Open " ++ p ++ cs!" failed"
  | .parseFailed p => cs!"Parse " ++ p ++ cs!" failed"
  | .compareFailed p => cs!"Compare SystemTime failed in " ++ p
  | .sideEffects p v => cs!"sideEffects in " ++ p ++ cs!" had unexpected value " ++ pj v
  | .notExported t => cs!"Package path " ++ t ++ cs!" is not exported"
  | .defaultNotLast => cs!"Default condition should be last one"
  | .exportsRequest r => cs!"Request should be relative path and start with '.', but got " ++ r
  | .onlyFile => cs!"Only requesting file allowed"
  | .exportTarget t => cs!"Export should be relative path and start with \"./\", but got " ++ t
  | .expectedFolder t => cs!"Expected " ++ t ++ cs!" is folder mapping"
  | .expectedFile t => cs!"Expected " ++ t ++ cs!" is file mapping"
  | .someWrong t => t ++ cs!" had some wrong"
  | .mixedKeys => cs!"Export field key can't mixed relative path and conditional object"
  | .exportKey k =>
    cs!"Export field key should be relative path and start with \"./\", but got " ++ k
  | .importsRequest r => cs!"Request should start with #, but got " ++ r
  | .importsRequestShort => cs!"Request should have at least 2 characters"
  | .importsSlash k => cs!"Import field key should not start with #/, but got " ++ k
  | .importsKey k => cs!"Imports field key should start with #, but got " ++ k
  | .importsKeyShort k => cs!"Imports field key should have at least 2 characters, but got " ++ k
  | .normalizeFailed => cs!"Path normalized failed"
  | .tsParseFailed p e => cs!"Parse " ++ p ++ cs!" failed. Error: " ++ e
  | .extendsIgnored s p => s ++ cs!" had been ignored in " ++ p

end Verif
