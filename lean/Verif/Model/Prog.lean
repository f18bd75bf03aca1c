import Verif.Model.Types
/-!
# Calls as trees of atomic cache operations

A call of the resolver interacts with shared state only through `DashMap::get` and
`DashMap::insert` (and the debug-only map). `Prog α` is the tree of these operations; a node
carries the continuation for every possible answer.
-/

namespace Verif

/-- A place where the Rust code panics. -/
inductive Site where
  /-- `from_json`: `unreachable!()` or nested array (src/map.rs:122,134), imports not an object
  (src/map.rs:365) -/
  | buildTree
  /-- `assert!(!b)` on a browser entry (src/description.rs:61) -/
  | browserTrue
  /-- `target.find('/').unwrap()` (src/plugin/exports_field.rs:50) -/
  | scopedNoSlash
  /-- `&target[0..index]` with a character index (src/resolve.rs:64) -/
  | moduleSlice
  /-- `unreachable!()` at the end of `_resolve` (src/lib.rs:255) -/
  | resolveUnreachable
  /-- `unreachable!()` at the end of `resolve` (src/lib.rs:209) -/
  | apiUnreachable
  /-- `extract_info` on a success (src/lib.rs:152) -/
  | extractInfo
  /-- byte slices in `match_star` (src/tsconfig_path.rs:59-68) -/
  | starSlice
  /-- empty tsconfig (src/tsconfig.rs:58) -/
  | tsEmpty
  /-- `location.parent().unwrap()` (src/tsconfig.rs:63, src/tsconfig_path.rs:77) -/
  | tsParent
  /-- `unwrap()`s on the shape of `baseUrl` and `paths` (src/tsconfig.rs:27,31,35,37) -/
  | tsShape
  /-- same package.json parsed twice, debug builds (src/description.rs:33-40) -/
  | dbgReparse
  /-- `assert!(info.request.target.is_empty())`, debug builds (src/normalize.rs:55) -/
  | dbgTarget
  /-- `description_file.as_ref().unwrap()` (src/description.rs:158) -/
  | descUnwrap
  deriving DecidableEq, Repr

/-- Ways for a call not to return. -/
inductive Crash where
  /-- a panic -/
  | panic (s : Site)
  /-- the `loop` of src/description.rs:207-217 makes no progress -/
  | hang
  /-- the model's fuel ran out; see `DESIGN.md` -/
  | fuel
  deriving DecidableEq, Repr

/-- One atomic operation on shared state. -/
inductive Op where
  /-- `cache.file_dir_to_pkg_info.get` (src/description.rs:180) -/
  | getPkg (dir : Str)
  /-- `cache.file_dir_to_pkg_info.insert` (src/description.rs:209, 225) -/
  | putPkg (dir : Str) (v : Option Pkg)
  /-- `cache.exports_content_to_tree.get` (src/description.rs:74) -/
  | getExports (key : Str)
  /-- `cache.imports_content_to_tree.get` (src/description.rs:89) -/
  | getImports (key : Str)
  /-- `cache.exports_content_to_tree.insert` (src/description.rs:78, 93) -/
  | putExports (key : Str) (t : Node)
  /-- `fs.cached_file.get` (src/fs.rs:41); only the time is used -/
  | getFile (path : Str)
  /-- `fs.cached_file.insert` (src/fs.rs:62) -/
  | putFile (path : Str) (mtime : Nat)
  /-- `dbg_read_map.contains_key` (src/description.rs:33), debug builds -/
  | dbgHas (path : Str)
  /-- `dbg_read_map.insert` (src/description.rs:41), debug builds -/
  | dbgIns (path : Str)
  /-- `dbg_read_map.remove` (src/description.rs:188), debug builds -/
  | dbgDel (path : Str)
  /-- the random hash keys of a new `HashMap` (std); not an access to shared state -/
  | seed

/-- The answer of an operation. -/
def Op.Ret : Op → Type
  | .getPkg _ => Option (Option Pkg)
  | .putPkg _ _ => Unit
  | .getExports _ => Option Node
  | .getImports _ => Option Node
  | .putExports _ _ => Unit
  | .getFile _ => Option Nat
  | .putFile _ _ => Unit
  | .dbgHas _ => Bool
  | .dbgIns _ => Unit
  | .dbgDel _ => Unit
  | .seed => Nat

/-- A call: finished, crashed, or about to perform an operation. -/
inductive Prog (α : Type) where
  | ret (a : α)
  | crash (c : Crash)
  | op (o : Op) (k : o.Ret → Prog α)

namespace Prog

/-- Sequencing. -/
def bind {α β : Type} : Prog α → (α → Prog β) → Prog β
  | .ret a, f => f a
  | .crash c, _ => .crash c
  | .op o k, f => .op o fun r => (k r).bind f

instance : Monad Prog where
  pure := Prog.ret
  bind := Prog.bind

/-- A panic at the given site. -/
def panic {α : Type} (s : Site) : Prog α := .crash (.panic s)

end Prog

/-- Shared state of one resolver: the cache (src/cache.rs:8-13), the file cache
(src/fs.rs:12-15) and the debug map (src/cache.rs:17), plus a stream of hash seeds. Maps with
path keys are functions of the components of the path. -/
structure World where
  pkg : List Comp → Option (Option Pkg)
  exportsTree : Str → Option Node
  importsTree : Str → Option Node
  file : List Comp → Option Nat
  dbg : List Comp → Bool
  seeds : Nat → Nat

/-- The state of `Resolver::new` without external cache (src/lib.rs:166-184). -/
def World.init (seeds : Nat → Nat) : World where
  pkg := fun _ => none
  exportsTree := fun _ => none
  importsTree := fun _ => none
  file := fun _ => none
  dbg := fun _ => false
  seeds := seeds

/-- Function update. -/
def upd {α β : Type} [DecidableEq α] (f : α → β) (a : α) (b : β) : α → β :=
  fun x => if x = a then b else f x

/-- The effect of one operation (DashMap `get` / `insert` / `contains_key` / `remove`). -/
def Op.exec (w : World) : (o : Op) → o.Ret × World
  | .getPkg d => (w.pkg (comps d), w)
  | .putPkg d v => ((), { w with pkg := upd w.pkg (comps d) (some v) })
  | .getExports k => (w.exportsTree k, w)
  | .getImports k => (w.importsTree k, w)
  | .putExports k t => ((), { w with exportsTree := upd w.exportsTree k (some t) })
  | .getFile p => (w.file (comps p), w)
  | .putFile p m => ((), { w with file := upd w.file (comps p) (some m) })
  | .dbgHas p => (w.dbg (comps p), w)
  | .dbgIns p => ((), { w with dbg := upd w.dbg (comps p) true })
  | .dbgDel p => ((), { w with dbg := upd w.dbg (comps p) false })
  | .seed => (w.seeds 0, { w with seeds := fun n => w.seeds (n + 1) })

/-- How a call ended. -/
inductive Outcome (α : Type) where
  | done (a : α)
  | crashed (c : Crash)

/-- Run a call alone, from a given state. -/
def Prog.run {α : Type} : Prog α → World → Outcome α × World
  | .ret a, w => (.done a, w)
  | .crash c, w => (.crashed c, w)
  | .op o k, w => (k (o.exec w).1).run (o.exec w).2

end Verif
