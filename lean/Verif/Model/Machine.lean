import Verif.Model.Tsconfig
/-!
# Several resolvers, shared caches, threads, a changing file system

A system state holds the caches, the file system of the moment and the calls in progress.
Calls run interleaved, one atomic operation at a time. A call sees the file system of the
moment it started (changes in the middle of a call are not modelled).
-/

namespace Verif

/-- `ResolverCache` (src/cache.rs:8-13): the part that `external_cache` shares. -/
structure Cache where
  pkg : List Comp → Option (Option Pkg)
  exportsTree : Str → Option Node
  importsTree : Str → Option Node

/-- `ResolverCache::default()` (src/cache.rs:7). -/
def Cache.empty : Cache := ⟨fun _ => none, fun _ => none, fun _ => none⟩

/-- A resolver as built by `Resolver::new` (src/lib.rs:162-184): its options, and the number of
the cache it uses (resolvers given the same `external_cache` have the same number). -/
structure Config where
  opts : Opts
  cache : Nat
  debug : Bool
  duration : Nat

/-- A call of the public API (src/lib.rs:187, src/description.rs:150). -/
inductive Call where
  | resolve (path request : Str)
  | sideEffects (path : Str)

/-- The value returned by a call. -/
inductive Answer where
  | resolve (r : Except Err Result)
  | sideEffects (r : Except Err (Option (Str × Option SideEffects)))

/-- The environment of a resolver on a file system. -/
def Config.env (cfg : Config) (ser : Json → Str) (fs : Fs) : Env :=
  ⟨cfg.opts, fs, cfg.debug, cfg.duration, ser⟩

/-- The tree of operations of a call (src/lib.rs:187-211, src/description.rs:150-162). -/
def Call.prog (e : Env) (fuel : Nat) : Call → Prog Answer
  | .resolve path request => (Verif.resolve e fuel path request).bind fun r => .ret (.resolve r)
  | .sideEffects path => (loadSideEffects e path).bind fun r => .ret (.sideEffects r)

/-- A call in progress (or finished: `prog` is then a leaf). -/
structure Task where
  rid : Nat
  fs : Fs
  call : Call
  fuel : Nat
  prog : Prog Answer

/-- All caches. `files` and `dbgs` belong to single resolvers (src/lib.rs:72-79). -/
structure Shared where
  caches : Nat → Cache
  files : Nat → List Comp → Option Nat
  dbgs : Nat → List Comp → Bool

/-- No cache has an entry yet. -/
def Shared.init : Shared := ⟨fun _ => Cache.empty, fun _ _ => none, fun _ _ => false⟩

/-- The state of the system. -/
structure Sys where
  shared : Shared
  fs : Fs
  tasks : List Task

/-- The shared state as resolver `rid` sees it. -/
def Shared.view (cfg : Nat → Config) (s : Shared) (rid : Nat) (seeds : Nat → Nat) : World where
  pkg := (s.caches (cfg rid).cache).pkg
  exportsTree := (s.caches (cfg rid).cache).exportsTree
  importsTree := (s.caches (cfg rid).cache).importsTree
  file := s.files rid
  dbg := s.dbgs rid
  seeds := seeds

/-- The shared state after resolver `rid` changed what it sees to `w`. -/
def Shared.store (cfg : Nat → Config) (s : Shared) (rid : Nat) (w : World) : Shared :=
  { caches := upd s.caches (cfg rid).cache ⟨w.pkg, w.exportsTree, w.importsTree⟩
    files := upd s.files rid w.file
    dbgs := upd s.dbgs rid w.dbg }

/-- What can happen: a call starts, the file system changes, or a call performs its next
operation (with some hash seed, should it ask for one). -/
inductive Event where
  | start (rid : Nat) (call : Call) (fuel : Nat)
  | change (fs : Fs)
  | step (i : Nat) (seed : Nat)

/-- The effect of an event. Steps of finished or unknown tasks do nothing. -/
def Sys.next (cfg : Nat → Config) (ser : Json → Str) (s : Sys) : Event → Sys
  | .start rid call fuel =>
    { s with tasks := s.tasks ++ [⟨rid, s.fs, call, fuel, call.prog ((cfg rid).env ser s.fs) fuel⟩] }
  | .change fs => { s with fs := fs }
  | .step i seed =>
    match s.tasks[i]? with
    | none => s
    | some t =>
      match t.prog with
      | .op o k =>
        let r := Op.exec (s.shared.view cfg t.rid fun _ => seed) o
        { s with
          shared := s.shared.store cfg t.rid r.2
          tasks := s.tasks.set i { t with prog := k r.1 } }
      | _ => s

/-- The system before any call. -/
def Sys.init (fs : Fs) : Sys := ⟨Shared.init, fs, []⟩

/-- The system after a list of events. -/
def Sys.after (cfg : Nat → Config) (ser : Json → Str) (s : Sys) (l : List Event) : Sys :=
  l.foldl (Sys.next cfg ser) s

end Verif
