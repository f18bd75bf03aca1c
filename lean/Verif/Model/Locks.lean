import Verif.Model.LiveMachine
/-!
# The locks of the caches

A `DashMap` is divided into shards, each behind a lock of its own that one writer or any number of
readers may hold (dashmap 5, Cargo.toml:13). In `Verif.Model.LiveMachine` an operation on a map is one
step. Here it is three: the call gets in line for the lock of the shard, gets the lock, and performs the
operation and gives the lock back. A call whose lock is not to be had waits.

`get` returns a guard that keeps the lock of its shard for reading until it is dropped. In all but one
place the code drops it at once. The exception is src/description.rs:180-192, where the guard of an entry
of `file_dir_to_pkg_info` is kept while the file cache is asked about the time of the description file.
-/

namespace Verif.Live

/-- A map shared by calls: the maps of a `ResolverCache` (src/cache.rs:8-13) by the number of the cache,
the file cache (src/fs.rs:12-15) and the debug map (src/cache.rs:17) by the resolver. -/
inductive MapId where
  | pkg (cache : Nat)
  | exports (cache : Nat)
  | imports (cache : Nat)
  | file (rid : Nat)
  | dbg (rid : Nat)
  deriving DecidableEq

/-- The lock of one shard of one map. -/
structure Lock where
  map : MapId
  shard : Nat
  deriving DecidableEq

/-- How a lock is held. -/
inductive Mode where
  | read
  | write
  deriving DecidableEq

/-- The shard that an entry belongs to. Keys are paths, which are compared and hashed by their
components, or strings. -/
abbrev Shards := MapId → List Comp ⊕ Str → Nat

/-- The lock that an operation takes, and how (dashmap 5: `get` and `contains_key` read, `insert` and
`remove` write). `cache` is the cache of resolver `rid`. -/
def lockOf (sh : Shards) (cache rid : Nat) : Op → Option (Lock × Mode)
  | .getPkg d => some (⟨.pkg cache, sh (.pkg cache) (.inl (comps d))⟩, .read)
  | .putPkg d _ => some (⟨.pkg cache, sh (.pkg cache) (.inl (comps d))⟩, .write)
  | .getExports k => some (⟨.exports cache, sh (.exports cache) (.inr k)⟩, .read)
  | .getImports k => some (⟨.imports cache, sh (.imports cache) (.inr k)⟩, .read)
  | .putExports k _ => some (⟨.exports cache, sh (.exports cache) (.inr k)⟩, .write)
  | .getFile p => some (⟨.file rid, sh (.file rid) (.inl (comps p))⟩, .read)
  | .putFile p _ => some (⟨.file rid, sh (.file rid) (.inl (comps p))⟩, .write)
  | .dbgHas p => some (⟨.dbg rid, sh (.dbg rid) (.inl (comps p))⟩, .read)
  | .dbgIns p => some (⟨.dbg rid, sh (.dbg rid) (.inl (comps p))⟩, .write)
  | .dbgDel p => some (⟨.dbg rid, sh (.dbg rid) (.inl (comps p))⟩, .write)
  | .seed => none

/-- A guard of an entry of `file_dir_to_pkg_info`: the lock it keeps for reading, and the entry. -/
structure Guard where
  lock : Lock
  dir : Str
  val : Option Pkg

/-- Whether a call is in line for the lock of its next operation, or has it. -/
inductive Stage where
  | idle
  | waiting
  | inside
  deriving DecidableEq

/-- A call with the guards it keeps, the latest first. -/
structure Worker where
  task : Task
  guards : List Guard
  stage : Stage

/-- The lock of the next operation of a call. -/
def Worker.next (cfg : Nat → Config) (sh : Shards) (w : Worker) : Option (Lock × Mode) :=
  match w.task.prog with
  | .op o _ => lockOf sh (cfg w.task.rid).cache w.task.rid o
  | _ => none

/-- The locks that a call has. -/
def Worker.holds (cfg : Nat → Config) (sh : Shards) (w : Worker) : List (Lock × Mode) :=
  w.guards.map (fun g => (g.lock, .read)) ++
    if w.stage = .inside then (w.next cfg sh).toList else []

/-- The lock that a call is in line for. -/
def Worker.wants (cfg : Nat → Config) (sh : Shards) (w : Worker) : Option (Lock × Mode) :=
  if w.stage = .waiting then w.next cfg sh else none

/-- The guard that an operation returns (src/description.rs:180). All other guards are dropped in the
same statement (src/description.rs:74-75, 89-90, src/fs.rs:41-42). -/
def guardOf (lock : Lock) : (o : Op) → o.Ret → List Guard
  | .getPkg d, r => match (r : Option (Option Pkg)) with
    | some v => [⟨lock, d, v⟩]
    | none => []
  | _, _ => []

/-- What can happen. `yield` is whether a reader lets writers in line go first: a lock may do so or
not. -/
inductive LockEvent where
  | start (rid : Nat) (call : Call) (fuel : Nat)
  | change (fs : Fs)
  | step (i : Nat) (seed : Nat) (yield : Bool)

/-- The state of the system. -/
structure Workshop where
  shared : Shared
  fs : Fs
  workers : List Worker

/-- Whether a lock is to be had: nobody, the call itself included, has it in a way that excludes the
other. -/
def Workshop.free (cfg : Nat → Config) (sh : Shards) (s : Workshop) (yield : Bool) (lock : Lock) : Mode → Bool
  | .write => s.workers.all fun w => (w.holds cfg sh).all fun h => h.1 ≠ lock
  | .read => s.workers.all fun w =>
      (w.holds cfg sh).all (fun h => h ≠ (lock, .write)) && !(yield && w.wants cfg sh = some (lock, .write))

/-- The effect of an event. -/
def Workshop.next (cfg : Nat → Config) (ser : Json → Str) (sh : Shards) (s : Workshop) : LockEvent → Workshop
  | .start rid call fuel =>
    { s with workers := s.workers ++
        [⟨⟨rid, s.fs, call, fuel, Live.prog (host (cfg rid) ser fuel) fuel call⟩, [], .idle⟩] }
  | .change fs => { s with fs := fs }
  | .step i seed yield =>
    match s.workers[i]? with
    | none => s
    | some w =>
      match w.task.prog with
      | .ask q k =>
        let guards := if q = .release then w.guards.drop 1 else w.guards
        let w' : Worker := ⟨{ w.task with prog := k (q.answer s.fs) }, guards, w.stage⟩
        { s with workers := s.workers.set i w' }
      | .op o k =>
        let r := Op.exec (s.shared.view cfg w.task.rid fun _ => seed) o
        let done (guards : List Guard) : Workshop :=
          { s with
            shared := s.shared.store cfg w.task.rid r.2
            workers := s.workers.set i ⟨{ w.task with prog := k r.1 }, guards ++ w.guards, .idle⟩ }
        match lockOf sh (cfg w.task.rid).cache w.task.rid o with
        | none => done []
        | some (lock, mode) =>
          match w.stage with
          | .idle => { s with workers := s.workers.set i { w with stage := .waiting } }
          | .waiting =>
            if s.free cfg sh yield lock mode then
              { s with workers := s.workers.set i { w with stage := .inside } }
            else s
          | .inside => done (guardOf lock o r.1)
      | _ => s

/-- The system before any call. -/
def Workshop.init (fs : Fs) : Workshop := ⟨Shared.init, fs, []⟩

/-- The system after a list of events. -/
def Workshop.after (cfg : Nat → Config) (ser : Json → Str) (sh : Shards) (s : Workshop)
    (l : List LockEvent) : Workshop :=
  l.foldl (Workshop.next cfg ser sh) s

end Verif.Live
