import Verif.Model.Live
import Verif.Model.Machine
/-!
# Several resolvers and threads, with files that change at any moment

As `Verif.Model.Machine`, but a call looks at the files of the moment (`Verif.Model.Live`), so that files
may change between any two looks of one call.
-/

namespace Verif.Live

/-- What a resolver (src/lib.rs:162-184) works with. The loader may repeat itself `spin` times. -/
def host (cfg : Config) (ser : Json → Str) (spin : Nat) : Host :=
  ⟨cfg.opts, cfg.debug, cfg.duration, ser, spin⟩

/-- The tree of looks and operations of a call (src/lib.rs:187-211, src/description.rs:150-162). -/
def prog (h : Host) (fuel : Nat) : Call → Live Answer
  | .resolve path request => (resolve h fuel path request).bind fun r => .ret (.resolve r)
  | .sideEffects path => (loadSideEffects h path).bind fun r => .ret (.sideEffects r)

/-- How a call that is over has ended. -/
def outcome {α : Type} : Live α → Option (Outcome α)
  | .ret a => some (.done a)
  | .crash c => some (.crashed c)
  | .ask _ _ => none
  | .op _ _ => none

/-- A call in progress, or over. `fs` are the files when it started. -/
structure Task where
  rid : Nat
  fs : Fs
  call : Call
  fuel : Nat
  prog : Live Answer

/-- The state of the system. -/
structure Sys where
  shared : Shared
  fs : Fs
  tasks : List Task

/-- The effect of an event. A step of a call is a look at a file or an operation on shared state. -/
def Sys.next (cfg : Nat → Config) (ser : Json → Str) (s : Sys) : Event → Sys
  | .start rid call fuel =>
    { s with tasks := s.tasks ++
        [⟨rid, s.fs, call, fuel, Live.prog (host (cfg rid) ser fuel) fuel call⟩] }
  | .change fs => { s with fs := fs }
  | .step i seed =>
    match s.tasks[i]? with
    | none => s
    | some t =>
      match t.prog with
      | .ask q k => { s with tasks := s.tasks.set i { t with prog := k (q.answer s.fs) } }
      | .op o k =>
        let r := Op.exec (s.shared.view cfg t.rid fun _ => seed) o
        { s with
          shared := s.shared.store cfg t.rid r.2
          tasks := s.tasks.set i { t with prog := k r.1 } }
      | _ => s

/-- The system before any call. -/
def Sys.init (fs : Fs) : Sys := ⟨Shared.init, fs, []⟩

/-- The system after a list of events. -/
def Sys.after (cfg : Nat → Config) (ser : Json → Str) (s : Sys) (l : List Event) : Sys :=
  l.foldl (Sys.next cfg ser) s

end Verif.Live
