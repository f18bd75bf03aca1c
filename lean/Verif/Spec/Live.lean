import Verif.Model.LiveMachine
import Verif.Spec.Changes
/-!
# Calls on files that change at any moment: words for the statements
-/

namespace Verif.Live

/-- All looks at files are answered by `fs`. -/
def freeze {α : Type} (fs : Fs) : Live α → Prog α
  | .ret a => .ret a
  | .crash c => .crash c
  | .ask q k => (k (q.answer fs)).freeze fs
  | .op o k => .op o fun r => (k r).freeze fs

/-- `fs'` are the files at a moment of the history at which call number `i` is in progress. -/
def During (cfg : Nat → Config) (ser : Json → Str) (fs : Fs) (l : List Event) (i : Nat) (fs' : Fs) : Prop :=
  ∃ l1 l2, l = l1 ++ l2 ∧ ((Sys.init fs).after cfg ser l1).fs = fs' ∧
    ∃ t, ((Sys.init fs).after cfg ser l1).tasks[i]? = some t ∧ outcome t.prog = none

/-- The answers that looks at files give while call number `i` is in progress. -/
def Seen (cfg : Nat → Config) (ser : Json → Str) (fs : Fs) (l : List Event) (i : Nat) (q : Query)
    (r : q.Ret) : Prop :=
  ∃ fs', During cfg ser fs l i fs' ∧ q.answer fs' = r

/-- In the history, call number `i` has looked at a file and got this answer. -/
def Looked (cfg : Nat → Config) (ser : Json → Str) (fs : Fs) (l : List Event) (i : Nat) (q : Query)
    (r : q.Ret) : Prop :=
  ∃ l1 seed l2 t k, l = l1 ++ .step i seed :: l2 ∧
    ((Sys.init fs).after cfg ser l1).tasks[i]? = some t ∧ t.prog = .ask q k ∧
    q.answer ((Sys.init fs).after cfg ser l1).fs = r

/-- In the history, call number `i` has performed an operation on shared state and got this answer. -/
def Got (cfg : Nat → Config) (ser : Json → Str) (fs : Fs) (l : List Event) (i : Nat) (o : Op)
    (r : o.Ret) : Prop :=
  ∃ l1 seed l2 t k, l = l1 ++ .step i seed :: l2 ∧
    ((Sys.init fs).after cfg ser l1).tasks[i]? = some t ∧ t.prog = .op o k ∧
    (Op.exec (((Sys.init fs).after cfg ser l1).shared.view cfg t.rid fun _ => seed) o).1 = r

/-- With answers `A` to looks at files and `R` to operations the call ends like `x`. -/
inductive Ends {α : Type} (A : (q : Query) → q.Ret → Prop) (R : (o : Op) → o.Ret → Prop) :
    Live α → Outcome α → Prop where
  | ret (a : α) : Ends A R (.ret a) (.done a)
  | crash (c : Crash) : Ends A R (.crash c) (.crashed c)
  | ask {q : Query} {k : q.Ret → Live α} {x : Outcome α} (r : q.Ret) :
      A q r → Ends A R (k r) x → Ends A R (.ask q k) x
  | op {o : Op} {k : o.Ret → Live α} {x : Outcome α} (r : o.Ret) :
      R o r → Ends A R (k r) x → Ends A R (.op o k) x

/-- Files change only while no call is in progress. -/
def Quiet (cfg : Nat → Config) (ser : Json → Str) : Sys → List Event → Prop
  | _, [] => True
  | s, e :: l =>
    (∀ fs, e = .change fs → ∀ t ∈ s.tasks, outcome t.prog ≠ none) ∧ Quiet cfg ser (s.next cfg ser e) l

/-- No look at a file gives another answer than the same look would have given when the call
started. -/
def Unnoticed (cfg : Nat → Config) (ser : Json → Str) : Sys → List Event → Prop
  | _, [] => True
  | s, e :: l =>
    (∀ i seed, e = .step i seed → ∀ t, s.tasks[i]? = some t → ∀ q k, t.prog = .ask q k →
      q.answer s.fs = q.answer t.fs) ∧
    Unnoticed cfg ser (s.next cfg ser e) l

/-- The call as `Verif.Model.Machine` knows it: with the files it started with. -/
def Task.freeze (t : Task) : Verif.Task := ⟨t.rid, t.fs, t.call, t.fuel, t.prog.freeze t.fs⟩

/-- No call is in progress. -/
def Sys.Idle (s : Sys) : Prop := ∀ t ∈ s.tasks, ∃ o, outcome t.prog = some o

/-- As `Verif.Turns`: no call starts, and no file changes, while a call is in progress. Calls have
absolute paths, and changes are updates for every resolver. -/
def Turns (cfg : Nat → Config) (ser : Json → Str) (F : Fs → Prop) : Sys → List Event → Prop
  | _, [] => True
  | s, e :: l =>
    (match e with
    | .step _ _ => True
    | .start _ call _ => s.Idle ∧ call.abs
    | .change fs' => s.Idle ∧ F fs' ∧ ∀ rid desc, (cfg rid).opts.descriptionFile = some desc →
        Update s.fs fs' desc (cfg rid).duration) ∧
    Turns cfg ser F (s.next cfg ser e) l

/-- How call number `i` ended. -/
def Sys.ended (s : Sys) (i : Nat) : Option (Outcome Answer) :=
  match s.tasks[i]? with
  | some t => outcome t.prog
  | none => none

/-- The path returned by call number `i`, if it was a successful `resolve`. -/
def Sys.path (s : Sys) (i : Nat) : Option Str :=
  match s.ended i with
  | some (.done (.resolve (.ok (.info i)))) => some i.path
  | _ => none

/-- The error returned by call number `i`, if it was a `resolve`. -/
def Sys.error (s : Sys) (i : Nat) : Option Err :=
  match s.ended i with
  | some (.done (.resolve (.error e))) => some e
  | _ => none

end Verif.Live
