import Verif.Model.Machine
/-!
# What a call may return
-/

namespace Verif

/-- `p.Returns a`: with some answers to its operations, the call returns `a`. Any history of
calls, any change of files between calls and any interleaving with other threads gives some
answers (`Verif.system_returns`). -/
inductive Prog.Returns {α : Type} : Prog α → α → Prop where
  | ret (a : α) : Prog.Returns (.ret a) a
  | op {o : Op} {k : o.Ret → Prog α} {a : α} (r : o.Ret) :
      Prog.Returns (k r) a → Prog.Returns (.op o k) a

/-- `p.Ends o`: with some answers to its operations, the call ends like `o`. -/
inductive Prog.Ends {α : Type} : Prog α → Outcome α → Prop where
  | ret (a : α) : Prog.Ends (.ret a) (.done a)
  | crash (c : Crash) : Prog.Ends (.crash c) (.crashed c)
  | op {o : Op} {k : o.Ret → Prog α} {x : Outcome α} (r : o.Ret) :
      Prog.Ends (k r) x → Prog.Ends (.op o k) x

/-- How a call that is over has ended. -/
def Prog.outcome {α : Type} : Prog α → Option (Outcome α)
  | .ret a => some (.done a)
  | .crash c => some (.crashed c)
  | .op _ _ => none

/-- Calls that end alike: with values in relation, or with the same crash. -/
def Outcome.Like {α β : Type} (Q : α → β → Prop) : Outcome α → Outcome β → Prop
  | .done a, .done b => Q a b
  | .crashed c, .crashed c' => c = c'
  | _, _ => False

/-- The value returned by a call on fresh caches, for examples. -/
def Prog.fresh {α : Type} (p : Prog α) : Option α :=
  match (p.run (World.init fun _ => 0)).1 with
  | .done a => some a
  | .crashed _ => none

/-- The crash of a call on fresh caches, for examples. -/
def Prog.freshCrash {α : Type} (p : Prog α) : Option Crash :=
  match (p.run (World.init fun _ => 0)).1 with
  | .done _ => none
  | .crashed c => some c

/-- The information returned by a successful `resolve` on fresh caches, for examples. -/
def Prog.freshInfo (p : Prog (Except Err Result)) : Option Info :=
  match p.fresh with
  | some (.ok (.info i)) => some i
  | _ => none

end Verif
