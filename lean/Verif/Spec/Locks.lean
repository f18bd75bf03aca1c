import Verif.Model.Locks
/-!
# The locks of the caches: words for the statements
-/

namespace Verif.Live

/-- What is left when locks are forgotten. -/
def Workshop.sys (s : Workshop) : Sys := ⟨s.shared, s.fs, s.workers.map fun w => w.task⟩

/-- An event of the system without locks. -/
def LockEvent.forget : LockEvent → Event
  | .start rid call fuel => .start rid call fuel
  | .change fs => .change fs
  | .step i seed _ => .step i seed

/-- A call starts or files change. -/
def Event.outer : Event → Bool
  | .step _ _ => false
  | _ => true

/-- The call is over. -/
def Worker.over (w : Worker) : Bool := (outcome w.task.prog).isSome

/-- The first `n` events of a sequence. -/
def firstEvents (σ : Nat → LockEvent) (n : Nat) : List LockEvent := (List.range n).map σ

/-- No call starts, and each of the first `n` calls gets a turn again and again. Files may change. -/
structure FairFor (n : Nat) (σ : Nat → LockEvent) : Prop where
  closed : ∀ m rid call fuel, σ m ≠ .start rid call fuel
  turns : ∀ i < n, ∀ m, ∃ m' ≥ m, ∃ seed yield, σ m' = .step i seed yield

end Verif.Live
