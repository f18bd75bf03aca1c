import Verif.Proofs.Locks
import Verif.Props.Live
/-!
# C66: calls do not block each other for good
-/

namespace Verif.Live

section
variable (cfg : Nat → Config) (ser : Json → Str) (sh : Shards) (fs : Fs) (l : List LockEvent)

/-- C66: whatever has happened so far, unless all calls are over there is one that can go on, whatever the
state of the files and whether or not readers let writers go first. No call waits for a lock that it has
itself, and calls do not wait for each other in a circle. -/
theorem C66_no_deadlock
    (h : ∃ w ∈ ((Workshop.init fs).after cfg ser sh l).workers, w.over = false) :
    ∃ i, ∀ seed yield,
      (((Workshop.init fs).after cfg ser sh l).next cfg ser sh (.step i seed yield)).workers ≠
        ((Workshop.init fs).after cfg ser sh l).workers := by
  obtain ⟨i, hi⟩ := ready_of_ok (ser := ser) (okSys_after (okSys_init fs) l).each h
  exact ⟨i, hi _ rfl⟩

/-- C66: if each call gets a turn again and again, then all calls come to their end, also while files
change. (A call that would never return by itself ends in the model when its fuel is used up.) -/
theorem C66_all_end {σ : Nat → LockEvent}
    (hσ : FairFor ((Workshop.init fs).after cfg ser sh l).workers.length σ) :
    ∃ n, ∀ w ∈ (((Workshop.init fs).after cfg ser sh l).after cfg ser sh (firstEvents σ n)).workers,
      w.over = true :=
  all_end (okSys_after (okSys_init fs) l) hσ

/-- C66: no call has a lock that another call has for writing. -/
theorem C66_exclusive (i j : Nat) (hij : i ≠ j) {wi wj : Worker}
    (hi : ((Workshop.init fs).after cfg ser sh l).workers[i]? = some wi)
    (hj : ((Workshop.init fs).after cfg ser sh l).workers[j]? = some wj) {lock : Lock} {mode : Mode}
    (h : (lock, Mode.write) ∈ wi.holds cfg sh) : (lock, mode) ∉ wj.holds cfg sh :=
  (okSys_after (okSys_init fs) l).excl i j wi wj hi hj hij lock mode h

/-- C66: the entry that a call has found stays in the cache as long as the call keeps its guard. -/
theorem C66_entry_stays {w : Worker} (hw : w ∈ ((Workshop.init fs).after cfg ser sh l).workers)
    {g : Guard} (hg : g ∈ w.guards) :
    (((Workshop.init fs).after cfg ser sh l).shared.caches (cfg w.task.rid).cache).pkg (comps g.dir) =
      some g.val :=
  (okSys_after (okSys_init fs) l).kept w hw g hg

/-- C66: a call that is over has given back all locks, also if it has panicked. -/
theorem C66_all_given_back {w : Worker} (hw : w ∈ ((Workshop.init fs).after cfg ser sh l).workers)
    (ho : w.over = true) : w.holds cfg sh = [] := by
  have hok := (okSys_after (cfg := cfg) (ser := ser) (sh := sh) (okSys_init fs) l).each w hw
  have hd := hok.disc
  have hg : w.guards = [] := by
    cases hp : w.task.prog with
    | ret a => rw [hp] at hd; simpa [Disc] using hd
    | crash c => rw [hp] at hd; simpa [Disc] using hd
    | ask q k => rw [Worker.over, hp] at ho; cases ho
    | op o k => rw [Worker.over, hp] at ho; cases ho
  have hst : w.stage = .idle := by
    refine Decidable.byContradiction fun hst => ?_
    have hn := hok.stage hst
    unfold Worker.next at hn
    split at hn
    · rename_i hp
      rw [Worker.over, hp] at ho
      cases ho
    · cases hn
  rw [holds_idle (by rw [hst]; nofun), hg]
  rfl

/-- C66: locks change no answers. What happens with locks also happens in the system without locks, in which
every operation is one step, with the same calls started and the same changes of files: only the steps in
which a call waits are left out. So all that is proved of that system (C51 to C56) holds here. -/
theorem C66_as_without_locks :
    ∃ l', ((Workshop.init fs).after cfg ser sh l).sys = (Sys.init fs).after cfg ser l' ∧
      l'.Sublist (l.map LockEvent.forget) ∧
      l'.filter Event.outer = (l.map LockEvent.forget).filter Event.outer :=
  sys_after _ l

end

/-! ## Concrete cases -/

/-- All entries in one shard. -/
def oneShard : Shards := fun _ _ => 0

/-- `n` steps of a call. -/
def turns (i n : Nat) : List LockEvent := List.replicate n (.step i 0 false)

/-- After these events: how many guards each call keeps, and what it does. -/
def stages (l : List LockEvent) : List (Nat × Stage × Bool) :=
  (((Workshop.init (treeFs (treeM cs!"./a.js" 0) [])).after cfgCh serJson oneShard l).workers.map
    fun w => (w.guards.length, w.stage, w.over))

/-- Two calls for the same directory: the first is about to store what it has read. -/
def histLock : List LockEvent :=
  .start 0 (.sideEffects cs!"/p") 20 :: .start 0 (.sideEffects cs!"/p/sub") 20 :: turns 0 13

-- C66: the second call waits, however often it gets a turn, until the first has stored the entry
example : stages histLock = [(0, .inside, false), (0, .idle, false)] ∧
    stages (histLock ++ turns 1 9) = [(0, .inside, false), (0, .waiting, false)] ∧
    stages (histLock ++ turns 1 9 ++ turns 0 1 ++ turns 1 1) = [(0, .idle, true), (0, .inside, false)] := by
  decide +kernel

/-- One call has stored the entry; two more calls find it. -/
def histGuard : List LockEvent :=
  .start 0 (.sideEffects cs!"/p") 20 :: turns 0 20 ++
    .start 0 (.sideEffects cs!"/p") 20 :: .start 0 (.sideEffects cs!"/p") 20 :: turns 1 4 ++ turns 2 4

-- C66: guards for the same entry, kept at the same time
example : stages histGuard = [(0, .idle, true), (1, .idle, false), (1, .idle, false)] := by
  decide +kernel

-- C66: a fair sequence of events
example : FairFor 3 fun n => .step (n % 3) 0 true where
  closed := nofun
  turns := fun i hi m => ⟨3 * m + i, by omega, 0, true, by
    show LockEvent.step ((3 * m + i) % 3) 0 true = _
    rw [Nat.mul_add_mod, Nat.mod_eq_of_lt hi]⟩

/-- A call that keeps a guard and wants to write to the same shard. By C66 there is no such call; there would
be if the guard of src/description.rs:180 lived until the `insert` of line 225. -/
def stuck : Worker :=
  ⟨⟨0, noFs, .sideEffects cs!"/p", 20, .op (.putPkg cs!"/p" none) fun _ => .ret (.sideEffects (.ok none))⟩,
    [⟨⟨.pkg 0, 0⟩, cs!"/p", none⟩], .waiting⟩

-- C66: the model has deadlocks, so that there is something to prove
example (seed : Nat) (yield : Bool) :
    let s : Workshop := ⟨Shared.init, noFs, [stuck]⟩
    stuck.over = false ∧ s.next cfgCh serJson oneShard (.step 0 seed yield) = s := by
  exact ⟨rfl, rfl⟩

end Verif.Live
