import Verif.Spec.Live
/-!
# Answers of calls between updates of the files
-/

namespace Verif.Live

/-- `resolve path request` of a resolver always comes to this answer when the files are `fs`: after any
history of calls and updates, a call that began with these files and is over has returned it (or the
model's fuel was too small; some amount is enough). -/
structure YieldsAmid (cfg : Nat → Config) (ser : Json → Str) (F : Fs → Prop) (fs : Fs) (rid : Nat)
    (path request : Str) (answer : Except Err Result) : Prop where
  right : ∀ fs₀ (l : List Event), F fs₀ → Turns cfg ser F (Sys.init fs₀) l →
    ∀ (i : Nat) (t : Task), ((Sys.init fs₀).after cfg ser l).tasks[i]? = some t → t.fs = fs →
    t.rid = rid → t.call = .resolve path request → ∀ o, outcome t.prog = some o →
    o = .crashed .fuel ∨ ∃ a, o = .done (.resolve a) ∧ AnsSim a answer
  enough : ∃ n, ∀ fs₀ (l : List Event), F fs₀ → Turns cfg ser F (Sys.init fs₀) l →
    ∀ (i : Nat) (t : Task), ((Sys.init fs₀).after cfg ser l).tasks[i]? = some t → t.fs = fs →
    t.rid = rid → t.call = .resolve path request → n ≤ t.fuel → ∀ o, outcome t.prog = some o →
    o ≠ .crashed .fuel

/-- The same for a call that never returns: it panics. -/
structure PanicsAmid (cfg : Nat → Config) (ser : Json → Str) (F : Fs → Prop) (fs : Fs) (rid : Nat)
    (path request : Str) (site : Site) : Prop where
  right : ∀ fs₀ (l : List Event), F fs₀ → Turns cfg ser F (Sys.init fs₀) l →
    ∀ (i : Nat) (t : Task), ((Sys.init fs₀).after cfg ser l).tasks[i]? = some t → t.fs = fs →
    t.rid = rid → t.call = .resolve path request → ∀ o, outcome t.prog = some o →
    o = .crashed .fuel ∨ o = .crashed (.panic site)
  enough : ∃ n, ∀ fs₀ (l : List Event), F fs₀ → Turns cfg ser F (Sys.init fs₀) l →
    ∀ (i : Nat) (t : Task), ((Sys.init fs₀).after cfg ser l).tasks[i]? = some t → t.fs = fs →
    t.rid = rid → t.call = .resolve path request → n ≤ t.fuel → ∀ o, outcome t.prog = some o →
    o ≠ .crashed .fuel

end Verif.Live
