import Verif.Spec.Current
import Verif.Spec.Live
/-!
# Calls that have seen some version of the files
-/

namespace Verif.Live

/-- In the history `l`, in which files come and go at any moment, the call `i` is `t`, and has seen the files `fs1`: what
it looked at was as it is there. Description files keep their places and contents, as in C96. -/
structure SeesFiles (cfg : Nat → Config) (fs : Fs) (l : List Event) (i : Nat) (t : Task) (fs1 : Fs) : Prop where
  static : Static cfg serJson fs1
  task : ((Sys.init fs).after cfg serJson l).tasks[i]? = some t
  look : ∀ q r, Looked cfg serJson fs l i q r → q.answer fs1 = r
  kept : ∀ desc, (cfg t.rid).opts.descriptionFile = some desc → Kept (Versions fs l) fs1 desc
  place : ∀ desc, (cfg t.rid).opts.descriptionFile = some desc → InPlace (Versions fs l) fs1 desc
  mix : NeverMix (Versions fs l) fs1

end Verif.Live
