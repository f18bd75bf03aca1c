import Verif.Spec.Cost
import Verif.Spec.Halts
/-!
# The number of steps of requests that lead into packages: words for the statements
-/

namespace Verif

/-- Packages whose fields lead to few places: exports and imports have at most `E` targets, none of which names an
import, and main fields lead from directory to directory at most `R` times in a row, each time at most
`d` levels down. `V` are the versions of the files. -/
structure Modest (o : Opts) (V : Fs → Prop) (E R d : Nat) : Prop where
  targets : ∀ fs v, V fs → IsField fs cs!"exports" v ∨ IsField fs cs!"imports" v →
    v.strings.length ≤ E ∧ ∀ t ∈ v.strings, NotHash t
  main : ∃ rank : Str → Nat, (∀ p, rank p ≤ R) ∧
    ∀ p' p, MainStepAmong o V p' p → rank p' < rank p ∧ depth p' ≤ depth p + d

/-- Steps in a directory, from which main fields lead on to other directories less than `r` times in a row. `l` are
the steps of the loader; there are `e` extensions, `f` main fields and `m` main files. -/
def dirSteps (l e f m : Nat) : Nat → Nat
  | 0 => 1
  | r + 1 => 1 + l + f * (e + 1 + dirSteps l e f m r) + m * (e + 1)

end Verif
