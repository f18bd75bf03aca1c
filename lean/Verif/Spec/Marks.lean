import Verif.Spec.Request
import Verif.Spec.Termination
import Verif.Spec.SideEffects
/-!
# Where the query and the fragment of a result come from
-/

namespace Verif

/-- A target of an exports or imports map, filled in: as it is, with some text after its final `/`, or
with some text for every `*`. -/
inductive Filled (t : Str) : Str → Prop where
  | asIs : Filled t t
  | folder (x : Str) : t.getLast? = some '/' → Filled t (t ++ x)
  | star (x : Str) : Filled t (t.flatMap fun c => if c = '*' then x else [c])

/-- Where a query and a fragment come from: the request, or a target of an exports or imports map of some
description file of the file systems `F`, or nowhere, with a tsconfig. -/
inductive MarksFrom (o : Opts) (F : Fs → Prop) (request query fragment : Str) : Prop where
  | request (target : Str) : IsSplit request target query fragment → MarksFrom o F request query fragment
  | mapped (fs : Fs) (name : Str) (v : Json) (t s target : Str) : F fs →
      name = cs!"exports" ∨ name = cs!"imports" → IsField fs name v → t ∈ v.strings → Filled t s →
      IsSplit s target query fragment → MarksFrom o F request query fragment
  | paths : o.tsconfig ≠ none → query = [] → fragment = [] → MarksFrom o F request query fragment

/-- Targets that no text is filled in for, without query and fragment. -/
def PlainTarget (t : Str) : Prop := '?' ∉ t ∧ '#' ∉ t.tail ∧ '*' ∉ t ∧ t.getLast? ≠ some '/'

end Verif
