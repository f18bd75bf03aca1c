import Verif.Spec.Unused
import Verif.Spec.Clear
/-!
# The order of options, and entries that are repeated
-/

namespace Verif

/-- The aliases that apply to a target, in their order. -/
def applying (l : List (Str × AliasMap)) (target : Str) : List (Str × AliasMap) :=
  l.filter fun kv => decide (kv.1 <+: target)

/-- Options that differ only in what says nothing: for every target the same aliases apply in the same order,
the condition names are the same, and `enforce_extension` is on in both or in neither, where unset is off. -/
structure SameOptions (o o' : Opts) : Prop where
  alias : ∀ target, applying o'.alias target = applying o.alias target
  conditions : ∀ k, k ∈ o'.conditionNames ↔ k ∈ o.conditionNames
  enforce : o'.enforceExtension.getD false = o.enforceExtension.getD false
  rest : { o' with
    alias := o.alias, conditionNames := o.conditionNames, enforceExtension := o.enforceExtension } = o

/-- The same for resolvers. -/
structure SameConfig (a b : Config) : Prop where
  opts : SameOptions a.opts b.opts
  rest : { b with opts := a.opts } = a

/-- Options that differ only in aliases, by entries that repeat an earlier one, for every target. -/
structure RepeatedAliases (o o' : Opts) : Prop where
  alias : ∀ target, (applying o'.alias target).eraseDups = (applying o.alias target).eraseDups
  rest : { o' with alias := o.alias } = o

end Verif
