import Verif.Spec.Static
import Verif.Model.Ser
/-!
# Specification of the compiled maps that are kept
-/

namespace Verif

/-- The tree that belongs to the value of a field. -/
def OwnTree (k : FieldKind) (field : Option Json) (t : Option Node) : Prop :=
  match field with
  | none => t = none
  | some v => ∃ n, t = some n ∧ buildTree k v = some (.ok n)

/-- A tree and the text it is stored under: the text of a field of a file, from which the tree is built. -/
def TreeText (F : Fs → Prop) (key : Str) (t : Node) : Prop :=
  ∃ fs v, F fs ∧ key = serJson v ∧
    (IsField fs cs!"exports" v ∧ buildTree .exports v = some (.ok t) ∨
      IsField fs cs!"imports" v ∧ buildTree .imports v = some (.ok t))

/-- The trees of a package are built from its own values, but for an exports value that is also the imports value of
some file: then the tree may be that of imports. -/
structure OwnTrees (F : Fs → Prop) (p : Pkg) : Prop where
  imports : OwnTree .imports (p.raw.get cs!"imports") p.importsTree
  exports : OwnTree .exports (p.raw.get cs!"exports") p.exportsTree ∨
    OwnTree .imports (p.raw.get cs!"exports") p.exportsTree ∧
      ∃ fs v, F fs ∧ p.raw.get cs!"exports" = some v ∧ IsField fs cs!"imports" v

end Verif
