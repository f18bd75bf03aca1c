import Verif.Model.Map
/-!
# What is written in `package.json`, as a map
-/

namespace Verif

mutual
/-- The JSON value is written for this map: strings are targets, lists are alternatives (not in each other), objects
are keys with what is written for them, in this order. -/
inductive MapRead : Json → MV → Prop where
  | target (t : Str) : MapRead (.str t) (.direct t)
  | list {l : List Json} {r : List MV} : ListRead l r → MapRead (.arr l) (.arr r)
  | object {l : List (Str × Json)} {m : List (Str × MV)} : (l.map Prod.fst).Nodup → FieldsRead l m →
      MapRead (.obj l) (.cond m)
/-- See `MapRead`. -/
inductive ListRead : List Json → List MV → Prop where
  | nil : ListRead [] []
  | cons {j : Json} {v : MV} {l : List Json} {r : List MV} : MapRead j v → (∀ a, v ≠ .arr a) → ListRead l r →
      ListRead (j :: l) (v :: r)
/-- See `MapRead`. -/
inductive FieldsRead : List (Str × Json) → List (Str × MV) → Prop where
  | nil : FieldsRead [] []
  | cons {k : Str} {j : Json} {v : MV} {l : List (Str × Json)} {m : List (Str × MV)} : MapRead j v →
      FieldsRead l m → FieldsRead ((k, j) :: l) ((k, v) :: m)
end

mutual
/-- The keys in each object are distinct. -/
def Json.uniqueKeys : Json → Bool
  | .arr l => uniqueItems l
  | .obj l => decide (l.map Prod.fst).Nodup && uniqueFields l
  | _ => true
/-- See `Json.uniqueKeys`. -/
def uniqueItems : List Json → Bool
  | [] => true
  | j :: l => j.uniqueKeys && uniqueItems l
/-- See `Json.uniqueKeys`. -/
def uniqueFields : List (Str × Json) → Bool
  | [] => true
  | (_, j) :: l => j.uniqueKeys && uniqueFields l
end

end Verif
