import Verif.Model.Map
/-!
# Specification of conditional mappings
-/

namespace Verif

/-- What a depth-first scan of a conditional mapping comes to. -/
inductive CondResult where
  | noMatch
  | found (v : MV)
  | badDefault

/-- A key that is entered, if the keys before it gave no match. -/
def Enters (cond : Str → Prop) (k : Str) (rest : List (Str × MV)) : Prop :=
  k = cs!"default" ∧ rest = [] ∨ k ≠ cs!"default" ∧ cond k

/-- Depth-first scan in written order with the set `cond` of active conditions. -/
inductive Scan (cond : Str → Prop) : List (Str × MV) → CondResult → Prop where
  | nil : Scan cond [] .noMatch
  /-- a `default` that is not last -/
  | bad {v rest} : rest ≠ [] → Scan cond ((cs!"default", v) :: rest) .badDefault
  /-- a condition that is not active -/
  | skip {k v rest r} : k ≠ cs!"default" → ¬ cond k → Scan cond rest r →
      Scan cond ((k, v) :: rest) r
  /-- a target or an array of targets -/
  | leaf {k v rest} : Enters cond k rest → (∀ m, v ≠ .cond m) →
      Scan cond ((k, v) :: rest) (.found v)
  /-- a nested object that decides -/
  | into {k inner rest r} : Enters cond k rest → Scan cond inner r → r ≠ .noMatch →
      Scan cond ((k, .cond inner) :: rest) r
  /-- a nested object without match: go on after it -/
  | back {k inner rest r} : Enters cond k rest → Scan cond inner .noMatch → Scan cond rest r →
      Scan cond ((k, .cond inner) :: rest) r

mutual
/-- No object has a key twice, and no array is nested in an array (the Rust types ensure
both). -/
def MV.wf : MV → Bool
  | .direct _ => true
  | .arr l => wfItems l
  | .cond l => decide (l.map Prod.fst).Nodup && wfConds l
/-- See `MV.wf`. -/
def wfItems : List MV → Bool
  | [] => true
  | .arr _ :: _ => false
  | v :: l => v.wf && wfItems l
/-- See `MV.wf`. -/
def wfConds : List (Str × MV) → Bool
  | [] => true
  | (_, v) :: l => v.wf && wfConds l
end

end Verif
