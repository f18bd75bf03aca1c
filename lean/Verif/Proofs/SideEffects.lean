import Verif.Spec.SideEffects
/-!
# The sideEffects entry
-/

namespace Verif

theorem sideEffectsLoop_iff (path : Str) (l : List Json) (r : List Str) :
    sideEffectsLoop path l = .ok r ↔ l = r.map .str := by
  induction l generalizing r with
  | nil =>
    unfold sideEffectsLoop
    constructor
    · intro h; cases h; rfl
    · intro h
      cases r with
      | nil => rfl
      | cons _ _ => cases h
  | cons v l ih =>
    unfold sideEffectsLoop
    cases v with
    | str s =>
      simp only [Json.asStr]
      constructor
      · intro h
        split at h
        · cases h
        · rename_i r' hr'
          cases h
          rw [(ih r').1 hr']
          rfl
      · intro h
        cases r with
        | nil => cases h
        | cons s' r =>
          simp only [List.map_cons, List.cons.injEq, Json.str.injEq] at h
          obtain ⟨rfl, h⟩ := h
          rw [(ih r).2 h]
    | _ =>
      simp only [Json.asStr]
      constructor
      · nofun
      · intro h; cases r <;> simp at h

theorem parseSideEffects_iff (path : Str) (json : Json) (se : Option SideEffects) :
    parseSideEffects path json = .ok se ↔ SideEffectsIs json se := by
  unfold parseSideEffects SideEffectsIs
  cases json.get cs!"sideEffects" with
  | none =>
    cases se with
    | none => simp
    | some s => cases s <;> simp
  | some v =>
    cases v with
    | bool b =>
      cases se with
      | none => simp [Json.asBool]
      | some s => cases s <;> simp [Json.asBool]
    | arr a =>
      simp only [Json.asBool, Json.asArr]
      cases se with
      | none =>
        simp only [reduceCtorEq, iff_false]
        split <;> simp
      | some s =>
        cases s with
        | bool b =>
          simp only [Option.some.injEq, reduceCtorEq, iff_false]
          split <;> simp
        | array r =>
          simp only [Option.some.injEq, Json.arr.injEq]
          rw [← sideEffectsLoop_iff path]
          split
          · rename_i h; simp [h]
          · rename_i h; simp [h]
    | _ =>
      simp only [Json.asBool, Json.asArr]
      cases se with
      | none => simp
      | some s => cases s <;> simp

end Verif
