import Verif.Proofs.Loader
/-!
# Which errors come from where
-/

namespace Verif

theorem assertRequest_err {k : FieldKind} {r : Str} {err : Err}
    (h : assertRequest k r = .error err) : err.fromField = true := by
  unfold assertRequest at h
  cases k <;> simp only at h <;> repeat' (split at h)
  all_goals first | (cases h; rfl) | cases h

theorem assertTarget_err {k : FieldKind} {t : Str} {b : Bool} {err : Err}
    (h : assertTarget k t b = .error err) : err.fromField = true := by
  unfold assertTarget at h
  cases k <;> simp only at h <;> repeat' (split at h)
  all_goals first | (cases h; rfl) | cases h

theorem targetMapping_err {k : FieldKind} {rem : Option Str} {sub : Bool} {t : Str} {err : Err}
    (h : targetMapping k rem sub t = .error err) : err.fromField = true := by
  unfold targetMapping at h
  split at h
  · rename_i he
    cases h
    exact assertTarget_err he
  · repeat' (split at h)
    all_goals first | (cases h; rfl) | cases h

theorem condLoop_err {names : List Str} {n : Nat}
    {st : List (List (Str × MV) × List Str × Nat)} {err : Err}
    (h : condLoop names n st = some (.error err)) : err = .defaultNotLast := by
  induction n generalizing st with
  | zero => cases h
  | succ n ih =>
    cases st with
    | nil => cases h
    | cons s st =>
      obtain ⟨m, ks, j⟩ := s
      unfold condLoop at h
      split at h
      · cases h; rfl
      · cases h
      · exact ih h
      · exact ih h

theorem mapping_err_aux {k : FieldKind} {rem : Option Str} {sub : Bool} {names : List Str}
    (n : Nat) :
    (∀ v err, mapping k rem sub names n v = some (.error err) → err.fromField = true) ∧
    ∀ l err, mappingArr k rem sub names n l = some (.error err) → err.fromField = true := by
  induction n with
  | zero =>
    constructor
    · intro v err h
      unfold mapping at h; cases h
    · intro l err h
      unfold mappingArr at h; cases h
  | succ n ih =>
    constructor
    · intro v err h
      cases v with
      | direct t =>
        unfold mapping at h
        split at h
        · rename_i he; cases h; exact targetMapping_err he
        · cases h
      | arr l => unfold mapping at h; exact ih.2 l err h
      | cond m =>
        unfold mapping at h
        split at h
        · cases h
        · rename_i he
          cases h
          have := condLoop_err he
          subst this; rfl
        · cases h
        · exact ih.1 _ err h
    · intro l err h
      cases l with
      | nil => unfold mappingArr at h; cases h
      | cons v l =>
        unfold mappingArr at h
        split at h
        · cases h
        · rename_i he; cases h; exact ih.1 _ _ he
        · split at h
          · cases h
          · rename_i he; cases h; exact ih.2 _ _ he
          · cases h

theorem fieldProcess_err {k : FieldKind} {root : Node} {t : Str} {names : List Str} {err : Err}
    (h : fieldProcess k root t names = some (.error err)) : err.fromField = true := by
  unfold fieldProcess at h
  split at h
  · rename_i he; cases h; exact assertRequest_err he
  · split at h
    · cases h
    · exact (mapping_err_aux _).1 _ _ h

/-- Errors other than "Resolve … failed in …". -/
def Err.other : Err → Prop
  | .failed _ _ => False
  | _ => True

theorem Err.other_of_load {e : Err} (h : e.fromLoad = true) : e.other := by
  cases e <;> first | trivial | cases h

theorem Err.other_of_field {e : Err} (h : e.fromField = true) : e.other := by
  cases e <;> first | trivial | cases h

/-- Only the marker renders as the marker: comparing message texts (src/lib.rs:248,
src/resolve.rs:101) is comparing structured errors. -/
theorem render_eq_tag (pj : Json → Str) (e : Err) : e.render pj = cs!"T0" ↔ e.isTag = true := by
  constructor
  · intro h
    have hl := congrArg List.length h
    cases e <;> simp [Err.render] at hl ⊢ <;> first | omega | rfl
  · intro h
    cases e <;> first | rfl | cases h

end Verif
