import Verif.Proofs.LiveSuccess
/-!
# When the loader comes to an end while files change
-/

namespace Verif.Live

section
variable {h : Host} {A : (q : Query) → q.Ret → Prop} {G : Op → Prop} {R : (o : Op) → o.Ret → Prop}
  {C : Crash → Prop}

/-- Looks at directories are answered by `D`, and what is above a directory is one. -/
structure DirsStay (A : (q : Query) → q.Ret → Prop) (D : Str → Bool) : Prop where
  same : ∀ p b, isAbs p = true → A (.isDir p) b → b = D p
  up : ∀ p q, isAbs p = true → D p = true → pparent p = some q → D q = true

/-- The negative-cache loop comes to its end if directories stay. -/
theorem cacheNone_stay {D : Str → Bool} (hD : DirsStay A D) (hG : ∀ d, G (.putPkg d none))
    (n : Nat) (path : Str) (ha : isAbs path = true) (hp : D path = true) (hn : path.length < n) :
    (cacheNone n path).Sat A G R C (fun r => r = .ok none) := by
  induction n generalizing path with
  | zero => omega
  | succ n ih =>
    rw [cacheNone]
    refine sat_isDir fun b hb => ?_
    rw [hD.same _ _ ha hb, hp]
    refine ⟨hG _, fun _ _ => ?_⟩
    dsimp only
    split
    · rename_i q hq
      exact ih q ((isAbs_pparent hq).trans ha) (hD.up _ _ ha hp hq) (by have := pparent_length hq; omega)
    · rfl

theorem loop_stay {D : Str → Bool} (hD : DirsStay A D) (path : Str) (ha : isAbs path = true)
    (hp : A (.isDir path) true) :
    (cacheNone (path.length + 1 + h.spin) path).Sat A KeyG KeyR C fun r => r = .ok none :=
  cacheNone_stay hD (fun _ => trivial) _ _ ha (hD.same _ _ ha hp).symm (by omega)

theorem load_stay {D : Str → Bool} (hD : DirsStay A D) (path : Str) (ha : isAbs path = true) :
    (loadPkg h path).Sat A KeyG KeyR (· ≠ .hang) (fun _ => True) :=
  (load_dir path (fun p => isAbs p = true) (fun _ _ h1 h2 => h2.2.trans h1) ha (fun _ _ => nofun)
    nofun (loop_stay hD)).mono fun _ _ => trivial

/-- No call spins if directories stay. -/
theorem prog_stay {D : Str → Bool} (hD : DirsStay A D) (fuel : Nat) {call : Call} (ha : call.abs)
    (ht : ∀ l, h.opts.tsconfig = some l → isAbs l = true)
    (hr : Ends A KeyR (Live.prog h fuel call) (.crashed .hang)) : False := by
  refine Sat.crash (G := KeyG) (C := (· ≠ .hang)) (P := fun _ => True) ?_ hr rfl
  cases call with
  | resolve path request =>
    unfold Live.prog
    refine Sat.bind (P := fun _ => True) ?_ fun _ _ => trivial
    unfold resolve
    refine Sat.bind (stats_abs (abs_inv h (fun _ _ => nofun) nofun (loop_stay hD)) fuel path request ha
      ht) fun s hs => ?_
    cases s with
    | error err j => trivial
    | resolving j => exact hs.elim
    | success r => exact (normalizeResult_was r fun _ _ _ => nofun).mono fun _ _ => trivial
  | sideEffects path =>
    unfold Live.prog
    refine Sat.bind (P := fun _ => True) ?_ fun _ _ => trivial
    unfold loadSideEffects
    refine Sat.bind (load_stay hD path ha) fun s _ => ?_
    rcases s with e | (_ | pkg)
    · trivial
    · trivial
    · dsimp only
      split
      · exact nofun
      · trivial

/-- The loader comes to its end if directories stay, and the answers for description files are those of
`F`. -/
theorem loadAux_ends {D : Str → Bool} (hD : DirsStay A D) {desc : Str}
    (hdesc : h.opts.descriptionFile = some desc) {F : Str → Bool}
    (hF : ∀ d b, isAbs d = true → A (.isFile (pjoin d desc)) b → b = F d) (n : Nat) (path : Str)
    (ha : isAbs path = true) (hn : path.length < n) :
    (loadPkgAux h n path).Sat A (fun _ => True) (fun _ _ => True) (fun c => c ≠ .hang ∧ c ≠ .fuel)
      (fun _ => True) := by
  induction n generalizing path with
  | zero => omega
  | succ n ih =>
    rw [loadPkgAux, hdesc]
    refine sat_isDir fun b hb => ?_
    cases b with
    | false =>
      cases hd : pparent path with
      | some dir => exact ih dir ((isAbs_pparent hd).trans ha) (by have := pparent_length hd; omega)
      | none => trivial
    | true =>
      have hps : (parseAndStore h path (pjoin path desc)).Sat A (fun _ => True) (fun _ _ => True)
          (fun c => c ≠ .hang ∧ c ≠ .fuel) (fun _ => True) := by
        unfold parseAndStore
        refine Sat.bind (parse_sat (fun _ _ => trivial)
          (fun c hc => ⟨by rintro rfl; exact hc, by rintro rfl; exact hc⟩)
          (fun _ => ⟨nofun, nofun⟩) path (pjoin path desc)) fun r _ => ?_
        cases r with
        | error err => trivial
        | ok pkg => exact ⟨trivial, fun _ _ => trivial⟩
      refine ⟨trivial, fun r hr => ?_⟩
      cases r with
      | some cached =>
        refine Sat.bind (needUpdate_sat (fun _ => trivial) _) fun u hu => ?_
        rcases u with e | (_ | _)
        · exact fun _ _ => trivial
        · exact fun _ _ => trivial
        · dsimp only
          split
          · exact ⟨trivial, fun _ _ _ _ => hps⟩
          · exact fun _ _ => hps
      | none =>
        refine sat_isFile fun b hf => ?_
        cases b with
        | false =>
          refine Sat.bind (findUp_sat desc _ path) fun r hr => ?_
          cases r with
          | some dir =>
            obtain ⟨h0, h1, h2⟩ := hr dir rfl
            refine ih dir (h0.2.trans ha) (h1.elim (fun he => ?_) fun h => by omega)
            subst he
            exact absurd ((hF _ _ ha hf).trans (hF _ _ ha h2).symm) Bool.false_ne_true
          | none =>
            exact (cacheNone_stay hD (fun _ => trivial) _ _ ha (hD.same _ _ ha hb).symm (by omega)).mono
              fun _ _ => trivial
        | true => exact hps

theorem sideEffects_ends {D : Str → Bool} (hD : DirsStay A D) {F : Str → Bool}
    (hF : ∀ desc, h.opts.descriptionFile = some desc → ∀ d b, isAbs d = true →
      A (.isFile (pjoin d desc)) b → b = F d)
    (fuel : Nat) (path : Str) (ha : isAbs path = true) {c : Crash}
    (hr : Ends A R (Live.prog h fuel (.sideEffects path)) (.crashed c)) : c ≠ .hang ∧ c ≠ .fuel := by
  refine Sat.crash (G := fun _ => True) (C := fun c => c ≠ .hang ∧ c ≠ .fuel) (P := fun _ => True) ?_
    (hr.mono (R' := fun _ _ => True) (fun _ _ h => h) fun _ _ _ => trivial)
  unfold Live.prog
  refine Sat.bind (P := fun _ => True) ?_ fun _ _ => trivial
  unfold loadSideEffects
  refine Sat.bind (P := fun _ => True) ?_ fun s _ => ?_
  · unfold loadPkg
    cases hd : h.opts.descriptionFile with
    | none =>
      rw [show path.length + 1 + h.spin = (path.length + h.spin) + 1 by omega, loadPkgAux, hd]
      trivial
    | some desc => exact loadAux_ends hD hd (hF desc hd) _ path ha (by omega)
  · rcases s with e | (_ | pkg)
    · trivial
    · trivial
    · dsimp only
      split
      · exact ⟨nofun, nofun⟩
      · trivial

/-! ## Spinning -/

theorem set_zero {α : Type} (a b : α) : [a].set 0 b = [b] := rfl

/-- A call that is caught in the negative-cache loop. -/
theorem spin_steps {cfg : Nat → Config} {ser : Json → Str} {p : Str} (k : Nat) :
    ∀ (s : Sys) (t : Task) (n : Nat) (f : Except Err (Option Pkg) → Live Answer),
      s.tasks = [t] → s.fs.isDir p = false → t.prog = (cacheNone n p).bind f →
      ∃ t', (s.after cfg ser (List.replicate k (.step 0 0))).tasks = [t'] ∧
        (t'.prog = (cacheNone (n - k) p).bind f) := by
  induction k with
  | zero => exact fun s t n f h1 h2 h3 => ⟨t, h1, h3⟩
  | succ k ih =>
    intro s t n f h1 h2 h3
    rw [List.replicate_succ]
    show ∃ t', ((s.next cfg ser (.step 0 0)).after cfg ser (List.replicate k (.step 0 0))).tasks = [t'] ∧ _
    have h0 : s.tasks[0]? = some t := by rw [h1]; rfl
    cases n with
    | zero =>
      have : s.next cfg ser (.step 0 0) = s := by
        simp only [Sys.next, h0, h3, cacheNone, bind]
      rw [this]
      obtain ⟨t', h4, h5⟩ := ih s t 0 f h1 h2 h3
      exact ⟨t', h4, by rw [h5]; congr 2; omega⟩
    | succ n =>
      have hq : Query.answer s.fs (.isDir p) = false := h2
      have : s.next cfg ser (.step 0 0) =
          { s with tasks := [{ t with prog := (cacheNone n p).bind f }] } := by
        simp only [Sys.next, h0, h3, cacheNone, isDir, bind]
        rw [hq, h1]
        rfl
      rw [this]
      obtain ⟨t', h4, h5⟩ := ih { s with tasks := [{ t with prog := (cacheNone n p).bind f }] } _ n f rfl h2 rfl
      exact ⟨t', h4, by rw [h5]; congr 2; omega⟩

end
end Verif.Live
