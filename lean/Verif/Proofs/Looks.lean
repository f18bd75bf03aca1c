import Verif.Spec.Looks
import Verif.Proofs.Watched
import Verif.Proofs.LiveHistory
/-!
# The looks of calls at files: proofs
-/

namespace Verif

/-- `fs` with other times. -/
def Fs.withTimes (fs : Fs) (m : Str → Option Nat) : Fs := { fs with mtime := m }

section
variable (o : Opts) (fs : Fs) (debug : Bool) (m : Str → Option Nat)

set_option smartUnfolding false in
/-- Beyond the description files, times are not looked at. -/
theorem resolveCtx_times (load : Str → Prog (Except Err (Option Pkg))) (n : Nat) (path request : Str) :
    resolveCtx ⟨o, fs.withTimes m, debug, load⟩ n path request = resolveCtx ⟨o, fs, debug, load⟩ n path request := by
  with_unfolding_all rfl

theorem pure_times (hm : ∀ p, (m p).isSome = (fs.mtime p).isSome) (cfg : Config) (n : Nat) (call : Call) :
    call.pure cfg (fs.withTimes m) n = call.pure cfg fs n := by
  have hw : SameAt (fun _ => True) fs (fs.withTimes m) :=
    ⟨fun _ _ => rfl, fun _ _ => rfl, fun _ _ => rfl, fun p _ => hm p, fun _ _ => rfl⟩
  have h : findPkg (fs.withTimes m) cfg.opts.descriptionFile = findPkg fs cfg.opts.descriptionFile :=
    funext fun q => findPkg_above (o := cfg.opts) hw (fun _ _ => trivial) fun _ _ _ _ => trivial
  unfold Call.pure
  cases call with
  | resolve path request =>
    dsimp only
    have e : resolveCtx (pureCtx cfg.opts (fs.withTimes m) cfg.debug) n path request =
        resolveCtx (pureCtx cfg.opts fs cfg.debug) n path request := by
      unfold pureCtx
      rw [h]
      exact resolveCtx_times _ _ _ _ _ _ _ _
    rw [e]
  | sideEffects path =>
    dsimp only
    unfold findSideEffects
    rw [h]

theorem static_times {cfg : Nat → Config} {ser : Json → Str} (hs : Static cfg ser fs)
    (h : ∀ p q, isAbs p = true → Sim p q → m p = m q) : Static cfg ser (fs.withTimes m) where
  lawful := { hs.lawful with mtime := h }
  debug := hs.debug
  inj := hs.inj
  mix := hs.mix
  desc := hs.desc
  browser := hs.browser
  tsconfig := hs.tsconfig

end

namespace Live

variable {cfg : Nat → Config} {ser : Json → Str} {fs fs' : Fs}

theorem after_still {l : List Event} (hl : ∀ e ∈ l, ∀ f, e ≠ .change f) (s : Sys) : (s.after cfg ser l).fs = s.fs := by
  induction l generalizing s with
  | nil => rfl
  | cons e l ih =>
    refine (ih (fun e he => hl e (List.mem_cons_of_mem _ he)) _).trans ?_
    cases e with
    | change f => exact (hl _ List.mem_cons_self f rfl).elim
    | start rid call fuel => rfl
    | step i seed =>
      unfold Sys.next
      dsimp only
      split
      · rfl
      · split <;> rfl

/-- The call with other files to start with. -/
def Task.from (f : Fs) (t : Task) : Task := { t with fs := f }

/-- The history without the changes of files. -/
def unchanging (l : List Event) : List Event :=
  l.filter fun e => match e with
    | .change _ => false
    | _ => true

/-- The same history on other files, that give the same answers to all looks. -/
theorem replay (l : List Event) (h : ∀ i q r, Looked cfg ser fs l i q r → q.answer fs' = r) :
    ((Sys.init fs').after cfg ser (unchanging l)).shared = ((Sys.init fs).after cfg ser l).shared ∧
    ((Sys.init fs').after cfg ser (unchanging l)).fs = fs' ∧
    ((Sys.init fs').after cfg ser (unchanging l)).tasks = ((Sys.init fs).after cfg ser l).tasks.map (Task.from fs') := by
  have key : ∀ n, n ≤ l.length →
      ((Sys.init fs').after cfg ser (unchanging (l.take n))).shared = ((Sys.init fs).after cfg ser (l.take n)).shared ∧
      ((Sys.init fs').after cfg ser (unchanging (l.take n))).fs = fs' ∧
      ((Sys.init fs').after cfg ser (unchanging (l.take n))).tasks =
        ((Sys.init fs).after cfg ser (l.take n)).tasks.map (Task.from fs') := by
    intro n
    induction n with
    | zero => exact fun _ => ⟨rfl, rfl, rfl⟩
    | succ n ih =>
      intro hn
      obtain ⟨h1, h2, h4⟩ := ih (by omega)
      have hlt : n < l.length := by omega
      have hsplit : l = l.take n ++ l[n] :: l.drop (n + 1) := by
        rw [← List.drop_eq_getElem_cons hlt, List.take_append_drop]
      have hloo : ∀ i seed t q k, l[n] = .step i seed → ((Sys.init fs).after cfg ser (l.take n)).tasks[i]? = some t →
          t.prog = .ask q k → q.answer fs' = q.answer ((Sys.init fs).after cfg ser (l.take n)).fs := by
        intro i seed t q k he ht hk
        exact h i q _ ⟨l.take n, seed, l.drop (n + 1), t, k, by rw [← he]; exact hsplit, ht, hk, rfl⟩
      have hafter : (Sys.init fs).after cfg ser (l.take (n + 1)) =
          ((Sys.init fs).after cfg ser (l.take n)).next cfg ser l[n] := by
        rw [← List.take_append_getElem hlt]
        unfold Sys.after
        rw [List.foldl_append]
        rfl
      have hafter' : (Sys.init fs').after cfg ser (unchanging (l.take (n + 1))) =
          ((Sys.init fs').after cfg ser (unchanging (l.take n))).after cfg ser (unchanging [l[n]]) := by
        rw [← List.take_append_getElem hlt]
        unfold Sys.after unchanging
        rw [List.filter_append, List.foldl_append]
      rw [hafter, hafter']
      generalize (Sys.init fs).after cfg ser (l.take n) = s at h1 h4 hloo ⊢
      generalize (Sys.init fs').after cfg ser (unchanging (l.take n)) = s' at h1 h2 h4 ⊢
      generalize l[n] = e at hloo ⊢
      cases e with
      | change f => exact ⟨h1, h2, h4⟩
      | start rid call fuel =>
        refine ⟨h1, h2, ?_⟩
        show s'.tasks ++ _ = (s.tasks ++ _).map _
        rw [h4, List.map_append, h2]
        rfl
      | step i seed =>
        show (s'.next cfg ser (.step i seed)).shared = _ ∧ (s'.next cfg ser (.step i seed)).fs = _ ∧
          (s'.next cfg ser (.step i seed)).tasks = _
        unfold Sys.next
        dsimp only
        rw [h4, List.getElem?_map]
        cases ht : s.tasks[i]? with
        | none => exact ⟨h1, h2, h4⟩
        | some t =>
          dsimp only [Option.map_some, Task.from]
          cases hp : t.prog with
          | ret a => exact ⟨h1, h2, h4⟩
          | crash c => exact ⟨h1, h2, h4⟩
          | ask q k =>
            dsimp only
            refine ⟨h1, h2, ?_⟩
            rw [List.map_set, h2, ← hloo i seed t q k rfl ht hp]
            rfl
          | op o k =>
            dsimp only
            rw [h1]
            refine ⟨rfl, h2, ?_⟩
            rw [List.map_set]
            rfl
  have := key l.length (Nat.le_refl _)
  rw [List.take_length] at this
  exact this

end Live
end Verif
