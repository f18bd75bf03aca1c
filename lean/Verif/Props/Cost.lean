import Verif.Proofs.Cost
import Verif.Props.Live
import Verif.Props.Reads
/-!
# Properties of the number of steps: C76
-/

namespace Verif.Live

variable {cfg : Nat → Config} {ser : Json → Str} {fs : Fs}

theorem bound_crash {α : Type} {A : (q : Query) → q.Ret → Prop} {R : (o : Op) → o.Ret → Prop}
    {K : Crash → Prop} {Q : α → Nat → Prop} {p : Live α} {n : Nat} {c : Crash} (h : Bound A R K Q p n)
    (hp : outcome p = some (.crashed c)) : K c := by
  cases p with
  | ret a => cases hp
  | crash c' => cases hp; exact h
  | ask q k => cases hp
  | op o k => cases hp

/-- The files after a history satisfy what the ones before it and all later ones satisfy. -/
theorem after_fs {P : Fs → Prop} (l : List Event) (s : Sys) (h : P s.fs) (hl : ∀ fs', .change fs' ∈ l → P fs') :
    P (s.after cfg ser l).fs := by
  induction l generalizing s with
  | nil => exact h
  | cons e l ih =>
    refine ih _ ?_ fun fs' h => hl fs' (List.mem_cons_of_mem _ h)
    cases e with
    | start rid call fuel => exact h
    | change fs' => exact hl fs' List.mem_cons_self
    | step i seed =>
      unfold Sys.next
      dsimp only
      split
      · exact h
      · split <;> exact h

/-- The number of calls never gets smaller. -/
theorem tasks_grow (l : List Event) (s : Sys) : s.tasks.length ≤ (s.after cfg ser l).tasks.length := by
  induction l generalizing s with
  | nil => exact Nat.le_refl _
  | cons e l ih =>
    refine Nat.le_trans ?_ (ih _)
    cases e with
    | start rid call fuel => simp [Sys.next]
    | change fs' => exact Nat.le_refl _
    | step i seed =>
      unfold Sys.next
      dsimp only
      split
      · exact Nat.le_refl _
      · split <;> simp

/-- While a call is in progress the files are as they are from its start on. -/
theorem during_start {P : Fs → Prop} {l1 l2 : List Event} {rid fuel : Nat} {call : Call}
    (h0 : P ((Sys.init fs).after cfg ser l1).fs) (hl : ∀ fs', .change fs' ∈ l2 → P fs') {fs' : Fs}
    (h : During cfg ser fs (l1 ++ .start rid call fuel :: l2) ((Sys.init fs).after cfg ser l1).tasks.length fs') :
    P fs' := by
  obtain ⟨l3, l4, he, rfl, t, ht, -⟩ := h
  have hlt := (List.getElem?_eq_some_iff.1 ht).1
  rcases List.append_eq_append_iff.1 he with ⟨a, h1, h2⟩ | ⟨a, h1, -⟩
  · subst h1
    rw [after_append]
    refine after_fs a _ h0 fun fs' hfs' => ?_
    cases a with
    | nil => cases hfs'
    | cons e a =>
      obtain ⟨rfl, rfl⟩ : .start rid call fuel = e ∧ l2 = a ++ l4 := by
        simpa using h2
      rcases List.mem_cons.1 hfs' with h | h
      · cases h
      · exact hl fs' (List.mem_append_left _ h)
  · have := tasks_grow (cfg := cfg) (ser := ser) a ((Sys.init fs).after cfg ser l3)
    rw [← after_append, ← h1] at this
    omega

/-- A call with a bound is over after so many steps of its own. -/
theorem bound_ended {A : (q : Query) → q.Ret → Prop} {R : (o : Op) → o.Ret → Prop} {K : Crash → Prop}
    {Ok : Fs → Prop} {P : Shared → Prop} (hA : ∀ fs q, Ok fs → A q (q.answer fs))
    (hP : ∀ (s : Shared) rid o seeds, P s → P (s.store cfg rid (Op.exec (s.view cfg rid seeds) o).2))
    {rid : Nat} (hR : ∀ (s : Shared) seeds o, P s → R o (Op.exec (s.view cfg rid seeds) o).1)
    (l1 l2 : List Event) (h0 : Ok ((Sys.init fs).after cfg ser l1).fs) (hl : ∀ fs', .change fs' ∈ l2 → Ok fs')
    (hs : P ((Sys.init fs).after cfg ser l1).shared) (call : Call) (fuel : Nat) (n : Nat)
    (hb : Bound A R K (fun _ _ => True) (Live.prog (host (cfg rid) ser fuel) fuel call) n)
    (hn : n ≤ stepsOf ((Sys.init fs).after cfg ser l1).tasks.length l2) :
    ∃ x, ((Sys.init fs).after cfg ser (l1 ++ .start rid call fuel :: l2)).ended
      ((Sys.init fs).after cfg ser l1).tasks.length = some x ∧ ∀ c, x = .crashed c → K c := by
  rw [after_append]
  generalize (Sys.init fs).after cfg ser l1 = s at *
  obtain ⟨t, ht, hb⟩ := bound_after (ser := ser) hA hP hR (i := s.tasks.length) l2 hl (s.next cfg ser (.start rid call fuel)) h0 hs
    ⟨rid, s.fs, call, fuel, Live.prog (host (cfg rid) ser fuel) fuel call⟩ (by simp [Sys.next]) rfl n hb
  rw [Nat.sub_eq_zero_of_le hn] at hb
  obtain ⟨x, hx⟩ := bound_over hb
  refine ⟨x, ?_, ?_⟩
  · show Sys.ended (Sys.after cfg ser _ l2) _ = _
    unfold Sys.ended
    rw [ht]
    exact hx
  · rintro c rfl
    exact bound_crash hb hx

/-- C76: `load_side_effects` ends after at most `5 * depth path + 18` steps of its own, whatever other calls
do in the meantime, if the directories and the places of description files stay as they are from its start
on. Contents and times may change at any moment. -/
theorem C76_linear (l1 l2 : List Event) (rid fuel : Nat) (path : Str) (ha : isAbs path = true)
    (D F : Str → Bool) (hup : ∀ p q, isAbs p = true → D p = true → pparent p = some q → D q = true)
    (h0 : Layout (cfg rid).opts.descriptionFile D F ((Sys.init fs).after cfg ser l1).fs)
    (hl : ∀ fs', .change fs' ∈ l2 → Layout (cfg rid).opts.descriptionFile D F fs')
    (hn : 5 * depth path + 18 ≤ stepsOf ((Sys.init fs).after cfg ser l1).tasks.length l2) :
    ∃ x, ((Sys.init fs).after cfg ser (l1 ++ .start rid (.sideEffects path) fuel :: l2)).ended
        ((Sys.init fs).after cfg ser l1).tasks.length = some x ∧
      x ≠ .crashed .hang ∧ x ≠ .crashed .fuel := by
  obtain ⟨x, hx, hk⟩ := bound_ended (A := fun q r => ∃ fs', Layout (cfg rid).opts.descriptionFile D F fs' ∧
      q.answer fs' = r) (R := fun _ _ => True) (K := fun c => ∃ s, c = .panic s) (P := fun _ => True)
    (fun fs q h => ⟨fs, h, rfl⟩) (fun _ _ _ _ _ => trivial) (fun _ _ _ _ => trivial) l1 l2 h0 hl trivial
    (.sideEffects path) fuel _ (sideEffects_bound (fun s => ⟨s, rfl⟩) (loadPkgAux_bound (D := D) (F := F)
      (fun s => ⟨s, rfl⟩) (by rintro d b hd ⟨fs', h, rfl⟩; exact h.isDir d hd)
      (by rintro name d b hname hd ⟨fs', h, rfl⟩; exact h.isFile d name hname hd) hup _ path ha
      (Nat.le_trans (depth_le ha) (Nat.le_add_right ..)) _ (Nat.le_refl _)) _) hn
  refine ⟨x, hx, ?_, ?_⟩ <;>
  · rintro rfl
    obtain ⟨s, hs⟩ := hk _ rfl
    cases hs

/-- C76: it ends after at most 18 steps, however deep the directory, if there is an entry for it in the cache;
contents, times and description files may come and go at any moment. -/
theorem C76_stored (l1 l2 : List Event) (rid fuel : Nat) (path : Str)
    (hs : (((Sys.init fs).after cfg ser l1).shared.caches (cfg rid).cache).pkg (comps path) ≠ none)
    (h0 : ((Sys.init fs).after cfg ser l1).fs.isDir path = true)
    (hl : ∀ fs', .change fs' ∈ l2 → fs'.isDir path = true)
    (hn : 18 ≤ stepsOf ((Sys.init fs).after cfg ser l1).tasks.length l2) :
    ∃ x, ((Sys.init fs).after cfg ser (l1 ++ .start rid (.sideEffects path) fuel :: l2)).ended
        ((Sys.init fs).after cfg ser l1).tasks.length = some x ∧
      x ≠ .crashed .hang ∧ x ≠ .crashed .fuel := by
  obtain ⟨x, hx, hk⟩ := bound_ended (A := fun q r => ∃ fs' : Fs, fs'.isDir path = true ∧ q.answer fs' = r)
    (R := fun o r => ∃ w : World, w.pkg (comps path) ≠ none ∧ (o.exec w).1 = r)
    (K := fun c => ∃ s, c = .panic s) (P := fun s => (s.caches (cfg rid).cache).pkg (comps path) ≠ none)
    (Ok := fun fs' => fs'.isDir path = true)
    (fun fs q h => ⟨fs, h, rfl⟩) (fun s rid o seeds h => pkg_store s rid o seeds h)
    (fun s seeds o h => ⟨_, h, rfl⟩) l1 l2 h0 hl hs
    (.sideEffects path) fuel 18 (sideEffects_bound (fun s => ⟨s, rfl⟩) (loadPkg_stored (fun s => ⟨s, rfl⟩)
      (by rintro b ⟨fs', h, rfl⟩; exact h) (by rintro r ⟨w, h, rfl⟩; exact h) 18 (Nat.le_refl _)) _) hn
  refine ⟨x, hx, ?_, ?_⟩ <;>
  · rintro rfl
    obtain ⟨s, hs⟩ := hk _ rfl
    cases hs

/-! ## The hypotheses are met -/

/-- `/a/b/c` with a description file in `/a` that asks for nothing. -/
def treeDeep : Tree :=
  .dir [(cs!"a", .dir [(cs!"package.json", jsonFile (.obj [(cs!"sideEffects", .bool false)])),
    (cs!"b", .dir [(cs!"c", .dir [])])])]

/-- After how many steps a call for the path ends, after `k` steps of an earlier call for it. -/
def stepsTo (k : Nat) (path : Str) : Option Nat :=
  (List.range 60).find? fun n => (((Sys.init (treeFs treeDeep [])).after (fun _ => config Opts.default 0) serJson
    (.start 0 (.sideEffects path) 20 :: List.replicate k (.step 0 0) ++
      .start 0 (.sideEffects path) 20 :: List.replicate n (.step 1 0))).ended 1).isSome

-- with empty caches it depends on the depth
example : stepsTo 0 cs!"/a" = some 8 ∧ stepsTo 0 cs!"/a/b" = some 13 ∧ stepsTo 0 cs!"/a/b/c" = some 14 := by
  decide +kernel

-- a stored directory is found at once; nothing is stored for `/a/b` and `/a/b/c`, for which the search is
-- made again each time
example : stepsTo 40 cs!"/a" = some 6 ∧ stepsTo 40 cs!"/a/b" = some 11 ∧ stepsTo 40 cs!"/a/b/c" = some 12 := by
  decide +kernel

-- the layout of the files
example : let fs := treeFs treeDeep []
    Layout (some cs!"package.json") fs.isDir (fun d => fs.isFile (pjoin d cs!"package.json")) fs :=
  ⟨fun _ _ => rfl, fun _ _ h _ => by cases h; rfl⟩

example : depth cs!"/a/b/c" = 4 := by decide

-- an entry in the cache
example : ((((Sys.init (treeFs treeDeep [])).after (fun _ => config Opts.default 0) serJson
      (.start 0 (.sideEffects cs!"/a") 20 :: List.replicate 40 (.step 0 0))).shared.caches 0).pkg
        (comps cs!"/a")).isSome = true ∧ (treeFs treeDeep []).isDir cs!"/a" = true := by
  decide +kernel

end Verif.Live
