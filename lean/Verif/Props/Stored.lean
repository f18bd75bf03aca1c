import Verif.Proofs.Stored
import Verif.Props.Messages
/-!
# What the caches hold: C80
-/

namespace Verif

/-- C80: whatever resolvers share a cache, whatever they are asked, and however their steps and changes of the files
take turns: what is stored for a directory was once so. A package was read from the description file there, which one
of the resolvers is configured with; a missing package means that neither the directory nor a parent had such a
file. -/
theorem C80_packages (cfg : Nat → Config) (fs : Fs) (l : List Event) (c : Nat) (key : List Comp)
    (v : Option Pkg)
    (h : (((Live.Sys.init fs).after cfg serJson l).shared.caches c).pkg key = some v) :
    ∃ rid desc d, (cfg rid).cache = c ∧ (cfg rid).opts.descriptionFile = some desc ∧ comps d = key ∧
      EntryWas (Versions fs l) desc d v :=
  (Live.stored_after cfg fs l).pkg c key v h

/-- C80, the compiled maps: each is the compiled form of a value that some file had as `exports` or `imports`, and is
stored under the text of just this value. The maps for `imports` are all stored with those for `exports`. -/
theorem C80_maps (cfg : Nat → Config) (fs : Fs) (l : List Event) (c : Nat) :
    (∀ key t, (((Live.Sys.init fs).after cfg serJson l).shared.caches c).exportsTree key = some t →
      TreeText (Versions fs l) key t) ∧
    ∀ key, (((Live.Sys.init fs).after cfg serJson l).shared.caches c).importsTree key = none :=
  ⟨(Live.stored_after cfg fs l).exports c, (Live.stored_after cfg fs l).imports c⟩

/-- C80, the times: each is one that the file had, and the file could be read. -/
theorem C80_times (cfg : Nat → Config) (fs : Fs) (l : List Event) (rid : Nat) (key : List Comp) (m : Nat)
    (h : ((Live.Sys.init fs).after cfg serJson l).shared.files rid key = some m) :
    TimeWas (Versions fs l) key m :=
  (Live.stored_after cfg fs l).time rid key m h

theorem exec_kept (w : World) (o : Op) :
    (∀ k, (w.pkg k).isSome = true → ((Op.exec w o).2.pkg k).isSome = true) ∧
    (∀ k, (w.exportsTree k).isSome = true → ((Op.exec w o).2.exportsTree k).isSome = true) ∧
    ∀ k, (w.file k).isSome = true → ((Op.exec w o).2.file k).isSome = true := by
  cases o <;> simp only [Op.exec, upd] <;> refine ⟨fun k h => ?_, fun k h => ?_, fun k h => ?_⟩ <;>
    first | exact h | (split <;> first | rfl | exact h)

/-- C80: no entry is ever removed: once there is one for a directory, for a value or for the time of a file, there is one
from then on. -/
theorem C80_kept (cfg : Nat → Config) (ser : Json → Str) (fs : Fs) (l l' : List Event) :
    (∀ c key, (((Live.Sys.init fs).after cfg ser l).shared.caches c |>.pkg key).isSome = true →
      (((Live.Sys.init fs).after cfg ser (l ++ l')).shared.caches c |>.pkg key).isSome = true) ∧
    (∀ c key, (((Live.Sys.init fs).after cfg ser l).shared.caches c |>.exportsTree key).isSome = true →
      (((Live.Sys.init fs).after cfg ser (l ++ l')).shared.caches c |>.exportsTree key).isSome = true) ∧
    ∀ rid key, (((Live.Sys.init fs).after cfg ser l).shared.files rid key).isSome = true →
      (((Live.Sys.init fs).after cfg ser (l ++ l')).shared.files rid key).isSome = true := by
  rw [show (Live.Sys.init fs).after cfg ser (l ++ l') = ((Live.Sys.init fs).after cfg ser l).after cfg ser l' from
    List.foldl_append]
  generalize (Live.Sys.init fs).after cfg ser l = s
  induction l' generalizing s with
  | nil => exact ⟨fun _ _ h => h, fun _ _ h => h, fun _ _ h => h⟩
  | cons e l' ih =>
    have h1 := ih (s.next cfg ser e)
    suffices h : (∀ c key, ((s.shared.caches c).pkg key).isSome = true →
          (((s.next cfg ser e).shared.caches c).pkg key).isSome = true) ∧
        (∀ c key, ((s.shared.caches c).exportsTree key).isSome = true →
          (((s.next cfg ser e).shared.caches c).exportsTree key).isSome = true) ∧
        ∀ rid key, (s.shared.files rid key).isSome = true →
          ((s.next cfg ser e).shared.files rid key).isSome = true from
      ⟨fun c k x => h1.1 c k (h.1 c k x), fun c k x => h1.2.1 c k (h.2.1 c k x),
        fun c k x => h1.2.2 c k (h.2.2 c k x)⟩
    cases e with
    | start rid call fuel => exact ⟨fun _ _ h => h, fun _ _ h => h, fun _ _ h => h⟩
    | change f => exact ⟨fun _ _ h => h, fun _ _ h => h, fun _ _ h => h⟩
    | step i seed =>
      simp only [Live.Sys.next]
      split
      · exact ⟨fun _ _ h => h, fun _ _ h => h, fun _ _ h => h⟩
      · rename_i t _
        split
        · exact ⟨fun _ _ h => h, fun _ _ h => h, fun _ _ h => h⟩
        · rename_i o k _
          have := exec_kept (s.shared.view cfg t.rid fun _ => seed) o
          refine ⟨fun c key h => ?_, fun c key h => ?_, fun rid key h => ?_⟩ <;>
            simp only [Shared.store, upd] <;> split <;> first | exact h | skip
          · rename_i hc; subst hc; exact this.1 _ h
          · rename_i hc; subst hc; exact this.2.1 _ h
          · rename_i hc; subst hc; exact this.2.2 _ h
        · exact ⟨fun _ _ h => h, fun _ _ h => h, fun _ _ h => h⟩

/-- The cache after calls one after the other. -/
def stored (o : Opts) (t : Tree) (calls : List Call) : Shared :=
  ((Live.Sys.init (treeFs t [])).after (fun _ => config o 0) serJson
    (calls.map (fun call => .start 0 call 20) ++
      (List.range calls.length).flatMap fun i => List.replicate 200 (.step i 0))).shared

/-- Partial: a directory may have several entries, under different spellings, so the number of entries is not
bounded by the number of directories. -/
theorem C80_spelling_violated :
    let s := stored optsA (treeMessage (.obj [(cs!"name", .str cs!"m")])) [
      .sideEffects cs!"/p/node_modules/m", .sideEffects cs!"/p/node_modules/m/../m",
      .sideEffects cs!"/p/node_modules/m/../../node_modules/m"]
    [cs!"/p/node_modules/m", cs!"/p/node_modules/m/../m", cs!"/p/node_modules/m/../../node_modules/m"].map
        (fun d => ((s.caches 0).pkg (comps d)).map (·.map fun p => (p.absDir, p.name))) =
      [some (some (cs!"/p/node_modules/m", some cs!"m")), some (some (cs!"/p/node_modules/m/../m", some cs!"m")),
        some (some (cs!"/p/node_modules/m/../../node_modules/m", some cs!"m"))] := by
  decide +kernel

-- entries, a missing package, a map and a time that are stored
example :
    let s := stored optsA (treeMessage (.obj [(cs!"imports", .obj [(cs!"#a", .str cs!"./a.js")])]))
      [.resolve cs!"/p" cs!"m", .sideEffects cs!"/p"]
    ((s.caches 0).pkg (comps cs!"/p/node_modules/m")).map (·.map (·.absDir)) =
        some (some cs!"/p/node_modules/m") ∧
      ((s.caches 0).pkg (comps cs!"/p")).map (·.isNone) = some true ∧
      ((s.caches 0).pkg (comps cs!"/")).map (·.isNone) = some true ∧
      ((s.caches 0).exportsTree cs!"{\"#a\":\"./a.js\"}").isSome = true ∧
      (s.files 0 (comps cs!"/p/node_modules/m/package.json")).isSome = true := by
  decide +kernel

end Verif
