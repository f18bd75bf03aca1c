import Verif.Proofs.Unused
import Verif.Proofs.TreeNames
import Verif.Props.Result
/-!
# Options that apply to nothing: C62
-/

namespace Verif

/-! ## C62 -/

/-- C62: two sets of resolvers whose options differ only in what applies to nothing, in no state of the files
of a history, do the same in this history: every call ends alike, and the caches have the same content. The
history is arbitrary: calls at the same time, shared caches, changed files. -/
theorem C62_unused {cfg cfg' : Nat → Config} {ser : Json → Str} {fs : Fs} {l : List Event}
    (h : ∀ rid, AlikeCfg (Versions fs l) (cfg rid) (cfg' rid)) :
    ((Sys.init fs).after cfg' ser l).shared = ((Sys.init fs).after cfg ser l).shared ∧
    ((Sys.init fs).after cfg' ser l).tasks.map (fun t => (t.rid, t.call, t.prog.outcome)) =
      ((Sys.init fs).after cfg ser l).tasks.map fun t => (t.rid, t.call, t.prog.outcome) := by
  have hk := lockStep_after (ser := ser) h l (fun fs h => .inr h) (s := Sys.init fs) (s' := Sys.init fs)
    ⟨rfl, rfl, hist_init _, .inl rfl, rfl, fun i t t' h => by cases h⟩
  refine ⟨hk.shared, List.ext_getElem? fun i => ?_⟩
  rw [List.getElem?_map, List.getElem?_map]
  cases h1 : ((Sys.init fs).after cfg ser l).tasks[i]? with
  | none =>
    have : ((Sys.init fs).after cfg' ser l).tasks[i]? = none := by
      rw [List.getElem?_eq_none_iff, ← hk.length, ← List.getElem?_eq_none_iff]
      exact h1
    rw [this]
  | some t =>
    have hi : i < ((Sys.init fs).after cfg' ser l).tasks.length := by
      rw [← hk.length]
      exact (List.getElem?_eq_some_iff.1 h1).1
    have h2 := List.getElem?_eq_getElem hi
    have ht := hk.tasks i t _ h1 h2
    rw [h2]
    have e : ((Sys.init fs).after cfg' ser l).tasks[i].prog.outcome = t.prog.outcome := by
      have hp := ht.prog
      generalize ((Sys.init fs).after cfg' ser l).tasks[i].prog = p' at hp
      generalize t.prog = p at hp
      cases hp <;> rfl
    simp only [Option.map_some, ht.rid, ht.call, e]

/-- `/a.js`, `/d/index.js`, and the package `m` with `main` and conditional exports. -/
def treeUse : Tree :=
  .dir [(cs!"a.js", textFile), (cs!"d", .dir [(cs!"index.js", textFile)]),
    (cs!"node_modules", .dir [(cs!"m", .dir [(cs!"lib.js", textFile), (cs!"package.json", jsonFile (.obj [
      (cs!"main", .str cs!"./lib.js"), (cs!"module", .bool true),
      (cs!"exports", .obj [(cs!".", .obj [(cs!"import", .str cs!"./a.js"), (cs!"default", .str cs!"./lib.js")])])]))])])]

/-- Other names, fields, extensions and main files than `optsA`. -/
def optsOther : Opts :=
  { optsA with
    conditionNames := [cs!"default", cs!"require"]
    mainFields := [cs!"module", cs!"main", cs!"browser"]
    extensions := [cs!".ts", cs!".js", cs!".json"]
    mainFiles := [cs!"start", cs!"index"] }

/-- The hypothesis of C62 can be met. -/
theorem alike_treeUse : Alike (fun fs => fs = treeFs treeUse []) optsA optsOther where
  alias := rfl
  preferRelative := rfl
  symlinks := rfl
  descriptionFile := rfl
  tsconfig := rfl
  browserField := rfl
  enforceExtension := rfl
  someFile := by decide
  browser := nofun
  conditions := by
    rintro fs v k rfl h hk hd
    have : ∀ v, (IsField (treeFs treeUse []) cs!"exports" v ∨ IsField (treeFs treeUse []) cs!"imports" v) →
        v.keys.all (fun k => k = cs!"default" ∨ (k ∉ optsA.conditionNames ∧ k ∉ optsOther.conditionNames)) = true := by
      have key : ∀ v name, (name = cs!"exports" ∨ name = cs!"imports") → IsField (treeFs treeUse []) name v →
          v.keys.all (fun k => k = cs!"default" ∨ (k ∉ optsA.conditionNames ∧ k ∉ optsOther.conditionNames)) = true := by
        rintro v name hn ⟨p, doc, json, h1, h2, h3⟩
        have := allDoc_read (P := fun d => match d.json with
          | none => true
          | some j => [cs!"exports", cs!"imports"].all fun name => match j.get name with
            | none => true
            | some v => v.keys.all (fun k => k = cs!"default" ∨
                (k ∉ optsA.conditionNames ∧ k ∉ optsOther.conditionNames))) (by decide +kernel) h1
        simp only [h2] at this
        have := List.all_eq_true.1 this name (by simpa using hn)
        simpa only [h3] using this
      rintro v (h | h)
      · exact key v _ (.inl rfl) h
      · exact key v _ (.inr rfl) h
    have := List.all_eq_true.1 (this v h) k hk
    simp only [decide_eq_true_eq] at this
    rcases this with h | h
    · exact (hd h).elim
    · exact ⟨fun h' => (h.1 h').elim, fun h' => (h.2 h').elim⟩
  mainFields := by
    rintro fs file doc json rfl h1 h2
    have := allDoc_read (P := fun d => match d.json with
      | none => true
      | some j => decide (fieldTexts j optsA.mainFields = fieldTexts j optsOther.mainFields)) (by decide +kernel) h1
    simp only [h2, decide_eq_true_eq] at this
    exact this
  extensions := by
    rintro fs p rfl
    have h1 := treeFs_no_ending (t := treeUse) (cwd := []) (b := cs!".ts") (by decide) (by decide) p
    have h2 := treeFs_no_ending (t := treeUse) (cwd := []) (b := cs!".node") (by decide) (by decide) p
    simp only [optsA, optsOther, Opts.default, List.find?, h1, h2]
  mainFiles := by
    refine ⟨fun n => n ≠ cs!"start", by decide, ?_⟩
    rintro name h fs rfl
    have : name = cs!"start" := by simpa using h
    subst this
    exact treeFs_no_main (by decide) (by decide) (by decide)

/-- The example for C62: the calls end alike, and they do find files. -/
example : AlikeCfg (Versions (treeFs treeUse []) (oneByOne 40 0 [(0, .resolve cs!"/" cs!"m"),
      (0, .resolve cs!"/" cs!"./a"), (0, .resolve cs!"/" cs!"./d")]))
    ⟨optsA, 0, false, 0⟩ ⟨optsOther, 0, false, 0⟩ := by
  refine ⟨?_, rfl, rfl, rfl⟩
  have e : Versions (treeFs treeUse []) (oneByOne 40 0 [(0, .resolve cs!"/" cs!"m"),
      (0, .resolve cs!"/" cs!"./a"), (0, .resolve cs!"/" cs!"./d")]) = fun fs => fs = treeFs treeUse [] := by
    funext fs
    simp [Versions, oneByOne]
  rw [e]
  exact alike_treeUse

example : [cs!"m", cs!"./a", cs!"./d"].map (fun r =>
      ((resolve (treeEnv optsOther treeUse) 20 cs!"/" r).freshInfo).map (·.path)) =
    [some cs!"/node_modules/m/lib.js", some cs!"/a.js", some cs!"/d/index.js"] := by
  decide +kernel

/-- `/a.js` and a `browser` map for `./x.ts`, which is no file. -/
def treeShadow : Tree :=
  .dir [(cs!"a.js", textFile), (cs!"package.json", jsonFile (.obj [
    (cs!"browser", .obj [(cs!"./x.ts", .str cs!"./a.js")])]))]

/-- Why `Alike` demands more with `browser_field`: there the extension of no file makes a difference. -/
example :
    ((resolve (treeEnv { optsA with browserField := true } treeShadow) 20 cs!"/" cs!"./x").freshInfo).map
      (·.path) = none ∧
    ((resolve (treeEnv { optsA with browserField := true, extensions := [cs!".js", cs!".ts"] } treeShadow) 20
      cs!"/" cs!"./x").freshInfo).map (·.path) = some cs!"/a.js" := by
  decide +kernel

end Verif
