import Verif.Proofs.History
import Verif.Props.Caches
/-!
# Cached trees in any history: C38, C69
-/

namespace Verif

/-- C69: the text under which the tree of a value is cached determines the value. -/
theorem C69_text {v w : Json} : serJson v = serJson w ↔ v = w :=
  ⟨serJson_inj, fun h => by rw [h]⟩

-- values with almost the same text: order, quotes, numbers, control characters
example : serJson (.obj [(cs!"a", .str cs!"1"), (cs!"b", .null)]) = cs!"{\"a\":\"1\",\"b\":null}" := by
  decide +kernel
example : serJson (.arr [.num ⟨cs!"1", by decide⟩, .str cs!"\n\x01\"\\"]) = cs!"[1,\"\\n\\u0001\\\"\\\\\"]" := by
  decide +kernel
example : serJson (.obj [(cs!"b", .null), (cs!"a", .str cs!"1")]) ≠
    serJson (.obj [(cs!"a", .str cs!"1"), (cs!"b", .null)]) := by decide +kernel

/-- What may be stored. -/
def TreesG (F : Fs → Prop) : Op → Prop
  | .putPkg _ v => ∀ p, v = some p → OwnTrees F p
  | .putExports key t => TreeText F key t
  | _ => True

/-- What may be answered. -/
def TreesR (F : Fs → Prop) : (o : Op) → o.Ret → Prop
  | .getPkg _, r => ∀ p, r = some (some p) → OwnTrees F p
  | .getExports key, r => ∀ t, r = some t → TreeText F key t
  | .getImports _, r => r = none
  | _, _ => True

/-- What is in the caches. -/
def TreesJ (F : Fs → Prop) (s : Shared) : Prop :=
  ∀ c, (∀ key p, (s.caches c).pkg key = some (some p) → OwnTrees F p) ∧
    (∀ key t, (s.caches c).exportsTree key = some t → TreeText F key t) ∧
    ∀ key, (s.caches c).importsTree key = none

theorem trees_step {F : Fs → Prop} {cfg : Nat → Config} (s : Shared) (rid : Nat) (o : Op) (seeds : Nat → Nat)
    (h : TreesJ F s) (hg : TreesG F o) :
    TreesJ F (s.store cfg rid (Op.exec (s.view cfg rid seeds) o).2) ∧
      TreesR F o (Op.exec (s.view cfg rid seeds) o).1 := by
  have put : ∀ w : World, (∀ key p, w.pkg key = some (some p) → OwnTrees F p) →
      (∀ key t, w.exportsTree key = some t → TreeText F key t) →
      (∀ key, w.importsTree key = none) → TreesJ F (s.store cfg rid w) := by
    intro w h1 h2 h3 c
    simp only [Shared.store, upd]
    split
    · exact ⟨h1, h2, h3⟩
    · exact h c
  obtain ⟨h1, h2, h3⟩ := h (cfg rid).cache
  cases o with
  | getPkg d => exact ⟨put _ h1 h2 h3, h1 _⟩
  | getExports k => exact ⟨put _ h1 h2 h3, h2 k⟩
  | getImports k => exact ⟨put _ h1 h2 h3, h3 k⟩
  | putPkg d v =>
    refine ⟨put _ (fun key p => ?_) h2 h3, trivial⟩
    simp only [Op.exec, Shared.view, upd]
    split
    · intro h
      exact hg p (Option.some.inj h)
    · exact h1 key p
  | putExports k t =>
    refine ⟨put _ h1 (fun key t' => ?_) h3, trivial⟩
    simp only [Op.exec, Shared.view, upd]
    split
    · rename_i hk
      intro h
      cases h
      rw [hk]
      exact hg
    · exact h2 key t'
  | _ => exact ⟨put _ h1 h2 h3, trivial⟩

theorem parsed_own {F : Fs → Prop} {e : Env} (hser : e.ser = serJson) {d path : Str} {p : Pkg}
    (h : Parsed (TreesR F) e d path p) : OwnTrees F p := by
  constructor
  · have := h.imports
    unfold OwnTree
    split at this
    · rename_i hn; rw [hn]; exact this
    · rename_i v hv
      rw [hv]
      obtain ⟨t, h1, h2 | h2⟩ := this
      · exact ⟨t, h1, h2⟩
      · cases h2
  · have := h.exports
    unfold OwnTree
    split at this
    · rename_i hn; rw [hn]; exact .inl this
    · rename_i v hv
      rw [hv]
      obtain ⟨t, h1, h2 | h2⟩ := this
      · exact .inl ⟨t, h1, h2⟩
      · obtain ⟨fs, w, hF, hk, h3⟩ := h2 t rfl
        rw [hser] at hk
        obtain rfl := serJson_inj hk
        rcases h3 with ⟨-, h4⟩ | ⟨h3, h4⟩
        · exact .inl ⟨t, h1, h4⟩
        · exact .inr ⟨⟨t, h1, h4⟩, fs, _, hF, rfl, h3⟩

theorem loadPkg_trees {F : Fs → Prop} (e : Env) (hser : e.ser = serJson) (hF : F e.fs) (path : Str) :
    (loadPkg e path).Sat (TreesG F) (TreesR F) fun _ => True := by
  refine (loadPkg_sat e (fun o ho => ?_) (fun _ _ => nofun) (fun _ _ => True) (fun desc d p _ _ hp => ?_)
    (fun d p _ h => trivial) path).mono fun r hr => trivial
  · cases o with
    | putPkg d v => exact ho.elim
    | putExports key t =>
      obtain ⟨v, hk, h⟩ := ho
      exact ⟨e.fs, v, hF, by rw [hk, hser], h⟩
    | _ => trivial
  · refine ⟨trivial, fun q hq => ?_⟩
    cases hq
    exact parsed_own hser hp

theorem trees_after (cfg : Nat → Config) (fs : Fs) (l : List Event) :
    TreesJ (fun fs' => fs' = fs ∨ .change fs' ∈ l) ((Sys.init fs).after cfg serJson l).shared := by
  refine (system_inv (cfg := cfg) (ser := serJson) (okFs := fun fs' => fs' = fs ∨ .change fs' ∈ l)
    (okCall := fun _ _ => True) (G := fun _ => TreesG _) (R := fun _ => TreesR _)
    (J := TreesJ fun fs' => fs' = fs ∨ .change fs' ∈ l) (P := fun _ _ _ _ => True)
    (fun s rid o seeds h hg => trees_step s rid o seeds h hg) ?_ (.inl rfl) ?_ ?_).1
  · intro rid fs' call fuel hF _
    have hload : ∀ p, (loadPkg ((cfg rid).env serJson fs') p).Sat
        (TreesG fun fs' => fs' = fs ∨ .change fs' ∈ l) (TreesR fun fs' => fs' = fs ∨ .change fs' ∈ l)
        fun _ => True :=
      fun p => loadPkg_trees ((cfg rid).env serJson fs') rfl hF p
    cases call with
    | resolve p r =>
      unfold Call.prog
      exact Prog.Sat.bind (P := fun _ => True) (resolve_any _ trivial hload _ _ _) fun x _ => trivial
    | sideEffects p =>
      unfold Call.prog
      exact Prog.Sat.bind (loadSideEffects_sat (hload p)) fun x _ => trivial
  · intro e he
    cases e with
    | start => exact trivial
    | change fs' => exact .inr he
    | step => exact trivial
  · exact fun _ => ⟨fun _ _ => nofun, fun _ _ => nofun, fun _ => rfl⟩

/-- C38 in any history, with any changes of files, options and builds: the imports tree of every cached package is
built from its own imports value, and its exports tree from its own exports value. Missing: an exports value that is
also the imports value of some file, for which the tree may be that of imports (`C38_mixed_violated`); see
`Live.C55_torn_violated` for packages that are out of date as a whole. -/
theorem C38_history_partial (cfg : Nat → Config) (fs : Fs) (l : List Event) (c : Nat) (key : List Comp) (p : Pkg)
    (hp : (((Sys.init fs).after cfg serJson l).shared.caches c).pkg key = some (some p)) :
    OwnTree .imports (p.raw.get cs!"imports") p.importsTree ∧
      (OwnTree .exports (p.raw.get cs!"exports") p.exportsTree ∨
        OwnTree .imports (p.raw.get cs!"exports") p.exportsTree ∧
          ∃ fs' v, (fs' = fs ∨ .change fs' ∈ l) ∧ p.raw.get cs!"exports" = some v ∧
            IsField fs' cs!"imports" v) :=
  have h := ((trees_after cfg fs l) c).1 key p hp
  ⟨h.imports, h.exports⟩

/-- C69 in any history: a tree that is cached under the text of a value was built from this value, as exports or as
imports, and the value is a field of a file. -/
theorem C69_cached (cfg : Nat → Config) (fs : Fs) (l : List Event) (c : Nat) (v : Json) (t : Node)
    (h : (((Sys.init fs).after cfg serJson l).shared.caches c).exportsTree (serJson v) = some t) :
    ∃ fs', (fs' = fs ∨ .change fs' ∈ l) ∧
      (IsField fs' cs!"exports" v ∧ buildTree .exports v = some (.ok t) ∨
        IsField fs' cs!"imports" v ∧ buildTree .imports v = some (.ok t)) := by
  obtain ⟨fs', w, hF, hk, h⟩ := ((trees_after cfg fs l) c).2.1 _ _ h
  obtain rfl := serJson_inj hk
  exact ⟨fs', hF, h⟩

-- a history after which a package and a tree are cached: those of `C38_mixed_violated`
example : ((sysMixed [.sideEffects cs!"/p/node_modules/a", .sideEffects cs!"/p/node_modules/b"]).treeOf
    cs!"/p/node_modules/b").isSome = true := by decide +kernel

/-- The imports of packages are parsed each time: their trees are never found in the cache, since they are stored
with the trees of exports (src/description.rs:93). -/
theorem C69_imports_unused (cfg : Nat → Config) (fs : Fs) (l : List Event) (c : Nat) (key : Str) :
    (((Sys.init fs).after cfg serJson l).shared.caches c).importsTree key = none :=
  ((trees_after cfg fs l) c).2.2 key

end Verif
