import Verif.Proofs.MapRead
import Verif.Props.Maps
/-!
# C19 to C22 and C24, from what is written in `package.json`

In Props/Maps.lean the properties are about maps as `fromJson` gives them. Here they are about maps that are written
in a JSON value, where `MapRead` says what that means.
-/

namespace Verif

/-- C19: a JSON value in which no object has a key twice is read as the map that is written in it, and not read if
none is. -/
theorem C19_read (j : Json) (hu : j.uniqueKeys = true) (v : MV) : fromJson j = some v ↔ MapRead j v :=
  ⟨fromJson_mapRead j v hu, mapRead_fromJson j v⟩

/-- C19 for exports that are written in a JSON value. Partial: as for `C19_exports_partial`. -/
theorem C19_written_partial {j : Json} {v : MV} {m : List (Str × MV)} (hj : MapRead j v)
    (hm : ExportsOf v m) {req : Str} (hreq : req ≠ []) (ha : AsciiStars m (cs!"./" ++ req))
    (hs : req.getLast? ≠ some '/') (names : List Str) :
    ∃ root out, buildTree .exports j = some (.ok root) ∧
      fieldProcess .exports root (cs!"./" ++ req) names = some out ∧
      Selected .exports names m (cs!"./" ++ req) out :=
  C19_exports_partial j v m (mapRead_fromJson j v hj) hm req hreq ha hs names

/-- C19 for exports that are written in a JSON value and the request `.`. -/
theorem C19_main_written {j : Json} {v : MV} {m : List (Str × MV)} (hj : MapRead j v) (hm : ExportsOf v m)
    (names : List Str) :
    ∃ root out, buildTree .exports j = some (.ok root) ∧
      fieldProcess .exports root cs!"." names = some out ∧ Selected .exports names m cs!"." out :=
  C19_exports_main j v m (mapRead_fromJson j v hj) hm names

/-- C19 for imports that are written in a JSON value. Partial: as for `C19_imports_partial`. -/
theorem C19_imports_written_partial {j : Json} {m : List (Str × MV)} (hj : MapRead j (.cond m))
    (hk : ∀ kv ∈ m, ImportsKey kv.1) {req : Str} (hreq : ImportsKey (cs!"#" ++ req))
    (ha : AsciiStars m (cs!"#" ++ req)) (hs : req.getLast? ≠ some '/') (names : List Str) :
    ∃ root out, buildTree .imports j = some (.ok root) ∧
      fieldProcess .imports root (cs!"#" ++ req) names = some out ∧
      Selected .imports names m (cs!"#" ++ req) out :=
  C19_imports_partial j m (mapRead_fromJson j _ hj) hk req hreq ha hs names

/-- C20, C21 for conditions that are written in a JSON value. -/
theorem C20_written {j : Json} {m : List (Str × MV)} (hj : MapRead j (.cond m)) (names : List Str) (r : CondResult)
    (hr : Scan (· ∈ names) m r) :
    ∃ m', fromJson j = some (.cond m') ∧ condMapping m' names = some (match r with
      | .noMatch => .ok none
      | .found v => .ok (some v)
      | .badDefault => .error .defaultNotLast) :=
  ⟨m, mapRead_fromJson j _ hj, C20_depth_first j m (mapRead_fromJson j _ hj) names r hr⟩

/-- C21 for conditions that are written in a JSON value. -/
theorem C21_written {j : Json} {m : List (Str × MV)} (hj : MapRead j (.cond m)) (names : List Str) :
    ∃ m', fromJson j = some (.cond m') ∧
      (condMapping m' names = some (.error .defaultNotLast) ↔ Scan (· ∈ names) m .badDefault) :=
  ⟨m, mapRead_fromJson j _ hj, C21_bad_default j m (mapRead_fromJson j _ hj) names⟩

/-- C22 for exports that are written in a JSON value. Partial: as for `C22_exports_partial`. -/
theorem C22_written_partial {j : Json} {v : MV} {m : List (Str × MV)} (hj : MapRead j v) (hm : ExportsOf v m)
    {req : Str} (hreq : req ≠ []) (ha : AsciiStars m (cs!"./" ++ req)) (hs : req.getLast? ≠ some '/') (hd : '$' ∉ req)
    (hx : ∀ v t, (cs!"./" ++ req, v) ∈ m → WrittenIn v t → '*' ∉ t) {names : List Str} {root : Node}
    (hb : buildTree .exports j = some (.ok root)) {l : List Str}
    (hl : fieldProcess .exports root (cs!"./" ++ req) names = some (.ok l)) :
    ∀ s ∈ l, Substituted m (cs!"./" ++ req) s :=
  C22_exports_partial (mapRead_fromJson j v hj) hm hreq ha hs hd hx hb hl

/-- C22 for imports that are written in a JSON value. Partial: as for `C22_exports_partial`. -/
theorem C22_imports_written_partial {j : Json} {m : List (Str × MV)} (hj : MapRead j (.cond m))
    (hk : ∀ kv ∈ m, ImportsKey kv.1) {req : Str} (hreq : ImportsKey (cs!"#" ++ req))
    (ha : AsciiStars m (cs!"#" ++ req)) (hs : req.getLast? ≠ some '/') (hd : '$' ∉ req)
    (hx : ∀ v t, (cs!"#" ++ req, v) ∈ m → WrittenIn v t → '*' ∉ t) {names : List Str} {root : Node}
    (hb : buildTree .imports j = some (.ok root)) {l : List Str}
    (hl : fieldProcess .imports root (cs!"#" ++ req) names = some (.ok l)) :
    ∀ s ∈ l, Substituted m (cs!"#" ++ req) s :=
  C22_imports_partial (mapRead_fromJson j _ hj) hk hreq ha hs hd hx hb hl

/-- C24 for imports that are written in a JSON value: building them succeeds exactly if every key is valid. -/
theorem C24_written {l : List (Str × Json)} {m : List (Str × MV)} (hj : MapRead (.obj l) (.cond m)) :
    (∃ root, buildTree .imports (.obj l) = some (.ok root)) ↔ ∀ kv ∈ l, ImportsKey kv.1 := by
  rw [C24_keys _ m (mapRead_fromJson _ _ hj)]
  cases hj with
  | object _ h =>
    have e := fieldsRead_keys h
    constructor
    · intro h' kv hkv
      obtain ⟨x, hx, hx'⟩ := List.mem_map.1 (e ▸ List.mem_map_of_mem hkv : kv.1 ∈ m.map Prod.fst)
      rw [← hx']
      exact h' x hx
    · intro h' kv hkv
      obtain ⟨x, hx, hx'⟩ := List.mem_map.1 (e ▸ List.mem_map_of_mem hkv : kv.1 ∈ l.map Prod.fst)
      rw [← hx']
      exact h' x hx

/-! ## The hypotheses are met -/

/-- Exports with conditions, a list and a folder. -/
def writtenExports : List (Str × Json) :=
  [(cs!".", .obj [(cs!"import", .str cs!"./a.mjs"), (cs!"default", .str cs!"./a.js")]),
   (cs!"./lib/", .arr [.str cs!"./src/", .str cs!"./lib/"])]

/-- The map that is written there. -/
def writtenMap : List (Str × MV) :=
  [(cs!".", .cond [(cs!"import", .direct cs!"./a.mjs"), (cs!"default", .direct cs!"./a.js")]),
   (cs!"./lib/", .arr [.direct cs!"./src/", .direct cs!"./lib/"])]

theorem written_read : MapRead (.obj writtenExports) (.cond writtenMap) :=
  .object (by decide) (.cons (.object (by decide) (.cons (.target _) (.cons (.target _) .nil)))
    (.cons (.list (.cons (.target _) nofun (.cons (.target _) nofun .nil))) .nil))

example : (Json.obj writtenExports).uniqueKeys = true := by decide +kernel
example : ExportsOf (.cond writtenMap) writtenMap := .paths (by decide) (by
  intro kv h
  simp only [writtenMap, List.mem_cons, List.not_mem_nil, or_false] at h
  rcases h with rfl | rfl <;> first | exact .inl rfl | exact .inr ⟨_, rfl⟩)
example : AsciiStars writtenMap cs!"./lib/x" := by
  intro lit v h
  have ends : ∀ kv ∈ writtenMap, kv.1.getLast? ≠ some '*' := by
    intro kv hkv
    simp only [writtenMap, List.mem_cons, List.not_mem_nil, or_false] at hkv
    rcases hkv with rfl | rfl <;> decide
  exact absurd (by simp) (ends _ h.key)
example : Scan (· ∈ [cs!"import"]) [(cs!"import", .direct cs!"./a.mjs"), (cs!"default", .direct cs!"./a.js")]
    (.found (.direct cs!"./a.mjs")) := .leaf (.inr ⟨by decide, by decide⟩) nofun
example : ∃ root, buildTree .exports (.obj writtenExports) = some (.ok root) ∧
    fieldProcess .exports root cs!"./lib/x" [] = some (.ok [cs!"./src/x", cs!"./lib/x"]) := ⟨_, rfl, rfl⟩
-- what is no map
example (v : MV) : ¬ MapRead (.obj [(cs!".", .null)]) v := by
  intro h
  cases h with
  | object _ h => cases h with | cons h _ => cases h

end Verif
