import Verif.Proofs.SameFields
import Verif.Proofs.TreeFs
import Verif.Props.Absolute
/-!
# Properties of the fields of JSON files: C75
-/

namespace Verif.Live

variable {cfg : Nat → Config} {ser : Json → Str} {fs : Fs}

/-- C75: two runs that differ in nothing but other fields of JSON files than the ones named in the
specification end in the same way, call by call. Files may change at any moment, in the same way up to
those other fields. -/
theorem C75_fields {fs' : Fs} (hfs : SameFields (mainFieldOf cfg) fs fs') {l l' : List Event}
    (hl : FieldEvents (mainFieldOf cfg) l l') (i : Nat) :
    ((Sys.init fs).after cfg ser l).ended i = ((Sys.init fs').after cfg ser l').ended i :=
  ((SysSame.init hfs).after (fun rid _ hk => ⟨rid, hk⟩) hl).ended i

/-- C75: nothing changes if all JSON files are stripped of all other fields. -/
theorem C75_stripped {mains : List Str} (hm : ∀ rid, ∀ k ∈ (cfg rid).opts.mainFields, k ∈ mains)
    (l : List Event) (i : Nat) :
    ((Sys.init fs).after cfg ser l).ended i =
      ((Sys.init (fs.strip mains)).after cfg ser (l.map (Event.strip mains))).ended i :=
  C75_fields (strip_fields (fun k ⟨rid, hk⟩ => hm rid k hk) fs)
    (strip_events (fun k ⟨rid, hk⟩ => hm rid k hk) l) i

/-! ## None of the fields can be left out -/

/-- `/p` with `a.js`, `b.js`, `index.js`, an empty `node_modules` and a description file. -/
def treeField (fields : List (Str × Json)) : Tree :=
  .dir [(cs!"p", .dir [(cs!"package.json", jsonFile (.obj fields)), (cs!"a.js", textFile),
    (cs!"b.js", textFile), (cs!"index.js", textFile), (cs!"node_modules", .dir [])])]

/-- Where a call from `/p` ends, with browser fields. -/
def fieldEnd (t : Tree) (request : Str) : Option Str :=
  ((Sys.init (treeFs t [])).after (fun _ => config { Opts.default with browserField := true } 0) serJson
    (.start 0 (.resolve cs!"/p" request) 20 :: List.replicate 80 (.step 0 0))).path 0

/-- Description files and requests for which a field matters. -/
def fieldCase (k : Str) : List (Str × Json) × Str :=
  if k = cs!"main" then ([(cs!"main", .str cs!"./b.js")], cs!".")
  else if k = cs!"browser" then ([(cs!"browser", .obj [(cs!"./a.js", .str cs!"./b.js")])], cs!"./a.js")
  else if k = cs!"imports" then ([(cs!"imports", .obj [(cs!"#a", .str cs!"./b.js")])], cs!"#a")
  else if k = cs!"sideEffects" then ([(cs!"sideEffects", .str cs!"no")], cs!"./a.js")
  else ([(cs!"name", .str cs!"lib"), (cs!"exports", .obj [(cs!".", .str cs!"./b.js")])], cs!"lib")

/-- C75: every one of the fields matters. -/
theorem C75_needed : ∀ k ∈ cs!"main" :: pkgFields,
    fieldEnd (treeField (fieldCase k).1) (fieldCase k).2 ≠
      fieldEnd ((treeField (fieldCase k).1).mapDoc (Doc.drop k)) (fieldCase k).2 := by
  decide +kernel

/-- `/p/tsconfig.json` extends `/p/base.json`; the files are `/p/x/b.js` and `/p/a.js`. -/
def treeTsField : Tree :=
  .dir [(cs!"p", .dir [
    (cs!"tsconfig.json", jsonFile (.obj [(cs!"extends", .str cs!"./base.json"),
      (cs!"compilerOptions", .obj [(cs!"paths", .obj [(cs!"./a", .arr [.str cs!"b.js"])])])])),
    (cs!"base.json", jsonFile (.obj [(cs!"compilerOptions", .obj [(cs!"baseUrl", .str cs!"./x")])])),
    (cs!"x", .dir [(cs!"b.js", textFile)]), (cs!"a.js", textFile)])]

/-- Where a call for `./a` from `/p` ends, with this tsconfig. -/
def tsFieldEnd (t : Tree) : Option Str :=
  ((Sys.init (treeFs t [])).after (fun _ => config { Opts.default with tsconfig := some cs!"/p/tsconfig.json" } 0)
    serJson (.start 0 (.resolve cs!"/p" cs!"./a") 20 :: List.replicate 120 (.step 0 0))).path 0

/-- C75: every one of the fields of a tsconfig matters. -/
theorem C75_needed_tsconfig :
    tsFieldEnd treeTsField = some cs!"/p/x/b.js" ∧
    ∀ k ∈ [cs!"extends", cs!"compilerOptions", cs!"baseUrl", cs!"paths"],
      tsFieldEnd (treeTsField.mapDoc (Doc.tsDrop k)) = some cs!"/p/a.js" := by
  decide +kernel

/-! ## The hypotheses are met -/

-- a file system that loses fields
example : ∃ d, (treeFs (treeField [(cs!"version", .str cs!"1"), (cs!"main", .str cs!"./b.js"),
    (cs!"scripts", .obj [])]) []).read cs!"/p/package.json" = some d ∧
    (d.strip [cs!"main"]).json = some (.obj [(cs!"main", .str cs!"./b.js")]) ∧
    d.json ≠ (d.strip [cs!"main"]).json := by
  refine ⟨_, rfl, rfl, ?_⟩
  intro h
  have h1 := congrArg (Option.map fun j : Json => (j.get cs!"version").isSome) h
  revert h1
  decide +kernel

-- the main fields of the resolver above
example : ∀ k ∈ ((fun _ => config { Opts.default with browserField := true } 0 : Nat → Config) 0).opts.mainFields,
    k ∈ [cs!"main"] := by
  decide +kernel

-- where the calls end
example : (cs!"main" :: pkgFields).map (fun k => fieldEnd (treeField (fieldCase k).1) (fieldCase k).2) =
    [some cs!"/p/b.js", some cs!"/p/b.js", some cs!"/p/b.js", some cs!"/p/b.js", some cs!"/p/b.js", none] := by
  decide +kernel

-- a tsconfig that loses fields at both levels
example : (Json.obj [(cs!"include", .arr []), (cs!"extends", .str cs!"./base"), (cs!"compilerOptions",
      .obj [(cs!"target", .str cs!"es5"), (cs!"baseUrl", .str cs!".")])]).tsOnly =
    .obj [(cs!"extends", .str cs!"./base"), (cs!"compilerOptions", .obj [(cs!"baseUrl", .str cs!".")])] := by
  rfl

end Verif.Live
