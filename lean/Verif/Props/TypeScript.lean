import Verif.Proofs.TypeScript
import Verif.Props.Tsconfig
/-!
# Properties about tsconfig as TypeScript reads it: C78
-/

namespace Verif

/-- C78: the paths tried for a request are those that TypeScript tries, in its order: the first that resolves
decides, and if none does the result is that of the resolver without tsconfig. Missing: tsconfig files whose
options have wrong types; an `extends` that is not found (`C78_lost_violated`); and what is not in `TsCommon`
(`C78_relative_violated`, `C78_inherited_violated`, `C78_alone_violated`, `C78_merged_violated`,
`C78_longest_violated`, `C78_star_violated`, `C40_star_violated`). -/
theorem C78_paths_partial (e : Env) (n : Nat) (path request loc : Str) (hw : WfDocs e.fs) (hs : TsSound e.fs)
    (ht : e.opts.tsconfig = some loc) (a : Except Err Result) (h : (resolve e n path request).Returns a) :
    (∃ err, (tsValue e.ctx n loc).Returns (.error err) ∧ a = .error err) ∨
    TsLost e.fs (extBy e.ctx) loc ∨
    ∃ chain, TsChain e.fs (extFile e.ctx) loc chain ∧ (TsCommon chain (parseRequest request).target →
      (∃ r, PathsTried (fun p s => (resolveInner e.ctx n ⟨p, Request.empty⟩).Returns s)
          (tsWanted chain (parseRequest request).target) (some r) ∧ (normalizeResult e.ctx r).Returns a) ∨
        (PathsTried (fun p s => (resolveInner e.ctx n ⟨p, Request.empty⟩).Returns s)
            (tsWanted chain (parseRequest request).target) none ∧
          (resolve (e.withOpts e.opts.noTs) n path request).Returns a)) := by
  rcases C41_paths e n path request loc hw ht a h with h1 | ⟨json, entries, order, h1, h2, h3, h4⟩
  · exact .inl h1
  right
  rcases (tsValue_chain hw hs h1).2 with h5 | ⟨chain, h5, h6⟩
  · exact .inl h5
  refine .inr ⟨chain, h5, fun hc => ?_⟩
  have key : ∀ o, EntriesTried (fun p s => (resolveInner e.ctx n ⟨p, Request.empty⟩).Returns s)
      (parseRequest request).target order o →
      PathsTried (fun p s => (resolveInner e.ctx n ⟨p, Request.empty⟩).Returns s)
      (tsWanted chain (parseRequest request).target) o := fun o ho =>
    tried_of_entries hc h5 h6 h2 h3 ho
  rcases h4 with ⟨r, h7, h8⟩ | ⟨h7, h8⟩
  · exact .inl ⟨r, key _ h7, h8⟩
  · exact .inr ⟨key _ h7, h8⟩

/-! ## The hypotheses are met -/

/-- The chain of `/p/tsconfig.json` in `treeTs`. -/
def chainTs : List TsOwn :=
  [⟨cs!"/p", none, none⟩, ⟨cs!"/p", some cs!"./src", some [(cs!"@/*", [cs!"./*"])]⟩]

open Classical in
example : TsSound (treeFs treeTs []) := by
  have key : ∀ doc : Doc, (doc = ⟨some tsOwn, .ok (some tsOwn)⟩ ∨ doc = ⟨some tsBase, .ok (some tsBase)⟩ ∨
      doc = ⟨none, .error cs!"not json"⟩) → ∀ json, doc.jsonc = .ok (some json) →
      (json.at [cs!"extends"] = none ∨ ∃ s, json.at [cs!"extends"] = some (.str s)) ∧
        ∃ f : TsOwn, f.Of json := by
    rintro doc (rfl | rfl | rfl) json h
    · cases h
      exact ⟨.inr ⟨_, rfl⟩, ⟨[], none, none⟩, .inr ⟨_, rfl⟩, rfl, rfl⟩
    · cases h
      exact ⟨.inl rfl, ⟨[], some _, some [(cs!"@/*", [cs!"./*"])]⟩, .inr ⟨_, rfl⟩, rfl, rfl⟩
    · cases h
  intro p doc json h1 h2
  refine key doc (of_decide_eq_true (allDoc_read (t := treeTs) (P := fun doc =>
    decide (doc = ⟨some tsOwn, .ok (some tsOwn)⟩ ∨ doc = ⟨some tsBase, .ok (some tsBase)⟩ ∨
      doc = ⟨none, .error cs!"not json"⟩)) ?_ h1)) json h2
  simp [treeTs, Tree.allDoc, allDocList, jsonFile, textFile]

-- the chain is that of the file
example : TsChain (treeFs treeTs []) (extFile (treeEnv optsTs treeTs).ctx) cs!"/p/tsconfig.json" chainTs := by
  refine .more (doc := ⟨some tsOwn, .ok (some tsOwn)⟩) (json := tsOwn) rfl rfl rfl rfl
    ⟨.inr ⟨_, rfl⟩, rfl, rfl⟩ ⟨⟨cs!"/p/./base.json", Request.empty⟩, ⟨20, ?_⟩, rfl⟩
    (.last (doc := ⟨some tsBase, .ok (some tsBase)⟩) (json := tsBase) rfl rfl rfl rfl ⟨.inr ⟨_, rfl⟩, rfl, rfl⟩)
  exact Prog.returns_of_run (w := World.init fun _ => 0) (Prod.ext (by rfl) rfl)

example : TsCommon chainTs cs!"@/x" where
  named := by decide
  base base paths h := by
    cases h
    exact ⟨by decide, _, _, cs!"./src", rfl, rfl, rfl⟩
  once := by decide
  unique base paths h := by cases h; decide
  full base paths kp h hm := by
    cases h
    cases List.mem_singleton.1 hm
    decide
  stars base paths kp s h hm hs := by
    cases h
    cases List.mem_singleton.1 hm
    cases List.mem_singleton.1 hs
    decide

example : tsWanted chainTs cs!"@/x" = [cs!"/p/./src/./x"] := by decide

/-! ## Where the code differs -/

/-- The contents of a tsconfig. -/
def tsJson (fields options : List (Str × Json)) : Json := .obj (fields ++ [(cs!"compilerOptions", .obj options)])

/-- The tsconfig `/p/t.json` with the given contents, and some files. -/
def treeTsc (json : Json) : Tree :=
  .dir [
    (cs!"p", .dir [(cs!"t.json", jsonFile json), (cs!"a.js", textFile), (cs!"src", .dir [(cs!"a.js", textFile),
      (cs!"bc.js", textFile)]), (cs!"node_modules", .dir [(cs!"a.js", textFile), (cs!"b.js", textFile)])]),
    (cs!"base", .dir [(cs!"t.json", jsonFile (tsJson [] [(cs!"baseUrl", .str cs!"src"),
      (cs!"paths", .obj [(cs!"b", .arr [.str cs!"a"])])])), (cs!"src", .dir [(cs!"a.js", textFile)])])]

/-- What a request from `/p` comes to. -/
def tscPath (json : Json) (request : Str) (seed : Nat := 0) : Option Str :=
  match ((resolve (treeEnv { optsA with tsconfig := some cs!"/p/t.json" } (treeTsc json)) 20 cs!"/p" request).run
    (World.init fun _ => seed)).1 with
  | .done (.ok (.info i)) => some i.path
  | _ => none

/-- C78 does not hold for relative requests: they are mapped as well. -/
theorem C78_relative_violated :
    tsWanted [⟨cs!"/p", some cs!".", some [(cs!"*", [cs!"src/*"])]⟩] cs!"./a" = [] ∧
    tscPath (tsJson [] [(cs!"baseUrl", .str cs!"."), (cs!"paths", .obj [(cs!"*", .arr [.str cs!"src/*"])])])
      cs!"./a" = some cs!"/p/src/a.js" := by
  decide +kernel

/-- C78 does not hold for an inherited `baseUrl`: it is taken to be relative to the directory of the tsconfig
that inherits it. -/
theorem C78_inherited_violated :
    tsWanted [⟨cs!"/p", none, none⟩, ⟨cs!"/p/../base", some cs!"src", some [(cs!"b", [cs!"a"])]⟩] cs!"b" =
      [cs!"/p/../base/src/a"] ∧
    tscPath (tsJson [(cs!"extends", .str cs!"../base/t.json")] []) cs!"b" = some cs!"/p/src/a.js" := by
  decide +kernel

/-- C78 does not hold for `paths` without `baseUrl`: they are not looked at. -/
theorem C78_alone_violated :
    tsWanted [⟨cs!"/p", none, some [(cs!"b", [cs!"./src/a"])]⟩] cs!"b" = [cs!"/p/./src/a"] ∧
    tscPath (tsJson [] [(cs!"paths", .obj [(cs!"b", .arr [.str cs!"./src/a"])])]) cs!"b" =
      some cs!"/p/node_modules/b.js" := by
  decide +kernel

/-- C78 does not hold if two files of the chain have `paths`: those of the extended file stay in force. -/
theorem C78_merged_violated :
    tsWanted [⟨cs!"/p", some cs!"src", some [(cs!"c", [cs!"a"])]⟩,
      ⟨cs!"/p/../base", some cs!"src", some [(cs!"b", [cs!"a"])]⟩] cs!"b" = [] ∧
    tscPath (tsJson [(cs!"extends", .str cs!"../base/t.json")] [(cs!"baseUrl", .str cs!"src"),
      (cs!"paths", .obj [(cs!"c", .arr [.str cs!"a"])])]) cs!"b" = some cs!"/p/src/a.js" := by
  decide +kernel

/-- C78 does not hold if two patterns fit: which of them is tried first is left to chance. -/
theorem C78_longest_violated :
    let json := tsJson [] [(cs!"baseUrl", .str cs!"."), (cs!"paths", .obj [(cs!"b*", .arr [.str cs!"src/b*"]),
      (cs!"bc", .arr [.str cs!"src/a"])])]
    tsWanted [⟨cs!"/p", some cs!".", some [(cs!"b*", [cs!"src/b*"]), (cs!"bc", [cs!"src/a"])]⟩] cs!"bc" =
      [cs!"/p/./src/a"] ∧
    tscPath json cs!"bc" 0 = some cs!"/p/src/bc.js" ∧ tscPath json cs!"bc" 1 = some cs!"/p/src/a.js" := by
  decide +kernel

/-- C78 does not hold for the lookup of a name below `baseUrl`, which TypeScript does before the usual one:
there is none. -/
theorem C78_base_violated :
    tscPath (tsJson [] [(cs!"baseUrl", .str cs!"./src")]) cs!"a" = some cs!"/p/node_modules/a.js" := by
  decide +kernel

/-- C78 does not hold if an `extends` is not found, or is a list: it is passed over. -/
theorem C78_lost_violated :
    let options := [(cs!"baseUrl", Json.str cs!"."), (cs!"paths", .obj [(cs!"b", .arr [.str cs!"src/a"])])]
    tscPath (tsJson [(cs!"extends", .str cs!"./nowhere.json")] options) cs!"b" = some cs!"/p/src/a.js" ∧
    tscPath (tsJson [(cs!"extends", .arr [.str cs!"../base/t.json"])] [(cs!"baseUrl", .str cs!"src")]) cs!"b" =
      some cs!"/p/node_modules/b.js" := by
  decide +kernel

/-- C78 does not hold if the directory of the tsconfig has a `*` in its name: the text goes there, too. -/
theorem C78_star_violated :
    tsWanted [⟨cs!"/*", some cs!".", some [(cs!"b/*", [cs!"src/*"])]⟩] cs!"b/a" = [cs!"/*/./src/a"] ∧
    (resolve (treeEnv { optsA with tsconfig := some cs!"/*/t.json" } (.dir [(cs!"*", .dir [
      (cs!"t.json", jsonFile (tsJson [] [(cs!"baseUrl", .str cs!"."),
        (cs!"paths", .obj [(cs!"b/*", .arr [.str cs!"src/*"])])])),
      (cs!"src", .dir [(cs!"a.js", textFile)])])])) 20 cs!"/" cs!"b/a").freshInfo = none := by
  decide +kernel

end Verif
