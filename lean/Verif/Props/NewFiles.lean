import Verif.Proofs.NewFiles
import Verif.Proofs.FileAdded
import Verif.Props.Appended
/-!
# C82: a new file changes only the answers that become this file
-/

namespace Verif

variable {cfg cfg' : Nat → Config} {ser : Json → Str} {fs fs' : Fs}

theorem AnswerIn.of_sim {P : Str → Prop} {o : Opts} {a b : Except Err Result}
    (h : AnswerIn P o fs b) (hab : AnsSim a b) : AnswerIn P o fs a := by
  obtain ⟨p, q, f, h1, h2⟩ := h
  refine ⟨p, q, f, h1, ?_⟩
  cases h2 with
  | path h =>
    cases a with
    | ok a => cases (hab : a = _); exact .path h
    | error e => exact (hab : False).elim
  | noPath h h' =>
    cases a with
    | ok a => exact (hab : False).elim
    | error e => cases (hab : ErrSim e _); exact .noPath h h'

/-- C82: the file system `fs'` is `fs` with some new files. Two resolvers have the same options; one works
on `fs`, the other on `fs'`. After any histories, compare calls `resolve path request` of the two that are
over. The second ended like the first, or its answer is one of the new files; so a request that is resolved
without the new files is resolved with them, and no answer becomes another old file. (The second needs at
most one unit of the model's fuel more.) Missing: `browser_field` is off, no extension is enforced, there is
no tsconfig and there are no `imports`, and no new file is a description file or is at a place of a package
in `node_modules`; the witnesses below show that all this is needed. -/
theorem C82_new_partial (hs : Static cfg ser fs) (hs' : Static cfg' ser fs') {P : Str → Prop}
    (hP : Adds P fs fs') {l l' : List Event} {t t' : Task}
    (ho : (cfg' t'.rid).opts = (cfg t.rid).opts)
    (hb : (cfg t.rid).opts.browserField = false) (he : (cfg t.rid).opts.enforceExtension ≠ some true)
    (hts : (cfg t.rid).opts.tsconfig = none) (himp : ∀ v, ¬ IsField fs cs!"imports" v)
    (hdesc : ∀ d desc, (cfg t.rid).opts.descriptionFile = some desc → ¬ P (pjoin d desc))
    (hbare : ∀ d m, PackageName m m → ¬ P (pjoin (pjoin d cs!"node_modules") m))
    (hl : ∀ e ∈ l, e.calm) (ht : t ∈ ((Sys.init fs).after cfg ser l).tasks)
    (hl' : ∀ e ∈ l', e.calm) (ht' : t' ∈ ((Sys.init fs').after cfg' ser l').tasks) {path request : Str}
    (hc : t.call = .resolve path request) (hc' : t'.call = .resolve path request)
    {x x' : Outcome Answer} (hx : t.prog.outcome = some x) (hx' : t'.prog.outcome = some x')
    (hf : x ≠ .crashed .fuel) :
    (x' = .crashed .fuel ∧ t'.fuel ≤ t.fuel) ∨ x'.Like Answer.Sim x ∨
      ∃ a, x' = .done (.resolve a) ∧ AnswerIn P (cfg t.rid).opts fs' a := by
  obtain ⟨y, h1, h2⟩ := static_ends hs hl ht hx
  obtain ⟨y', h1', h2'⟩ := static_ends hs' hl' ht' hx'
  rw [hc] at h1
  rw [hc'] at h1'
  have hyf : y ≠ .crashed .fuel := by
    rintro rfl
    cases x with
    | done a => exact h2
    | crashed c => cases (h2 : c = .fuel); exact hf rfl
  have hg : ((Call.resolve path request).pure (cfg t.rid) fs t.fuel).Grows
      (fun a => ∃ r, a = .resolve r ∧ AnswerIn P (cfg t.rid).opts fs' r)
      ((Call.resolve path request).pure (cfg' t'.rid) fs' (t.fuel + 1)) := by
    unfold Call.pure
    simp only [hs.debug, hs'.debug, ho]
    exact (fresh_resolve ⟨hP, hb, he, hdesc, hbare, himp⟩ hts t.fuel path request).bind (fun r => .ret _)
      fun r hr => ⟨_, rfl, r, rfl, hr⟩
  -- how the second call ends with one unit more
  have key : ∃ z, ((Call.resolve path request).pure (cfg' t'.rid) fs' (t.fuel + 1)).outcome = some z ∧
      z ≠ .crashed .fuel ∧ (z = y ∨ ∃ r, z = .done (.resolve r) ∧ AnswerIn P (cfg t.rid).opts fs' r) := by
    generalize (Call.resolve path request).pure (cfg t.rid) fs t.fuel = p at hg h1
    generalize (Call.resolve path request).pure (cfg' t'.rid) fs' (t.fuel + 1) = q at hg
    cases hg with
    | fuel => cases h1; exact (hyf rfl).elim
    | ret a => cases h1; exact ⟨_, rfl, nofun, .inl rfl⟩
    | crash c => cases h1; exact ⟨_, rfl, hyf, .inl rfl⟩
    | found _ hn =>
      obtain ⟨r, rfl, hr⟩ := hn
      exact ⟨_, rfl, nofun, .inr ⟨r, rfl, hr⟩⟩
  obtain ⟨z, hz, hzf, hzy⟩ := key
  rcases ends_of_enough (callPure_cut _) hz hzf h1' with ⟨rfl, hlt⟩ | rfl
  · left
    cases x' with
    | done a => exact (h2' : False).elim
    | crashed c => cases (h2' : c = .fuel); exact ⟨rfl, by omega⟩
  · right
    rcases hzy with rfl | ⟨r, rfl, hr⟩
    · exact .inl (Answer.like_join h2' h2)
    · right
      cases x' with
      | crashed c => exact (h2' : False).elim
      | done a' =>
        cases a' with
        | sideEffects a' => exact (h2' : False).elim
        | resolve a' => exact ⟨a', rfl, hr.of_sim h2'⟩

/-- C82 on trees: `u'` is the tree `u` with a new file at `loc`. Here the assumptions on the new file are about
its place: it is not named like the description file, and it is not `…/node_modules/m` or
`…/node_modules/@s/m`. -/
theorem C82_tree_partial {u u' : Tree} {loc : List Str} (hu : FileAdded u u' loc) {cwd : List Str}
    (hs : Static cfg ser (treeFs u cwd)) (hs' : Static cfg' ser (treeFs u' cwd))
    {l l' : List Event} {t t' : Task} (ho : (cfg' t'.rid).opts = (cfg t.rid).opts)
    (hb : (cfg t.rid).opts.browserField = false) (he : (cfg t.rid).opts.enforceExtension ≠ some true)
    (hts : (cfg t.rid).opts.tsconfig = none) (himp : ∀ v, ¬ IsField (treeFs u cwd) cs!"imports" v)
    (hdesc : ∀ desc, (cfg t.rid).opts.descriptionFile = some desc →
      (desc ≠ [] ∧ '/' ∉ desc ∧ desc ≠ cs!"." ∧ desc ≠ cs!"..") ∧ loc.getLast? ≠ some desc)
    (hbare : ¬ PackagePlace loc)
    (hl : ∀ e ∈ l, e.calm) (ht : t ∈ ((Sys.init (treeFs u cwd)).after cfg ser l).tasks)
    (hl' : ∀ e ∈ l', e.calm) (ht' : t' ∈ ((Sys.init (treeFs u' cwd)).after cfg' ser l').tasks) {path request : Str}
    (hc : t.call = .resolve path request) (hc' : t'.call = .resolve path request)
    {x x' : Outcome Answer} (hx : t.prog.outcome = some x) (hx' : t'.prog.outcome = some x')
    (hf : x ≠ .crashed .fuel) :
    (x' = .crashed .fuel ∧ t'.fuel ≤ t.fuel) ∨ x'.Like Answer.Sim x ∨
      ∃ a, x' = .done (.resolve a) ∧
        AnswerIn (fun p => u'.lookup cwd p = some loc) (cfg t.rid).opts (treeFs u' cwd) a := by
  obtain ⟨doc, m, hfile⟩ := hu.file
  exact C82_new_partial hs hs' (hu.adds cwd) ho hb he hts himp
    (fun d desc hd hp => (hdesc desc hd).2 (Tree.lookup_name (hdesc desc hd).1 hp))
    (fun d m hm hp => hbare (Tree.lookup_packagePlace hm hfile hp)) hl ht hl' ht' hc hc' hx hx' hf

/-- `/p/x/index.js` and the package `/p/node_modules/m` with exports for two files, of which only the second
exists; `new` are further files of the package. -/
def treeNew (new : List (Str × Tree)) : Tree :=
  .dir [(cs!"p", .dir [
    (cs!"x", .dir [(cs!"index.js", textFile)]),
    (cs!"node_modules", .dir [(cs!"m", .dir ([
      (cs!"package.json", jsonFile (.obj [(cs!"exports", .arr [.str cs!"./a.js", .str cs!"./b.js"])])),
      (cs!"b.js", textFile)] ++ new))])])]

/-- The file `/p/node_modules/m/a.js` is new. -/
theorem added_a : FileAdded (treeNew []) (treeNew [(cs!"a.js", textFile)])
    [cs!"p", cs!"node_modules", cs!"m", cs!"a.js"] := by
  refine .under (.under (.under (.here rfl rfl rfl rfl ?_) rfl rfl rfl rfl ?_) rfl rfl rfl rfl ?_) rfl rfl rfl rfl ?_
  all_goals
    intro k hk
    simp [treeNew, Tree.child, alookup, hk]
    try grind

/-- No file has imports. -/
def docNoImports (d : Doc) : Bool :=
  match d.json with
  | some j => (j.get cs!"imports").isNone
  | none => true

theorem noImports {t : Tree} (ht : t.allDoc docNoImports = true) (v : Json) :
    ¬ IsField (treeFs t []) cs!"imports" v := by
  rintro ⟨p, doc, json, hr, hj, hv⟩
  have := allDoc_read ht hr
  simp only [docNoImports, hj, hv] at this
  cases this

theorem static_new {t : Tree} (hd : t.isDir = true) (ht : t.allDoc docNoImports = true) :
    Static (fun _ => config optsA 0) serJson (treeFs t []) where
  lawful := treeFs_lawful [] hd
  debug _ := rfl
  inj _ _ := serJson_inj
  mix v t' _ h := (noImports ht v h).elim
  desc rid rid' d d' _ h h' := by rw [h] at h'; exact Option.some.inj h'
  browser rid desc h := by cases h
  tsconfig rid l h := by cases h

example : Static (fun _ => config optsA 0) serJson (treeFs (treeNew []) []) :=
  static_new rfl (by decide +kernel)
example : Static (fun _ => config optsA 0) serJson (treeFs (treeNew [(cs!"a.js", textFile)]) []) :=
  static_new rfl (by decide +kernel)
example (v : Json) : ¬ IsField (treeFs (treeNew []) []) cs!"imports" v := noImports (by decide +kernel) v

-- the hypotheses are met: the request for the package gets the new file, the request for `./x` what it got
example : (config optsA 0).opts.browserField = false ∧ (config optsA 0).opts.enforceExtension ≠ some true ∧
    (config optsA 0).opts.tsconfig = none ∧ (config optsA 0).opts.descriptionFile = some cs!"package.json" := by
  decide +kernel
example : ¬ PackagePlace [cs!"p", cs!"node_modules", cs!"m", cs!"a.js"] := by
  rintro ⟨l, m, h | ⟨s, ⟨r, rfl⟩, h⟩⟩
  · have := congrArg List.reverse h
    simp at this
  · have := congrArg List.reverse h
    simp at this
example :
    let calls := oneByOne 60 0 [(0, .resolve cs!"/p" cs!"m"), (0, .resolve cs!"/p" cs!"./x")]
    let run := (Sys.init (treeFs (treeNew []) [])).after (fun _ => config optsA 0) serJson calls
    let run' := (Sys.init (treeFs (treeNew [(cs!"a.js", textFile)]) [])).after (fun _ => config optsA 0) serJson calls
    run.info 0 = some ⟨cs!"/p/node_modules/m/b.js", Request.empty⟩ ∧
    run'.info 0 = some ⟨cs!"/p/node_modules/m/a.js", Request.empty⟩ ∧
    run.info 1 = some ⟨cs!"/p/x/index.js", Request.empty⟩ ∧
    run'.info 1 = some ⟨cs!"/p/x/index.js", Request.empty⟩ := by decide +kernel

/-- `/p/node_modules/m` with the given `package.json` and the given files. -/
def treePlus (json : Json) (files : List (Str × Tree)) : Tree :=
  .dir [(cs!"p", .dir [(cs!"node_modules", .dir [(cs!"m", .dir (
    (cs!"package.json", jsonFile json) :: files))])])]

/-- C82 does not hold with `browser` maps: with the new file `a.js` the request is resolved to the old file
`b.js`. -/
theorem C82_browser_violated :
    let o := { optsA with browserField := true }
    let json := .obj [(cs!"exports", .str cs!"./a.js"), (cs!"browser", .obj [(cs!"./a.js", .str cs!"./b.js")])]
    (resolve (treeEnv o (treePlus json [(cs!"b.js", textFile)])) 20 cs!"/p" cs!"m").freshInfo = none ∧
    (resolve (treeEnv o (treePlus json [(cs!"b.js", textFile), (cs!"a.js", textFile)])) 20 cs!"/p" cs!"m").freshInfo =
      some ⟨cs!"/p/node_modules/m/b.js", Request.empty⟩ := by
  decide +kernel

/-- C82 does not hold with enforced extensions: with the new file `a.js` the request is resolved to the old
file `a.js.js`. -/
theorem C82_enforced_violated :
    let o := { optsA with enforceExtension := some true }
    let json := .obj [(cs!"exports", .str cs!"./a.js")]
    (resolve (treeEnv o (treePlus json [(cs!"a.js.js", textFile)])) 20 cs!"/p" cs!"m").freshInfo = none ∧
    (resolve (treeEnv o (treePlus json [(cs!"a.js.js", textFile), (cs!"a.js", textFile)])) 20 cs!"/p" cs!"m").freshInfo =
      some ⟨cs!"/p/node_modules/m/a.js.js", Request.empty⟩ := by
  decide +kernel

/-- C82 does not hold with imports: exports lead to the new file `#a`, and then imports lead to the old file
`b.js`; the old answer was the old file `c.js`. -/
theorem C82_imports_violated :
    let json := .obj [(cs!"exports", .arr [.str cs!"#a", .str cs!"./c.js"]), (cs!"imports", .obj [(cs!"#a", .str cs!"./b.js")])]
    let files := [(cs!"b.js", textFile), (cs!"c.js", textFile)]
    (resolve (treeEnv optsA (treePlus json files)) 20 cs!"/p" cs!"m").freshInfo =
      some ⟨cs!"/p/node_modules/m/c.js", Request.empty⟩ ∧
    (resolve (treeEnv optsA (treePlus json (files ++ [(cs!"#a", textFile)]))) 20 cs!"/p" cs!"m").freshInfo =
      some ⟨cs!"/p/node_modules/m/b.js", Request.empty⟩ := by
  decide +kernel

/-- `/p` is the package `m`; the given files are in `/p/node_modules`. -/
def treePlace (files : List (Str × Tree)) : Tree :=
  .dir [(cs!"p", .dir [
    (cs!"package.json", jsonFile (.obj [(cs!"name", .str cs!"m"), (cs!"exports", .str cs!"./a.js")])),
    (cs!"a.js", textFile), (cs!"node_modules", .dir files)])]

/-- C82 does not hold for a new file in `node_modules`: with the new file `node_modules/mm` the request `mm` is
resolved to the old file `a.js` of the package `m`. -/
theorem C82_place_violated :
    (resolve (treeEnv optsA (treePlace [])) 20 cs!"/p" cs!"mm").freshInfo = none ∧
    (resolve (treeEnv optsA (treePlace [(cs!"mm", textFile)])) 20 cs!"/p" cs!"mm").freshInfo =
      some ⟨cs!"/p/a.js", Request.empty⟩ := by
  decide +kernel

/-- C82 does not hold for a new description file: it says that `b.js` is the main file. -/
theorem C82_description_violated :
    let tree (files : List (Str × Tree)) : Tree := .dir [(cs!"p", .dir [
      (cs!"d", .dir ([(cs!"index.js", textFile), (cs!"b.js", textFile)] ++ files))])]
    (resolve (treeEnv optsA (tree [])) 20 cs!"/p" cs!"./d").freshInfo = some ⟨cs!"/p/d/index.js", Request.empty⟩ ∧
    (resolve (treeEnv optsA (tree [(cs!"package.json", jsonFile (.obj [(cs!"main", .str cs!"./b.js")]))]))
      20 cs!"/p" cs!"./d").freshInfo = some ⟨cs!"/p/d/b.js", Request.empty⟩ := by
  decide +kernel

/-- `/p` with a tsconfig that extends `./base`, and the given files. -/
def treePlusTs (files : List (Str × Tree)) : Tree :=
  .dir [(cs!"p", .dir ([
    (cs!"tsconfig.json", jsonFile (.obj [(cs!"extends", .str cs!"./base")])),
    (cs!"a.js", textFile), (cs!"b.js", textFile)] ++ files))]

/-- C82 does not hold with a tsconfig: the new file `base.json` is what it extends. -/
theorem C82_tsconfig_violated :
    let o := { optsA with tsconfig := some cs!"/p/tsconfig.json" }
    let base := jsonFile (.obj [(cs!"compilerOptions", .obj [(cs!"baseUrl", .str cs!"."),
      (cs!"paths", .obj [(cs!"./a", .arr [.str cs!"b.js"])])])])
    (resolve (treeEnv o (treePlusTs [])) 20 cs!"/p" cs!"./a").freshInfo = some ⟨cs!"/p/a.js", Request.empty⟩ ∧
    (resolve (treeEnv o (treePlusTs [(cs!"base.json", base)])) 20 cs!"/p" cs!"./a").freshInfo =
      some ⟨cs!"/p/b.js", Request.empty⟩ := by
  decide +kernel

end Verif
