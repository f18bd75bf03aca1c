import Verif.Proofs.Base
import Verif.Proofs.BrowserOff
import Verif.Props.Normalize
import Verif.Props.Request
import Verif.Props.Result
import Verif.Props.Packages
/-!
# Properties about base paths and returned paths: C57, C58, C59
-/

namespace Verif

variable {cfg : Nat → Config} {ser : Json → Str} {fs : Fs}

/-! ## C57 -/

/-- The calls without caches. -/
theorem sameCall_pure (hs : Static cfg ser fs) (rid : Nat) {call call' : Call}
    (h : SameCall (cfg rid).opts call call') (fuel : Nat) :
    (call.pure (cfg rid) fs fuel).Rel (fun _ => True) (fun _ _ => True) Answer.Sim
      (call'.pure (cfg rid) fs fuel) := by
  cases call <;> cases call' <;> first
    | exact (h : False).elim
    | skip
  · obtain ⟨rfl, h1, h2, h3⟩ := h
    exact Prog.Rel.bind (resolveCtx_rel' (pure_ctxSim (G := fun _ => True) (R := fun _ _ => True) _ hs.lawful (fun hb desc hd => hs.browser rid desc hb hd))
      (fun _ => trivial) fuel ⟨rfl, h2, h1, h3.imp_right (·.1)⟩ (h3.imp_right (·.2)) (hs.tsconfig rid))
      fun a b hab => .ret hab
  · rename_i p q
    obtain ⟨h1, h2⟩ : isAbs p = true ∧ comps p = comps q := h
    refine Prog.Rel.bind (Q := SideSim) ?_ fun a b hab => .ret hab
    unfold findSideEffects
    cases hd : (cfg rid).opts.descriptionFile with
    | none => exact .ret trivial
    | some desc =>
      rcases closest_comps (desc := desc) hs.lawful h1 h2 with ⟨h3, h4⟩ | ⟨d, d', h3, h4, h5, h6, h7, -⟩
      · rw [findPkg_none h3, findPkg_none h4]; exact .ret trivial
      · rw [findPkg_here h3, findPkg_here h4, Prog.bind_assoc, Prog.bind_assoc]
        refine Prog.Rel.bind (readPkg_comps hs.lawful h6 h5).returns fun a b ⟨hab, hb⟩ => ?_
        cases a with
        | error err =>
          cases b with
          | ok y => exact (by cases hab)
          | error err' => exact .ret hab
        | ok x =>
          cases b with
          | error err' => exact (by cases hab)
          | ok y =>
            have hxy : x = { y with absDir := d } := hab
            have hyd := readPkg_dir (readPkg_returns hb)
            refine .ret ⟨?_, by rw [hxy]⟩
            rw [hxy, hyd]
            exact (sim_pjoin h6 h5 desc).1

/-- C57: calls that differ in the spelling of the base path only end alike, in any two histories.
Missing: a path with and one without a separator at the end, if the request is empty or `.`
(`C57_end_violated`); and what is missing in C33. -/
theorem C57_spelling_partial {cfg' : Nat → Config} (hs : Static cfg ser fs) (hs' : Static cfg' ser fs)
    (l l' : List Event) (hl : ∀ e ∈ l, e.calm) (hl' : ∀ e ∈ l', e.calm)
    (t t' : Task) (ht : t ∈ ((Sys.init fs).after cfg ser l).tasks)
    (ht' : t' ∈ ((Sys.init fs).after cfg' ser l').tasks)
    (hopts : (cfg t.rid).opts = (cfg' t'.rid).opts) (hcall : SameCall (cfg t.rid).opts t.call t'.call)
    (hfuel : t.fuel = t'.fuel) (hts : TsClear (cfg t.rid).opts fs t.call)
    (o o' : Outcome Answer) (ho : t.prog.outcome = some o) (ho' : t'.prog.outcome = some o') :
    o.Like Answer.Sim o' := by
  obtain ⟨x, h1, h2⟩ := static_ends hs hl ht ho
  obtain ⟨x', h1', h2'⟩ := static_ends hs' hl' ht' ho'
  have e : t'.call.pure (cfg' t'.rid) fs t'.fuel = t'.call.pure (cfg t.rid) fs t.fuel := by
    rw [← hfuel]
    unfold Call.pure
    rw [hopts, hs.debug t.rid, hs'.debug t'.rid]
  rw [e] at h1'
  have hts' : TsClear (cfg t.rid).opts fs t'.call := by
    revert hcall hts
    cases t.call <;> cases t'.call <;> intro hcall hts <;> first
      | exact (hcall : False).elim
      | trivial
      | exact hcall.1 ▸ hts
  obtain ⟨y, hy⟩ := call_sure hs t.rid hts' t.fuel
  obtain ⟨x'', h3, h4⟩ := (sameCall_pure hs t.rid hcall t.fuel).ends_any h1
  rw [hy _ h1', ← hy _ h3] at h2'
  refine Answer.like_join ?_ h2'
  cases o <;> cases x <;> cases x'' <;> first
    | exact (h2 : False).elim
    | exact (h4 : False).elim
    | exact Answer.Sim.trans h2 h4
    | exact Eq.trans h2 h4

/-- `/p` with an index file next to `/p.js`. -/
def treeEnd : Tree :=
  .dir [(cs!"p.js", textFile), (cs!"p", .dir [(cs!"index.js", textFile), (cs!"a.js", textFile)])]

/-- C57 does not hold for the request `.`: a separator at the end of the base path decides whether an
extension may be added to its name. -/
theorem C57_end_violated :
    ((resolve (treeEnv optsA treeEnd) 20 cs!"/p" cs!".").freshInfo).map (·.path) = some cs!"/p.js" ∧
      ((resolve (treeEnv optsA treeEnd) 20 cs!"/p/" cs!".").freshInfo).map (·.path) =
        some cs!"/p/index.js" := by
  decide +kernel

-- the hypotheses of C57 are met; see `static_pk` for `Static`
example : SameCall (cfgPk 0).opts (.resolve cs!"/p" cs!"./a") (.resolve cs!"//./p/" cs!"./a") ∧
    TsClear (cfgPk 0).opts (treeFs treePk []) (.resolve cs!"/p" cs!"./a") ∧
    ((Sys.init (treeFs treePk [])).after cfgPk serJson
      (.start 0 (.resolve cs!"//./p/" cs!"./a") 20 :: List.replicate 40 (.step 0 0))).info 0 =
        some ⟨cs!"/p/a.js", ⟨[], [], [], .relative⟩⟩ := by
  refine ⟨⟨rfl, by decide, by decide, .inr ⟨⟨by decide, by decide⟩, nofun⟩⟩, ?_, by decide +kernel⟩
  intro loc h
  cases h

/-! ## C58 -/

/-- C58: an absolute request to which no alias applies is resolved alike from every directory, in every
state of the caches, and leaves the same state; only the directory in the message "Resolve … failed in …"
differs. Missing: `prefer_relative` (`C58_prefer_violated`) and aliases that apply (`C58_alias_violated`). -/
theorem C58_absolute_partial (e : Env) (n : Nat) (p q request : Str)
    (ha : isAbs (parseRequest request).target = true)
    (hal : ∀ kv ∈ e.opts.alias, ¬ kv.1 <+: (parseRequest request).target)
    (hp : e.opts.preferRelative = false) (w : World) :
    ((resolve e n p request).run w).2 = ((resolve e n q request).run w).2 ∧
      BaseOnly request p q ((resolve e n p request).run w).1 ((resolve e n q request).run w).1 := by
  have hk : AbsReq (parseRequest request) := by
    obtain ⟨r, hr⟩ := (isAbs_iff _).1 ha
    exact ⟨ha, ((C03_kind request).2.2.1).2 ⟨r, by rw [hr]; rfl⟩⟩
  obtain ⟨h1, h2⟩ := (resolve_twin e n (p := p) (q := q) hk (fun kv hkv => by
    rw [Bool.eq_false_iff]
    exact fun h => hal kv hkv (List.isPrefixOf_iff_prefix.1 h)) hp).run w
  refine ⟨h2, ?_⟩
  have hdisp : (parseRequest request).display = request := (parse_isSplit request).concat.symm
  revert h1
  generalize ((resolve e n p request).run w).1 = x
  generalize ((resolve e n q request).run w).1 = y
  intro h1
  cases x with
  | crashed c =>
    cases y with
    | crashed c' => cases (h1 : c = c'); exact .same _
    | done b => exact (h1 : False).elim
  | done a =>
    cases y with
    | crashed c' => exact (h1 : False).elim
    | done b =>
      rcases h1 with rfl | ⟨rfl, rfl⟩
      · exact .same _
      · simp only [failedMessage, hdisp]
        exact .failed

/-- `/a.js` and `/p/a.js`. -/
def treePref : Tree :=
  .dir [(cs!"a.js", textFile), (cs!"p", .dir [(cs!"a.js", textFile)])]

/-- C58 does not hold with `prefer_relative`: the absolute request is first looked up below the
directory it comes from. -/
theorem C58_prefer_violated :
    ((resolve (treeEnv { optsA with preferRelative := true } treePref) 20 cs!"/p" cs!"/a.js").freshInfo).map
        (·.path) = some cs!"/p/a.js" ∧
      ((resolve (treeEnv { optsA with preferRelative := true } treePref) 20 cs!"/" cs!"/a.js").freshInfo).map
        (·.path) = some cs!"/a.js" := by
  decide +kernel

/-- Nor does it hold with an alias that makes a relative request of it. -/
theorem C58_alias_violated :
    ((resolve (treeEnv { optsA with alias := [(cs!"/x", .target cs!"./a")] } treePref) 20 cs!"/p"
        cs!"/x.js").freshInfo).map (·.path) = some cs!"/p/a.js" ∧
      ((resolve (treeEnv { optsA with alias := [(cs!"/x", .target cs!"./a")] } treePref) 20 cs!"/"
        cs!"/x.js").freshInfo).map (·.path) = some cs!"/a.js" := by
  decide +kernel

-- the hypotheses of C58 are met, by a file, a directory with main file and a missing path
example : isAbs (parseRequest cs!"/p/a?q").target = true ∧
    (∀ kv ∈ (treeEnv optsA treeA).opts.alias, ¬ kv.1 <+: (parseRequest cs!"/p/a?q").target) ∧
    (treeEnv optsA treeA).opts.preferRelative = false ∧
    (resolve (treeEnv optsA treeA) 20 cs!"/x/y" cs!"/p/a?q").freshInfo =
      some ⟨cs!"/p/a.js", ⟨[], cs!"?q", [], .relative⟩⟩ ∧
    (resolve (treeEnv optsA treeA) 20 cs!"/x/y" cs!"/p/nope").freshErr =
      some cs!"Resolve '/p/nope' failed in '/x/y'" := by
  refine ⟨by decide, nofun, rfl, by decide +kernel, by decide +kernel⟩

/-! ## C59 -/

theorem parse_plain {s : Str} (h1 : '?' ∉ s) (h2 : '#' ∉ s) :
    (parseRequest s).target = s ∧ (parseRequest s).query = [] ∧ (parseRequest s).fragment = [] :=
  (C02_parse_canonical s s [] []).1 (by
    refine ⟨by simp, h1, fun h => h2 (List.mem_of_mem_tail h), .inl rfl, nofun, .inl rfl, fun _ _ => rfl⟩)

theorem FinalPath.det {o : Opts} {p q q' : Str} (h : FinalPath o fs p q) (h' : FinalPath o fs p q') :
    q = q' := by
  cases h with
  | lexical hs =>
    cases h' with
    | lexical _ => rfl
    | canonical hs' _ => rw [hs] at hs'; cases hs'
  | canonical hs hc =>
    cases h' with
    | lexical hs' => rw [hs] at hs'; cases hs'
    | canonical _ hc' => rw [hc] at hc'; exact Option.some.inj hc'

/-- C59: a path that was returned resolves to itself, from every directory and after any history.
Missing: paths with `?` or `#` in them (`C59_mark_violated`); enforced extensions (`C59_enforced_violated`);
a description file above the path that is broken or whose `browser` map covers it (`C59_broken_violated`,
`C59_browser_violated`); aliases that apply to it, `prefer_relative` and tsconfig (`C59_options_violated`). -/
theorem C59_again_partial (hs : Static cfg ser fs) (l : List Event) (hl : ∀ e ∈ l, e.calm)
    (t : Task) (ht : t ∈ ((Sys.init fs).after cfg ser l).tasks) {path request : Str} {i : Info}
    (hc : t.call = .resolve path request) (hd : t.prog = .ret (.resolve (.ok (.info i))))
    (hfin : FinalFiles (cfg t.rid).opts fs) (henf : (cfg t.rid).opts.enforceExtension ≠ some true)
    (h1 : '?' ∉ i.path) (h2 : '#' ∉ i.path) {base : Str} (hbase : isAbs base = true)
    (hp : Plain (cfg t.rid).opts base i.path)
    {pkg : Option Pkg} (hload : Loads (cfg t.rid).opts fs i.path (.ok pkg))
    (hn : NotCovered (cfg t.rid).opts pkg i.path) :
    Yields cfg ser fs t.rid base i.path (.ok (.info ⟨i.path, ⟨[], [], [], .relative⟩⟩)) := by
  have hfs : t.fs = fs := ((static_after hs hl).2.2 t ht).1
  obtain ⟨j, hj, ha, -, hi⟩ := system_absOk ht (fun e he rid p r n h => by
    have := hl e he
    subst h
    exact ⟨this, hs.tsconfig rid⟩) hc hd
  rw [hfs] at hi
  have hf : fs.isFile j.path = true := hfs ▸ hj.file
  have hfp : FinalPath (cfg t.rid).opts fs j.path i.path := by
    cases hsym : (cfg t.rid).opts.symlinks with
    | true => rw [hsym, if_pos rfl] at hi; exact .canonical hsym hi
    | false =>
      rw [hsym, if_neg (by decide)] at hi
      rw [hi]
      exact .lexical hsym
  obtain ⟨h3, h4, h5⟩ := hfin _ _ ha hf hfp
  obtain ⟨e1, e2, e3⟩ := parse_plain h1 h2
  obtain ⟨r, hr⟩ := (isAbs_iff _).1 h3
  have htp : targetPath base i.path = i.path := by
    unfold targetPath
    rw [if_neg (by rw [hr]; simp), pjoin_abs h3]
  have hk : getTargetKind i.path = .absolutePosix := by
    have := ((C03_kind i.path).2.2.1).2 ⟨r, by rw [e1, hr]; rfl⟩
    rwa [show (parseRequest i.path).kind = getTargetKind (parseRequest i.path).target from rfl, e1] at this
  obtain ⟨a, h6, h7⟩ := C10_found (request := i.path) (path := base) (p := i.path) hs (by rw [e1]; exact hp) hbase
    (by rw [e1]; exact .inr (.inl hk)) (by rw [e1, htp]; exact hload) (by rw [e1, htp]; exact hn)
    ⟨[], _, by rw [e1, htp, fileCandidates, if_neg henf]; rfl, h4, nofun⟩
  rw [e2, e3] at h6
  cases h6 with
  | path h8 => rw [← h5.det h8] at h7; exact h7
  | noPath h8 h9 =>
    have : ∀ q, ¬ FinalPath (cfg t.rid).opts fs i.path q := by
      intro q h
      cases h with
      | lexical h => rw [h8] at h; cases h
      | canonical _ h => rw [h9] at h; cases h
    exact absurd h5 (this _)

/-- On a tree without symbolic links. -/
theorem finalFiles_tree (o : Opts) {tree : Tree} (cwd : List Str) (hroot : tree.isDir = true) :
    FinalFiles o (treeFs tree cwd) := by
  intro p q ha hf hq
  cases hl : tree.lookup cwd p with
  | none => simp [treeFs, Tree.node, hl] at hf
  | some loc =>
    have hn := Tree.lookup_normalizeLex ha hl hroot
    obtain ⟨h1, -⟩ := Tree.lookup_abs ha hl
    have hcan : absText loc = normalizeLex p := by rw [h1, (normalizeLex_eq p).1, ha, absText_eq]
    have hq' : q = normalizeLex p := by
      cases hq with
      | lexical _ => rfl
      | canonical _ hc =>
        simp only [treeFs, hl, Option.map_some, Option.some.injEq] at hc
        rw [← hc, hcan]
    subst hq'
    refine ⟨(C05_no_dots p).2.2.trans ha, ?_, ?_⟩
    · simp only [treeFs, Tree.node, hl, hn] at hf ⊢
      exact hf
    · cases hq with
      | lexical hs =>
        have := FinalPath.lexical (fs := treeFs tree cwd) (p := normalizeLex p) hs
        rwa [C06_idempotent] at this
      | canonical hs hc =>
        refine .canonical hs ?_
        simp only [treeFs, hn, Option.map_some, hcan]

/-- `/p/a?b.js`, reached as a main file; `/p/lib` with a broken description file. -/
def treeAgain : Tree :=
  .dir [(cs!"p", .dir [
    (cs!"package.json", jsonFile (.obj [(cs!"main", .str cs!"./lib/x.js")])),
    (cs!"lib", .dir [(cs!"package.json", textFile), (cs!"x.js", textFile)]),
    (cs!"q", .dir [(cs!"package.json", jsonFile (.obj [(cs!"main", .str cs!"./a?b.js")])),
      (cs!"a?b.js", textFile)])])]

/-- C59 does not hold for names with `?`: the path returned is read as a path with a query. -/
theorem C59_mark_violated :
    ((resolve (treeEnv optsA treeAgain) 20 cs!"/p" cs!"./q").freshInfo).map (·.path) =
        some cs!"/p/q/a?b.js" ∧
      (resolve (treeEnv optsA treeAgain) 20 cs!"/p" cs!"/p/q/a?b.js").freshErr =
        some cs!"Resolve '/p/q/a?b.js' failed in '/p'" := by
  decide +kernel

/-- C59 does not hold if there is a broken description file between the file and the package it was
found through. -/
theorem C59_broken_violated :
    ((resolve (treeEnv optsA treeAgain) 20 cs!"/" cs!"./p").freshInfo).map (·.path) =
        some cs!"/p/lib/x.js" ∧
      (resolve (treeEnv optsA treeAgain) 20 cs!"/" cs!"/p/lib/x.js").freshErr =
        some cs!"Parse /p/lib/package.json failed" := by
  decide +kernel

/-- C59 does not hold with enforced extensions: the extension is asked for again. -/
theorem C59_enforced_violated :
    ((resolve (treeEnv { optsA with enforceExtension := some true } treePref) 20 cs!"/p" cs!"./a").freshInfo).map
        (·.path) = some cs!"/p/a.js" ∧
      (resolve (treeEnv { optsA with enforceExtension := some true } treePref) 20 cs!"/p" cs!"/p/a.js").freshErr =
        some cs!"Resolve '/p/a.js' failed in '/p'" := by
  decide +kernel

/-- `/p` has its main file in `/p/lib`, which has a `browser` map for it. -/
def treeCovered : Tree :=
  .dir [(cs!"p", .dir [
    (cs!"package.json", jsonFile (.obj [(cs!"main", .str cs!"./lib/x.js")])),
    (cs!"lib", .dir [
      (cs!"package.json", jsonFile (.obj [(cs!"browser", .obj [(cs!"./x.js", .str cs!"./y.js")])])),
      (cs!"x.js", textFile), (cs!"y.js", textFile)])])]

/-- C59 does not hold if the `browser` map nearest to the file covers it: on the way through the package
above, it is not asked. -/
theorem C59_browser_violated :
    ((resolve (treeEnv { optsA with browserField := true } treeCovered) 20 cs!"/" cs!"./p").freshInfo).map
        (·.path) = some cs!"/p/lib/x.js" ∧
      ((resolve (treeEnv { optsA with browserField := true } treeCovered) 20 cs!"/"
        cs!"/p/lib/x.js").freshInfo).map (·.path) = some cs!"/p/lib/y.js" := by
  decide +kernel

/-- `/a.js`, `/p/a.js` and a tsconfig that maps `/a.js` to the latter. -/
def treeTaken : Tree :=
  .dir [(cs!"a.js", textFile), (cs!"p", .dir [(cs!"a.js", textFile)]),
    (cs!"tsconfig.json", jsonFile (.obj [(cs!"compilerOptions", .obj [
      (cs!"baseUrl", .str cs!"."), (cs!"paths", .obj [(cs!"/a.js", .arr [.str cs!"p/a.js"])])])]))]

/-- C59 does not hold with `prefer_relative`, aliases that apply to the path, or a tsconfig that maps it:
`/a.js` is returned, but `/a.js` resolves to `/p/a.js`. -/
theorem C59_options_violated :
    ∀ o ∈ [{ optsA with preferRelative := true },
        { optsA with alias := [(cs!"/a", .target cs!"/p/a")] },
        { optsA with tsconfig := some cs!"/tsconfig.json" }],
      ((resolve (treeEnv o treeTaken) 20 cs!"/" cs!"./a").freshInfo).map (·.path) = some cs!"/a.js" ∧
      ((resolve (treeEnv o treeTaken) 20 cs!"/p" cs!"/a.js").freshInfo).map (·.path) =
        some cs!"/p/a.js" := by
  decide +kernel

-- the hypotheses of C59 are met
example : let o := (cfgPk 0).opts
    ((Sys.init (treeFs treePk [])).after cfgPk serJson
      (.start 0 (.resolve cs!"/p" cs!"./d") 20 :: List.replicate 40 (.step 0 0))).info 0 =
        some ⟨cs!"/p/d/lib/index.js", ⟨[], [], [], .relative⟩⟩ ∧
    FinalFiles o (treeFs treePk []) ∧ o.enforceExtension ≠ some true ∧
    '?' ∉ cs!"/p/d/lib/index.js" ∧ '#' ∉ cs!"/p/d/lib/index.js" ∧ Plain o cs!"/x" cs!"/p/d/lib/index.js" ∧
    ∃ pkg, Loads o (treeFs treePk []) cs!"/p/d/lib/index.js" (.ok pkg) ∧
      NotCovered o pkg cs!"/p/d/lib/index.js" := by
  refine ⟨by decide +kernel, finalFiles_tree _ _ rfl, by decide, by decide, by decide,
    ⟨rfl, .inr nofun, .inl rfl⟩, _, loads_of_ok (by decide +kernel), nofun⟩

end Verif
