import Verif.Props.Base
import Verif.Props.Marks
/-!
# The joined form of a result: C67
-/

namespace Verif

/-- The query and the fragment of a result come from a text that was split. -/
theorem MarksFrom.shape {o : Opts} {F : Fs → Prop} {request query fragment : Str}
    (h : MarksFrom o F request query fragment) :
    (query = [] ∨ query.head? = some '?') ∧ '#' ∉ query ∧
      (fragment = [] ∨ fragment.head? = some '#') := by
  cases h with
  | request _ h => exact ⟨h.query_start, h.query_no_hash, h.fragment_start⟩
  | mapped _ _ _ _ _ _ _ _ _ _ _ h => exact ⟨h.query_start, h.query_no_hash, h.fragment_start⟩
  | paths _ h1 h2 => subst h1; subst h2; exact ⟨.inl rfl, nofun, .inl rfl⟩

/-- A path without marks, followed by a query and a fragment, is split into them. -/
theorem MarksFrom.split {o : Opts} {F : Fs → Prop} {request query fragment path : Str}
    (h : MarksFrom o F request query fragment) (h1 : '?' ∉ path) (h2 : '#' ∉ path) (h3 : path ≠ []) :
    IsSplit (path ++ query ++ fragment) path query fragment :=
  ⟨rfl, h1, fun h => h2 (List.mem_of_mem_tail h), h.shape.1, h.shape.2.1, h.shape.2.2,
    fun h => absurd h h3⟩

/-- C67, what holds in every history, for all options and files, as long as there is no `?` or `#` in the path
of the result: the joined form of a result, read as a request, is split into the path, the query and the
fragment of the result. So no part is lost, and two such results with the same joined form are the same but
for the target and its kind.
Missing: paths with `?` or `#` (`C67_mark_violated`, `C67_same_violated`). -/
theorem C67_split_partial {cfg : Nat → Config} {ser : Json → Str} {fs : Fs} (l : List Event) (t : Task)
    (ht : t ∈ ((Sys.init fs).after cfg ser l).tasks) (path request : Str) (i : Info)
    (hc : t.call = .resolve path request) (hd : t.prog = .ret (.resolve (.ok (.info i))))
    (h0 : i.path ≠ []) (h1 : '?' ∉ i.path) (h2 : '#' ∉ i.path) :
    IsSplit i.join i.path i.request.query i.request.fragment :=
  (C43_sources_partial l t ht path request i hc hd).split h1 h2 h0

/-- As `C67_split_partial`, with files that change at any moment.
Missing: paths with `?` or `#` (`C67_mark_violated`, `C67_same_violated`). -/
theorem C67_split_live_partial {cfg : Nat → Config} {ser : Json → Str} {fs : Fs} (l : List Event) (i : Nat)
    (t : Live.Task) (ht : ((Live.Sys.init fs).after cfg ser l).tasks[i]? = some t) (path request : Str)
    (j : Info) (hc : t.call = .resolve path request) (hr : t.prog = .ret (.resolve (.ok (.info j))))
    (h0 : j.path ≠ []) (h1 : '?' ∉ j.path) (h2 : '#' ∉ j.path) :
    IsSplit j.join j.path j.request.query j.request.fragment :=
  (C43_sources_live_partial l i t ht path request j hc hr).split h1 h2 h0

/-- C67: the joined form of a result resolves to the path, the query and the fragment of the result, from every
directory and after any history.
Missing: as for `C59_again_partial`: paths with `?` or `#` in them (`C67_mark_violated`), and where the path of the
result does not resolve to itself (`C59_enforced_violated`, `C59_broken_violated`, `C59_browser_violated`,
`C59_options_violated`). -/
theorem C67_again_partial {cfg : Nat → Config} {ser : Json → Str} {fs : Fs} (hs : Static cfg ser fs)
    (l : List Event) (hl : ∀ e ∈ l, e.calm)
    (t : Task) (ht : t ∈ ((Sys.init fs).after cfg ser l).tasks) {path request : Str} {i : Info}
    (hc : t.call = .resolve path request) (hd : t.prog = .ret (.resolve (.ok (.info i))))
    (hfin : FinalFiles (cfg t.rid).opts fs) (henf : (cfg t.rid).opts.enforceExtension ≠ some true)
    (h1 : '?' ∉ i.path) (h2 : '#' ∉ i.path) {base : Str} (hbase : isAbs base = true)
    (hp : Plain (cfg t.rid).opts base i.path)
    {pkg : Option Pkg} (hload : Loads (cfg t.rid).opts fs i.path (.ok pkg))
    (hn : NotCovered (cfg t.rid).opts pkg i.path) :
    Yields cfg ser fs t.rid base i.join
      (.ok (.info ⟨i.path, ⟨[], i.request.query, i.request.fragment, .relative⟩⟩)) := by
  have hfs : t.fs = fs := ((static_after hs hl).2.2 t ht).1
  obtain ⟨j, hj, ha, -, hi⟩ := system_absOk ht (fun e he rid p r n h => by
    have := hl e he
    subst h
    exact ⟨this, hs.tsconfig rid⟩) hc hd
  rw [hfs] at hi
  have hf : fs.isFile j.path = true := hfs ▸ hj.file
  have hfp : FinalPath (cfg t.rid).opts fs j.path i.path := by
    cases hsym : (cfg t.rid).opts.symlinks with
    | true => rw [hsym, if_pos rfl] at hi; exact .canonical hsym hi
    | false =>
      rw [hsym, if_neg (by decide)] at hi
      rw [hi]
      exact .lexical hsym
  obtain ⟨h3, h4, h5⟩ := hfin _ _ ha hf hfp
  obtain ⟨r, hr⟩ := (isAbs_iff _).1 h3
  obtain ⟨e1, e2, e3⟩ := (C02_parse_canonical _ _ _ _).1
    (C67_split_partial l t ht path request i hc hd (by rw [hr]; simp) h1 h2)
  have htp : targetPath base i.path = i.path := by
    unfold targetPath
    rw [if_neg (by rw [hr]; simp), pjoin_abs h3]
  have hk : getTargetKind i.path = .absolutePosix := by
    have := ((C03_kind i.join).2.2.1).2 ⟨r, by rw [e1, hr]; rfl⟩
    rwa [show (parseRequest i.join).kind = getTargetKind (parseRequest i.join).target from rfl, e1] at this
  obtain ⟨a, h6, h7⟩ := C10_found (request := i.join) (path := base) (p := i.path) hs (by rw [e1]; exact hp) hbase
    (by rw [e1]; exact .inr (.inl hk)) (by rw [e1, htp]; exact hload) (by rw [e1, htp]; exact hn)
    ⟨[], _, by rw [e1, htp, fileCandidates, if_neg henf]; rfl, h4, nofun⟩
  rw [e2, e3] at h6
  cases h6 with
  | path h8 => rw [← h5.det h8] at h7; exact h7
  | noPath h8 h9 =>
    have : ∀ q, ¬ FinalPath (cfg t.rid).opts fs i.path q := by
      intro q h
      cases h with
      | lexical h => rw [h8] at h; cases h
      | canonical _ h => rw [h9] at h; cases h
    exact absurd h5 (this _)

/-- `/p/a?b.js` and `/p/a`, both of them main files. -/
def treeJoin : Tree :=
  .dir [(cs!"p", .dir [(cs!"a", textFile),
    (cs!"q", .dir [(cs!"package.json", jsonFile (.obj [(cs!"main", .str cs!"../a?b")]))]),
    (cs!"a?b", textFile)])]

/-- C67 does not hold for names with `?`: the joined form leads to another file, with another query. -/
theorem C67_mark_violated :
    (resolve (treeEnv optsA treeJoin) 20 cs!"/p" cs!"./q").freshInfo.map
        (fun i => (i.path, i.request.query, i.join)) = some (cs!"/p/a?b", [], cs!"/p/a?b") ∧
      (resolve (treeEnv optsA treeJoin) 20 cs!"/p" cs!"/p/a?b").freshInfo.map
        (fun i => (i.path, i.request.query, i.join)) = some (cs!"/p/a", cs!"?b", cs!"/p/a?b") := by
  decide +kernel

/-- Nor can the results for two files be told apart by their joined forms. -/
theorem C67_same_violated :
    ∃ i j, (resolve (treeEnv optsA treeJoin) 20 cs!"/p" cs!"./q").freshInfo = some i ∧
      (resolve (treeEnv optsA treeJoin) 20 cs!"/p" cs!"./a?b").freshInfo = some j ∧
      i.path ≠ j.path ∧ i.join = j.join :=
  ⟨⟨cs!"/p/a?b", ⟨[], [], [], .relative⟩⟩, ⟨cs!"/p/a", ⟨[], cs!"?b", [], .relative⟩⟩,
    by decide +kernel, by decide +kernel, by decide, by decide⟩

-- the hypotheses of C67 are met by a result with a query and a fragment
example : let o := (cfgPk 0).opts
    ((Sys.init (treeFs treePk [])).after cfgPk serJson
      (.start 0 (.resolve cs!"/p" cs!"./d?q#f") 20 :: List.replicate 40 (.step 0 0))).info 0 =
        some ⟨cs!"/p/d/lib/index.js", ⟨[], cs!"?q", cs!"#f", .relative⟩⟩ ∧
    FinalFiles o (treeFs treePk []) ∧ o.enforceExtension ≠ some true ∧
    '?' ∉ cs!"/p/d/lib/index.js" ∧ '#' ∉ cs!"/p/d/lib/index.js" ∧ Plain o cs!"/x" cs!"/p/d/lib/index.js" ∧
    ∃ pkg, Loads o (treeFs treePk []) cs!"/p/d/lib/index.js" (.ok pkg) ∧
      NotCovered o pkg cs!"/p/d/lib/index.js" := by
  refine ⟨by decide +kernel, finalFiles_tree _ _ rfl, by decide, by decide, by decide,
    ⟨rfl, .inr nofun, .inl rfl⟩, _, loads_of_ok (by decide +kernel), nofun⟩

end Verif
