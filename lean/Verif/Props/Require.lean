import Verif.Proofs.Require
import Verif.Props.Findings
/-!
# C83: requests resolve as with `require` of Node.js
-/

namespace Verif

variable {cfg : Nat → Config} {ser : Json → Str} {fs : Fs} {rid : Nat}

/-- The call comes to the file that Node.js finds, or to an error if Node.js has an error. -/
def AsNode (cfg : Nat → Config) (ser : Json → Str) (fs : Fs) (rid : Nat) (path request : Str) :
    Option Required → Prop
  | some (.found p) => ∃ a, FileAnswer (cfg rid).opts fs p [] [] a ∧ Yields cfg ser fs rid path request a
  | some .throws => ∃ e, Yields cfg ser fs rid path request (.error e)
  | none => Yields cfg ser fs rid path request (.error (.failed request path))

theorem plain_node {o : Opts} (ho : NodeOpts o) (path target : Str) : Plain o path target :=
  ⟨ho.tsconfig, .inr (by rw [ho.alias]; nofun), .inl ho.prefer⟩

theorem asNode_hit (hl : fs.Lawful) {path request : Str} {r : Option Hit} {n : Option Required} (h : HitNode r n)
    (hy : HitYields cfg ser fs rid path request r) : AsNode cfg ser fs rid path request n := by
  rcases h with ⟨p', p, rfl, rfl, h3, h4⟩ | ⟨e, rfl, rfl⟩ | ⟨rfl, rfl⟩
  · obtain ⟨a, h1, h2⟩ := hy
    exact ⟨a, fileAnswer_sim hl h3 h4 h1, h2⟩
  · exact ⟨e, hy⟩
  · exact hy

/-- C83 for requests that are paths: the answer is the file that Node.js finds (as its real path, if symlinks are
followed), and an error if it finds none. Partial: for the options of `NodeOpts`, requests without `?` and `#`,
description files that can be loaded, and directories as in `CommonDir`; see the theorems `C83_…_violated`. -/
theorem C83_path_partial (hs : Static cfg ser fs) (ho : NodeOpts (cfg rid).opts) {path request : Str}
    (ha : isAbs path = true) (hr : cs!"./" <+: request ∨ cs!"../" <+: request ∨ cs!"/" <+: request)
    (hq : '?' ∉ request) (hf : '#' ∉ request)
    (hok : LoadsOk (cfg rid).opts fs (requestPath path request))
    (hc : fs.isDir (requestPath path request) = true → CommonDir (cfg rid).opts fs (requestPath path request)) :
    AsNode cfg ser fs rid path request ((loadPath fs (requestPath path request)).map .found) := by
  have hpr := parseRequest_plain hq hf
  have htp : targetPath path request = requestPath path request ∧
      IsPath request := by
    unfold targetPath requestPath
    rcases hr with ⟨r, rfl⟩ | ⟨r, rfl⟩ | ⟨r, rfl⟩
    · rw [if_neg (by rintro (h | h) <;> cases h), if_neg (by rintro ⟨w, hw⟩; cases hw)]
      exact ⟨pjoin_under (abs_ne_nil ha) rfl, .inl rfl⟩
    · rw [if_neg (by rintro (h | h) <;> cases h), if_neg (by rintro ⟨w, hw⟩; cases hw)]
      exact ⟨pjoin_under (abs_ne_nil ha) rfl, .inl rfl⟩
    · rw [if_neg (by rintro (h | h) <;> cases h), if_pos ⟨r, rfl⟩]
      exact ⟨pjoin_abs rfl, .inr (.inl rfl)⟩
  have hx : isAbs (requestPath path request) = true := by rw [← htp.1]; exact targetPath_abs ha
  obtain ⟨r, h1, h2⟩ := atPath_node ho hs.lawful hx (Sim.refl _) hok hc
  obtain ⟨pkg, hok⟩ := hok
  have hy := path_yields hs (rid := rid) (path := path) (request := request) (r := r.hit [] [])
    (plain_node ho _ _) ha (by rw [hpr]; exact htp.2) (by
      rw [hpr]
      show PathOut _ _ _ [] [] (targetPath path request) _
      rw [htp.1]
      exact .here hok (notCovered_node ho _ _) h1)
  refine asNode_hit hs.lawful ?_ hy
  rcases h2 with ⟨q', q, rfl, e2, e3, e4⟩ | ⟨rfl, e2⟩
  · exact .inl ⟨q', q, rfl, by rw [e2]; rfl, e3, e4⟩
  · exact .inr (.inr ⟨rfl, by rw [e2]; rfl⟩)

/-- C83 for bare requests: the answer is the file that Node.js finds in the `node_modules` of the base directory and
of the directories above it, with description files, `main` and exports, and an error if Node.js has one. Partial: for
the options of `NodeOpts` and requests and projects as in `CommonBare`; see the theorems `C83_…_violated`. -/
theorem C83_bare_partial (hs : Static cfg ser fs) (ho : NodeOpts (cfg rid).opts) {request name rest : Str}
    {parts : List Str} (h : CommonBare (cfg rid).opts fs request name rest parts) :
    AsNode cfg ser fs rid (absText parts) request
      (requireBare fs (cfg rid).opts.conditionNames name rest parts) := by
  have hpr := parseRequest_plain h.marks.1 h.marks.2
  have hsplit := h.target.split
  have hvalid : ∀ s ∈ parts, ValidName s := fun s hs =>
    have ⟨n1, n2, n3, n4⟩ := h.names s hs
    ⟨n1, n4, n2, n3⟩
  obtain ⟨l, hanc, hpairs⟩ := ancestors_parts parts (isAbs_absText parts) (comps_absText hvalid)
  obtain ⟨r, h1, h2⟩ := search_node ho hs.lawful h hpairs fun p hp => hp
  have hrel : isAbs (name ++ rest) = false := by rw [← hsplit]; exact kind_normal_rel h.target.kind
  have hfirst := firstLoad_node ho hs.lawful hvalid hsplit hrel h.loads
  have hb : Bare (cfg rid).opts (absText parts) request name rest l :=
    ⟨plain_node ho _ _, isAbs_absText _, by rw [hpr]; exact h.target.kind, by rw [hpr]; exact hsplit, h.target.ascii,
      h.target.isName, h.target.scope, hanc⟩
  have hy := bare_yields' hs hb hfirst (r := r) (by rw [hpr]; exact h1)
  refine asNode_hit hs.lawful ?_ hy
  unfold requireBare
  rw [h.self, Option.none_or]
  exact h2

/-! ## Cases that meet the demands -/

/-- A project: `/p` with `src`, a directory `lib` with a `main`, the package `m` with a `main` that is a directory, the
package `e` with exports, and `/node_modules/top.js`. -/
def treeReq : Tree :=
  .dir [
    (cs!"node_modules", .dir [(cs!"top.js", textFile)]),
    (cs!"p", .dir [
      (cs!"package.json", jsonFile (.obj [(cs!"name", .str cs!"app")])),
      (cs!"src", .dir [(cs!"a.js", textFile)]),
      (cs!"lib", .dir [
        (cs!"package.json", jsonFile (.obj [(cs!"main", .str cs!"main")])),
        (cs!"main.json", textFile)]),
      (cs!"node_modules", .dir [
        (cs!"m", .dir [
          (cs!"package.json", jsonFile (.obj [(cs!"main", .str cs!"./lib")])),
          (cs!"lib", .dir [(cs!"index.js", textFile)])]),
        (cs!"e", .dir [
          (cs!"package.json", jsonFile (.obj [(cs!"exports", .obj [(cs!".", .str cs!"./index.js"),
            (cs!"./x/*", .str cs!"./lib/*.js")])])),
          (cs!"index.js", textFile),
          (cs!"lib", .dir [(cs!"y.js", textFile)])])])])]

/-- The resolver of the examples. -/
def cfgReq (_ : Nat) : Config := config optsA 0

theorem static_req : Static cfgReq serJson (treeFs treeReq []) :=
  static_tree rfl rfl rfl (by decide +kernel)

theorem nodeOpts_req : NodeOpts (cfgReq 0).opts :=
  ⟨rfl, by decide, rfl, rfl, rfl, rfl, rfl, rfl, rfl⟩

theorem loadsOk_req {p : Str} (h : loadOk (cfgReq 0).opts (treeFs treeReq []) p = true) :
    LoadsOk (cfgReq 0).opts (treeFs treeReq []) p := ⟨_, loads_of_ok h⟩

/-- The `main` field of the directory, if it is a text. -/
def mainText (fs : Fs) (x : Str) : Option Str := (packageJson fs x).bind fun j => (j.get cs!"main").bind Json.asStr

theorem mainText_of {x m : Str} {j : Json} (h : packageJson fs x = some j) (hm : j.get cs!"main" = some (.str m)) :
    mainText fs x = some m := by
  unfold mainText
  rw [h, Option.bind_some, hm]
  rfl

/-- A directory with a `main` that is a file. -/
theorem commonDir_main {o : Opts} {x m : Str} (h1 : fs.isFile (under x cs!"index") = false)
    (h2 : mainText fs x = some m) (h3 : m ≠ [] ∧ m ≠ cs!"." ∧ m ≠ cs!"./") (h4 : ¬ cs!"/" <+: m)
    (h5 : fs.isDir (under x m) = true → fs.isFile (under (under x m) cs!"package.json") = false ∧
      fs.isFile (under (under x m) cs!"index") = false ∧ LoadsOk o fs (under x m))
    (h6 : loadPath fs x ≠ none) : CommonDir o fs x :=
  ⟨h1, fun j m' hj hm => by
    have := mainText_of hj hm
    rw [h2] at this
    cases this
    exact ⟨h3, h4, h5⟩, h6⟩

-- `../lib` from `/p/src` leads to `/p/lib/main.json`, by the `main` of the directory
example : AsNode cfgReq serJson (treeFs treeReq []) 0 cs!"/p/src" cs!"../lib"
    (some (.found cs!"/p/src/../lib/main.json")) := by
  have h := C83_path_partial static_req (rid := 0) (path := cs!"/p/src") (request := cs!"../lib") nodeOpts_req rfl
    (.inr (.inl ⟨_, rfl⟩)) (by decide) (by decide) (loadsOk_req (by decide +kernel))
    (fun _ => commonDir_main (m := cs!"main") (by decide +kernel) (by decide +kernel) (by decide) (by decide)
      (fun h => absurd h (by decide +kernel)) (by decide +kernel))
  have e : loadPath (treeFs treeReq []) (requestPath cs!"/p/src" cs!"../lib") = some cs!"/p/src/../lib/main.json" := by
    decide +kernel
  rw [e] at h
  exact h

theorem mem_parts {p : List Str} (h : p ∈ upParts [cs!"p", cs!"src"]) :
    p = [cs!"p", cs!"src"] ∨ p = [cs!"p"] ∨ p = [] := by
  have e : upParts [cs!"p", cs!"src"] = [[cs!"p", cs!"src"], [cs!"p"], []] := rfl
  rw [e] at h
  simpa using h

theorem names_req : ∀ x ∈ [cs!"p", cs!"src"], x ≠ [] ∧ x ≠ cs!"." ∧ x ≠ cs!".." ∧ '/' ∉ x := by decide

theorem nested_req : ∀ p ∈ upParts [cs!"p", cs!"src"], p.getLast? = some cs!"node_modules" →
    (treeFs treeReq []).isDir (absText (p ++ [cs!"node_modules"])) = false := by
  intro p hp h
  rcases mem_parts hp with rfl | rfl | rfl <;> cases h

theorem closest_of {fs : Fs} {p d e : Str} (h : closest fs cs!"package.json" p = some d) (hc : comps d = comps e) :
    ∃ d, closest fs cs!"package.json" p = some d ∧ comps d = comps e := ⟨d, h, hc⟩

theorem noName {p n : Str} {pkg : Pkg} {q : Str → Prop}
    (h : ∀ m, (pkgAt (cfgReq 0).opts fs p).bind Pkg.name = some m → ¬ q m)
    (hl : Loads (cfgReq 0).opts fs p (.ok (some pkg))) (hn : pkg.name = some n) : ¬ q n := by
  refine h n ?_
  have : pkgAt (cfgReq 0).opts fs p = some pkg := by
    unfold pkgAt
    unfold Loads at hl
    rw [hl]
  rw [this, Option.bind_some, hn]

-- `m` from `/p/src` leads to `/p/node_modules/m/lib/index.js`: `main` is a directory
example : AsNode cfgReq serJson (treeFs treeReq []) 0 cs!"/p/src" cs!"m"
    (some (.found cs!"/p/node_modules/m/./lib/index.js")) := by
  have h := C83_bare_partial static_req (rid := 0) (request := cs!"m") (name := cs!"m") (rest := [])
    (parts := [cs!"p", cs!"src"]) nodeOpts_req {
      target := ⟨by decide, rfl, .inr rfl, .plain (rest := []) (by decide) (by decide) (.inl rfl), by decide⟩
      marks := by decide
      slash := by decide
      names := names_req
      nested := nested_req
      self := by decide +kernel
      loads := loadsOk_req (by decide +kernel)
      modules := by
        intro p hp hd
        rcases mem_parts hp with rfl | rfl | rfl
        · exact absurd hd (by decide +kernel)
        · refine ⟨loadsOk_req (by decide +kernel), fun _ => closest_of (d := cs!"/p/node_modules/m") (by decide +kernel) rfl,
            fun h => absurd h (by decide +kernel), fun _ _ => commonDir_main (m := cs!"./lib") (by decide +kernel)
              (by decide +kernel) (by decide) (by decide)
              (fun _ => ⟨by decide +kernel, by decide +kernel, loadsOk_req (by decide +kernel)⟩) (by decide +kernel),
            fun e he => ?_⟩
          have : ((packageJson (treeFs treeReq []) (under (absText ([cs!"p"] ++ [cs!"node_modules"])) cs!"m")).bind
            (·.get cs!"exports")).isNone = true := by decide +kernel
          rw [he] at this
          cases this
        · refine ⟨loadsOk_req (by decide +kernel), fun h => absurd h (by decide +kernel), fun _ pkg n hl hn => ?_,
            fun _ h => absurd h (by decide +kernel), fun e he => ?_⟩
          · refine noName (q := (· <+: cs!"m" ++ [])) (fun m hm => ?_) hl hn
            have : ((pkgAt (cfgReq 0).opts (treeFs treeReq [])
              (under (absText ([] ++ [cs!"node_modules"])) (cs!"m" ++ []))).bind Pkg.name) = none := by decide +kernel
            rw [this] at hm
            cases hm
          · have : ((packageJson (treeFs treeReq []) (under (absText ([] ++ [cs!"node_modules"])) cs!"m")).bind
              (·.get cs!"exports")).isNone = true := by decide +kernel
            rw [he] at this
            cases this }
  have e : requireBare (treeFs treeReq []) (cfgReq 0).opts.conditionNames cs!"m" [] [cs!"p", cs!"src"] =
      some (.found cs!"/p/node_modules/m/./lib/index.js") := by decide +kernel
  rw [e] at h
  exact h

/-- The exports of `e`. -/
def exportsReq : Json :=
  .obj [(cs!".", .str cs!"./index.js"), (cs!"./x/*", .str cs!"./lib/*.js")]

theorem common_exportsReq : CommonExports exportsReq := by
  refine .paths (by decide) ?_ ⟨by decide, ?_, ?_⟩
  · intro kv hkv
    simp only [List.mem_cons, List.not_mem_nil, or_false] at hkv
    rcases hkv with rfl | rfl
    · exact .inl rfl
    · exact .inr ⟨cs!"x/*", rfl⟩
  · intro kv hkv
    simp only [List.mem_cons, List.not_mem_nil, or_false] at hkv
    rcases hkv with rfl | rfl <;> decide
  · intro kv hkv
    simp only [List.mem_cons, List.not_mem_nil, or_false] at hkv
    rcases hkv with rfl | rfl <;> refine ⟨by decide, fun t ht => ?_⟩ <;>
      simp only [Json.strings, List.mem_cons, List.not_mem_nil, or_false] at ht <;>
      subst ht <;> exact ⟨.inl ⟨⟨_, rfl⟩, by decide⟩, by decide⟩

-- `e/x/y` from `/p/src` leads to `/p/node_modules/e/lib/y.js`, by exports
example : AsNode cfgReq serJson (treeFs treeReq []) 0 cs!"/p/src" cs!"e/x/y"
    (some (.found cs!"/p/node_modules/e/./lib/y.js")) := by
  have h := C83_bare_partial static_req (rid := 0) (request := cs!"e/x/y") (name := cs!"e") (rest := cs!"/x/y")
    (parts := [cs!"p", cs!"src"]) nodeOpts_req {
      target := ⟨by decide, rfl, .inl (by decide), .plain (rest := cs!"/x/y") (by decide) (by decide)
        (.inr ⟨_, rfl⟩), by decide⟩
      marks := by decide
      slash := by decide
      names := names_req
      nested := nested_req
      self := by decide +kernel
      loads := loadsOk_req (by decide +kernel)
      modules := by
        intro p hp hd
        rcases mem_parts hp with rfl | rfl | rfl
        · exact absurd hd (by decide +kernel)
        · have hg : ((packageJson (treeFs treeReq [])
              (under (absText ([cs!"p"] ++ [cs!"node_modules"])) cs!"e")).bind (·.get cs!"exports")).map serJson =
              some (serJson exportsReq) := by decide +kernel
          refine ⟨loadsOk_req (by decide +kernel), fun _ => closest_of (d := cs!"/p/node_modules/e") (by decide +kernel) rfl,
            fun h => absurd h (by decide +kernel), fun h => ?_, fun e he => ?_⟩
          · rw [h] at hg; cases hg
          · rw [he] at hg
            have : e = exportsReq := serJson_inj (Option.some.inj hg)
            subst this
            refine ⟨common_exportsReq, ?_, ?_⟩
            · intro lit rest h hr
              simp only [exportsReq, Json.topKeys, List.map_cons, List.map_nil, List.mem_cons, List.not_mem_nil,
                or_false] at h
              have hl : ∀ k : Str, lit ++ cs!"*" = k → k.getLast? = some '*' := by
                rintro k rfl; rw [List.getLast?_append]; rfl
              rcases h with h | h
              · exact absurd (hl _ h) (by decide)
              · have e : lit = cs!"./x/" := List.append_inj_left' (h.trans (show _ = cs!"./x/" ++ cs!"*" from rfl)) rfl
                subst e
                have : rest = cs!"y" :=
                  List.append_cancel_left (hr.symm.trans (show _ = cs!"./x/" ++ cs!"y" from rfl))
                subst this
                exact ⟨by decide, by decide, by decide, by decide⟩
            · intro t ht
              have e : nodeExports (cfgReq 0).opts.conditionNames ('.' :: cs!"/x/y") exportsReq =
                  .found cs!"./lib/y.js" := by decide +kernel
              rw [e] at ht
              cases ht
              exact ⟨by decide +kernel, (contained_iff _).1 (by decide +kernel), by decide, by decide, by decide⟩
        · refine ⟨loadsOk_req (by decide +kernel), fun h => absurd h (by decide +kernel), fun _ pkg n hl hn => ?_,
            fun _ h => absurd h (by decide +kernel), fun e he => ?_⟩
          · refine noName (q := (· <+: cs!"e" ++ cs!"/x/y")) (fun m hm => ?_) hl hn
            have : ((pkgAt (cfgReq 0).opts (treeFs treeReq [])
              (under (absText ([] ++ [cs!"node_modules"])) (cs!"e" ++ cs!"/x/y"))).bind Pkg.name) = none := by
              decide +kernel
            rw [this] at hm
            cases hm
          · have : ((packageJson (treeFs treeReq []) (under (absText ([] ++ [cs!"node_modules"])) cs!"e")).bind
              (·.get cs!"exports")).isNone = true := by decide +kernel
            rw [he] at this
            cases this }
  have e : requireBare (treeFs treeReq []) (cfgReq 0).opts.conditionNames cs!"e" cs!"/x/y" [cs!"p", cs!"src"] =
      some (.found cs!"/p/node_modules/e/./lib/y.js") := by decide +kernel
  rw [e] at h
  exact h

-- what the algorithm of Node.js gives for other requests in the project
example : requireBare (treeFs treeReq []) [] cs!"top" [] [cs!"p", cs!"src"] = some (.found cs!"/node_modules/top.js") ∧
    requireBare (treeFs treeReq []) [] cs!"e" cs!"/lib/y.js" [cs!"p", cs!"src"] = some .throws ∧
    requireBare (treeFs treeReq []) [] cs!"none" [] [cs!"p", cs!"src"] = none ∧
    loadPath (treeFs treeReq []) cs!"/p/src/./b" = none := by decide +kernel

/-! ## Where the code differs from Node.js -/

/-- The file that Node.js finds. -/
def nodePath (t : Tree) (path request : Str) : Option Str := loadPath (treeFs t []) (requestPath path request)

/-- What Node.js comes to for a bare request. -/
def nodeBare (t : Tree) (parts : List Str) (name rest : Str) : Option Required :=
  requireBare (treeFs t []) [] name rest parts

/-- A directory without an index file, next to a file, and one with a file `index`. -/
def treeReqDirs : Tree :=
  .dir [(cs!"p", .dir [
    (cs!"dead", .dir [(cs!"x.js", textFile)]),
    (cs!"d", .dir [(cs!"index", textFile), (cs!"index.js", textFile)]),
    (cs!"m", .dir [
      (cs!"package.json", jsonFile (.obj [(cs!"main", .str cs!"lib")])),
      (cs!"lib", .dir [(cs!"package.json", jsonFile (.obj [(cs!"main", .str cs!"b.js")])),
        (cs!"b.js", textFile), (cs!"index.js", textFile)])]),
    (cs!"a?b.js", textFile)])]

/-- C83 does not hold for a directory in which nothing is found: Node.js has an error, the code panics. -/
theorem C83_dead_violated :
    nodePath treeReqDirs cs!"/p" cs!"./dead" = none ∧
    (resolve (treeEnv optsA treeReqDirs) 20 cs!"/p" cs!"./dead").freshCrash = some (.panic .resolveUnreachable) := by
  decide +kernel

/-- C83 does not hold for a directory with a file `index`: the code takes it, Node.js wants an extension. -/
theorem C83_index_violated :
    nodePath treeReqDirs cs!"/p" cs!"./d" = some cs!"/p/./d/index.js" ∧
    foundPath optsA treeReqDirs cs!"/p" cs!"./d" = some cs!"/p/d/index" := by decide +kernel

/-- C83 does not hold for a `main` that names a directory with a `main` of its own: Node.js looks for an index file
only. -/
theorem C83_main_violated :
    nodePath treeReqDirs cs!"/p" cs!"./m" = some cs!"/p/./m/lib/index.js" ∧
    foundPath optsA treeReqDirs cs!"/p" cs!"./m" = some cs!"/p/m/lib/b.js" := by decide +kernel

/-- C83 does not hold for a file with a `?` in its name. -/
theorem C83_query_violated :
    nodePath treeReqDirs cs!"/p" cs!"./a?b" = some cs!"/p/./a?b.js" ∧
    foundPath optsA treeReqDirs cs!"/p" cs!"./a?b" = none := by decide +kernel

/-- Packages that are read in another way. -/
def treeReqMods : Tree :=
  .dir [
    (cs!"node_modules", .dir [(cs!"m2", .dir [(cs!"package.json", jsonFile (.obj [])), (cs!"x.js", textFile)])]),
    (cs!"p", .dir [
      (cs!"package.json", jsonFile (.obj [(cs!"name", .str cs!"m"),
        (cs!"exports", .obj [(cs!".", .str cs!"./i.js"), (cs!"./x", .str cs!"./y.js")])])),
      (cs!"i.js", textFile), (cs!"y.js", textFile),
      (cs!"node_modules", .dir [
        (cs!"node_modules", .dir [(cs!"k", .dir [(cs!"index.js", textFile)])]),
        (cs!"k", .dir [(cs!"package.json", jsonFile (.obj [])), (cs!"index.js", textFile)]),
        (cs!"fs", .dir [(cs!"package.json", jsonFile (.obj [])), (cs!"index.js", textFile)]),
        (cs!"a", .dir [
          (cs!"package.json", jsonFile (.obj [(cs!"exports", .obj [(cs!".", .str cs!"./a.js")])])),
          (cs!"a.js", textFile),
          (cs!"sub", .dir [(cs!"package.json", jsonFile (.obj [])), (cs!"z.js", textFile)]),
          (cs!"node_modules", .dir [(cs!"b", .dir [(cs!"index.js", textFile)])])])])]),
    (cs!"q", .dir [
      (cs!"package.json", jsonFile (.obj [(cs!"name", .str cs!"q"), (cs!"exports", .str cs!"./i.js")])),
      (cs!"i.js", textFile)])]

/-- C83 does not hold in a `node_modules` directory: the code looks for a `node_modules` there. -/
theorem C83_nested_violated :
    nodeBare treeReqMods [cs!"p", cs!"node_modules"] cs!"k" [] = some (.found cs!"/p/node_modules/k/index.js") ∧
    foundPath optsA treeReqMods cs!"/p/node_modules" cs!"k" = some cs!"/p/node_modules/node_modules/k/index.js" := by
  decide +kernel

/-- C83 does not hold for a package that asks for itself where there is no `node_modules`. -/
theorem C83_self_violated :
    nodeBare treeReqMods [cs!"q"] cs!"q" [] = some (.found cs!"/q/./i.js") ∧
    foundPath optsA treeReqMods cs!"/q" cs!"q" = none := by decide +kernel

/-- C83 does not hold if the name of the package above is the beginning of the name asked for: the code takes the
exports of the package above. -/
theorem C83_name_violated :
    nodeBare treeReqMods [cs!"p"] cs!"m2" cs!"/x" = some (.found cs!"/node_modules/m2/x.js") ∧
    foundPath optsA treeReqMods cs!"/p" cs!"m2/x" = some cs!"/p/y.js" := by decide +kernel

/-- C83 does not hold for a package with a description file further down: the code does not see the exports, and gives
a file that is not exported. -/
theorem C83_inner_violated :
    nodeBare treeReqMods [cs!"p"] cs!"a" cs!"/sub/z.js" = some .throws ∧
    foundPath optsA treeReqMods cs!"/p" cs!"a/sub/z.js" = some cs!"/p/node_modules/a/sub/z.js" := by decide +kernel

/-- C83 does not hold for a package without a description file that is in a package with exports: the code takes these
exports. -/
theorem C83_bare_violated :
    nodeBare treeReqMods [cs!"p", cs!"node_modules", cs!"a"] cs!"b" [] =
      some (.found cs!"/p/node_modules/a/node_modules/b/index.js") ∧
    foundPath optsA treeReqMods cs!"/p/node_modules/a" cs!"b" = some cs!"/p/node_modules/a/a.js" := by decide +kernel

/-- C83 does not hold for core modules, of which the code has a list: a package of that name is found. -/
theorem C83_core_violated :
    isBuiltIn cs!"fs" = true ∧
    foundPath optsA treeReqMods cs!"/p" cs!"fs" = some cs!"/p/node_modules/fs/index.js" := by decide +kernel

end Verif
