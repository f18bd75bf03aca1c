import Verif.Proofs.Query
import Verif.Proofs.Parse
import Verif.Spec.Examples
/-!
# Properties of results: C08, C09, C11, C12, C42, C43
-/

namespace Verif

/-! ## C08 -/

/-- C08: a success comes from a regular file: its path is the lexical normalisation of the path
of one, or the canonical path of one. For any answers of the caches. -/
theorem C08_success_is_file (e : Env) (n : Nat) (path request : Str) (i : Info)
    (h : (resolve e n path request).Returns (.ok (.info i))) :
    ∃ p, e.fs.isFile p = true ∧
      (e.opts.symlinks = false → i.path = normalizeLex p) ∧
      (e.opts.symlinks = true → e.fs.canon p = some i.path) := by
  obtain ⟨j, hj, -, hp⟩ := resolve_success h
  refine ⟨j.path, hj.file, fun hs => ?_, fun hs => ?_⟩
  · rwa [hs, if_neg (by decide)] at hp
  · rwa [hs, if_pos rfl] at hp

/-- C08 for systems: any resolvers, shared caches, threads, histories, file system changes.
`t.fs` is the file system the call ran on. -/
theorem C08_success_is_file_system (cfg : Nat → Config) (ser : Json → Str) (fs : Fs)
    (l : List Event) (t : Task) (ht : t ∈ ((Sys.init fs).after cfg ser l).tasks) (i : Info)
    (hd : t.prog = .ret (.resolve (.ok (.info i)))) :
    ∃ p, t.fs.isFile p = true ∧
      ((cfg t.rid).opts.symlinks = false → i.path = normalizeLex p) ∧
      ((cfg t.rid).opts.symlinks = true → t.fs.canon p = some i.path) := by
  have h := system_returns cfg ser fs l t ht _ hd
  unfold Call.prog at h
  split at h
  · obtain ⟨r, h1, h2⟩ := Prog.returns_bind h
    cases h2
    exact C08_success_is_file _ _ _ _ _ h1
  · obtain ⟨r, h1, h2⟩ := Prog.returns_bind h
    cases h2

/-- C08 on a symlink-free tree, with absolute base paths: the returned path itself is a regular
file. -/
theorem C08_success_is_file_tree (cfg : Nat → Config) (ser : Json → Str) (fs : Fs)
    (l : List Event) (t : Task) (ht : t ∈ ((Sys.init fs).after cfg ser l).tasks)
    (habs : ∀ e ∈ l, ∀ rid p r n, e = .start rid (.resolve p r) n →
      isAbs p = true ∧ ∀ loc, (cfg rid).opts.tsconfig = some loc → isAbs loc = true)
    (tree : Tree) (cwd : List Str) (hroot : tree.isDir = true) (hfs : t.fs = treeFs tree cwd)
    (path request : Str) (i : Info)
    (hc : t.call = .resolve path request) (hd : t.prog = .ret (.resolve (.ok (.info i)))) :
    t.fs.isFile i.path = true := by
  obtain ⟨j, hj, ha, -, hp⟩ := system_absOk ht habs hc hd
  have hf := hj.file
  rw [hfs] at hf hp ⊢
  cases hl : tree.lookup cwd j.path with
  | none => simp [treeFs, Tree.node, hl] at hf
  | some loc =>
    have hn := Tree.lookup_normalizeLex ha hl hroot
    have hi : i.path = normalizeLex j.path := by
      split at hp
      · obtain ⟨h1, -⟩ := Tree.lookup_abs ha hl
        simp only [treeFs, hl, Option.map_some, Option.some.injEq] at hp
        rw [← hp, h1, (normalizeLex_eq j.path).1, ha, absText_eq]
      · exact hp
    rw [hi]
    simp only [treeFs, Tree.node, hl, hn] at hf ⊢
    exact hf

-- the hypotheses are met: a success through node_modules, and one with an appended extension
example : (resolve (treeEnv optsA treeA) 20 cs!"/p/b.json" cs!"m/lib/x?q").freshInfo =
    some ⟨cs!"/p/node_modules/m/lib/x.js", ⟨[], cs!"?q", [], .relative⟩⟩ := by decide +kernel
example : ∃ i, (resolve (treeEnv optsA treeA) 20 cs!"/p" cs!"./a").Returns (.ok (.info i)) :=
  ⟨_, Prog.returns_of_freshInfo (by decide +kernel :
    _ = some ⟨cs!"/p/a.js", ⟨[], [], [], .relative⟩⟩)⟩
-- with symlinks
example : (resolve (treeEnv Opts.default treeA) 20 cs!"/p" cs!"m").freshInfo =
    some ⟨cs!"/p/node_modules/m/index.js", Request.empty⟩ := by decide +kernel

/-! ## C09 -/

/-- C09: the request of a success has an empty target. -/
theorem C09_target_consumed (e : Env) (n : Nat) (path request : Str) (i : Info)
    (h : (resolve e n path request).Returns (.ok (.info i))) : i.request.target = [] := by
  obtain ⟨j, hj, he, -⟩ := resolve_success h
  rw [he, hj.target]

/-- C09: the debug assertion on the empty target (src/normalize.rs:55) never fires, whatever the
caches answer. -/
theorem C09_assert_never_fires (e : Env) (n : Nat) (path request : Str) (r : Result)
    (h : (resolveStats e.ctx n path request).Returns (.success r)) :
    normalizeResult e.ctx r ≠ .panic .dbgTarget := by
  have := Prog.all_iff_returns.1 (resolveStats_fileOk e n path request) _ h
  cases r with
  | ignored => intro h; cases h
  | info j =>
    have ht : j.request.target = [] := FileOk.target this
    intro h
    simp only [normalizeResult, ht] at h
    split at h
    · simp at *
    · split at h <;> cases h

-- debug builds reach the assertion
example : (resolve { treeEnv optsA treeA with debug := true } 20 cs!"/p" cs!"./a").freshInfo =
    some ⟨cs!"/p/a.js", Request.empty⟩ := by decide +kernel

/-! ## C11 and C12 -/

/-- C11: with enforced extensions, a success is some path with a configured extension
appended. -/
theorem C11_enforced (e : Env) (he : e.opts.enforceExtension = some true) (n : Nat)
    (path request : Str) (i : Info) (h : (resolve e n path request).Returns (.ok (.info i))) :
    ∃ q, ∃ ext ∈ e.opts.extensions, e.fs.isFile (q ++ ext) = true ∧
      (e.opts.symlinks = false → i.path = normalizeLex (q ++ ext)) ∧
      (e.opts.symlinks = true → e.fs.canon (q ++ ext) = some i.path) := by
  obtain ⟨j, hj, -, hp⟩ := resolve_success h
  obtain ⟨q, ext, hm, hq⟩ := hj.ext he
  refine ⟨q, ext, hm, hq ▸ hj.file, fun hs => ?_, fun hs => ?_⟩
  · rw [hs, if_neg (by decide)] at hp; rw [← hq]; exact hp
  · rw [hs, if_pos rfl] at hp; rw [← hq]; exact hp

/-- Default options with enforced extensions. -/
def optsEnforce : Opts := { optsA with enforceExtension := some true }

example : (treeEnv optsEnforce treeA).opts.enforceExtension = some true := by decide
example : (resolve (treeEnv optsEnforce treeA) 20 cs!"/p" cs!"./a").freshInfo =
    some ⟨cs!"/p/a.js", Request.empty⟩ := by decide +kernel
-- the file itself is not accepted
example : (resolve (treeEnv optsEnforce treeA) 20 cs!"/p" cs!"./a.js").freshInfo = none := by
  decide +kernel

/-- C12: what `Resolver::new` does to the options. -/
theorem C12_new (o : Opts) :
    (∀ b, o.enforceExtension = some b → o.new = o) ∧
    (o.enforceExtension = none →
      (o.new.enforceExtension = some true ∧ [] ∈ o.extensions ∨
        o.new.enforceExtension = some false ∧ [] ∉ o.extensions) ∧
      { o.new with enforceExtension := none } = o) := by
  constructor
  · intro b hb
    unfold Opts.new
    rw [hb]
    cases o
    simp only at hb
    rw [hb]
  · intro hn
    unfold Opts.new
    rw [hn]
    constructor
    · by_cases h : [] ∈ o.extensions
      · exact .inl ⟨by simpa using h, h⟩
      · refine .inr ⟨?_, h⟩
        simp only [Option.some.injEq, List.any_eq_false, decide_eq_true_eq]
        rintro x hx rfl
        exact h hx
    · cases o
      simp only at hn
      rw [hn]

/-- C12: with the options left as they are by default, extensions are enforced if and only if there is
an empty one among them. -/
theorem C12_default (extensions : List Str) :
    ({ Opts.default with extensions := extensions } : Opts).new.enforceExtension = some true ↔
      [] ∈ extensions := by
  rcases ((C12_new { Opts.default with extensions := extensions }).2 rfl).1 with ⟨h, h'⟩ | ⟨h, h'⟩
  · exact ⟨fun _ => h', fun _ => h⟩
  · exact ⟨fun hx => absurd (h.symm.trans hx) (by simp), fun hx => absurd hx h'⟩

example : Opts.default.enforceExtension = none ∧ [] ∉ Opts.default.extensions := by decide

/-! ## C42 -/

/-- C42: the error of `resolve` is never the marker, and a "Resolve … failed in …" message holds
the request and the path as given. -/
theorem C42_errors (e : Env) (n : Nat) (path request : Str) (err : Err) (pj : Json → Str)
    (h : (resolve e n path request).Returns (.error err)) :
    err.render pj ≠ cs!"T0" ∧
    ∀ r p, err = .failed r p → err.render pj =
      cs!"Resolve '" ++ request ++ cs!"' failed in '" ++ path ++ cs!"'" := by
  have := Prog.all_iff_returns.1 (resolve_sat (resolveStats_fileOk e n path request)) _ h
  have hdisp : (parseRequest request).display = request :=
    (parse_isSplit request).concat.symm
  rw [Ne, render_eq_tag]
  rcases this with rfl | ⟨h1, h2⟩ | ⟨rfl, -⟩
  · refine ⟨by simp [failedMessage, Err.isTag], fun r p he => ?_⟩
    simp only [failedMessage, Err.render, hdisp]
  · exact ⟨by simp [h2], fun r p he => by subst he; exact h1.elim⟩
  · exact ⟨by simp [Err.isTag], fun r p he => by cases he⟩

/-- C42: without description files, tsconfig and symlinks the only failure is the plain
not-found one. -/
theorem C42_plain (e : Env) (hd : e.opts.descriptionFile = none) (ht : e.opts.tsconfig = none)
    (hs : e.opts.symlinks = false) (n : Nat) (path request : Str) (err : Err) (pj : Json → Str)
    (h : (resolve e n path request).Returns (.error err)) :
    err.render pj = cs!"Resolve '" ++ request ++ cs!"' failed in '" ++ path ++ cs!"'" := by
  have h0 : (resolveStats e.ctx n path request).All
      (FinalInv (fun _ => True) (fun er => er.isTag = true) True ⟨path, parseRequest request⟩) :=
    resolveStats_sat (plainInv e hd) n path request trivial fun l hl => by
      rw [show e.ctx.opts.tsconfig = none from ht] at hl; cases hl
  have := Prog.all_iff_returns.1 (resolve_sat h0) _ h
  have hdisp : (parseRequest request).display = request :=
    (parse_isSplit request).concat.symm
  rcases this with rfl | ⟨h1, h2⟩ | ⟨-, h2⟩
  · simp only [failedMessage, Err.render, hdisp]
  · rw [h1] at h2; cases h2
  · rw [hs] at h2; cases h2

/-- The message of a failed `resolve` on fresh caches, for examples. -/
def Prog.freshErr (p : Prog (Except Err Result)) : Option Str :=
  match p.fresh with
  | some (.error e) => some (e.render fun _ => [])
  | _ => none

example : (resolve (treeEnv optsA treeA) 20 cs!"/p" cs!"nope?x#y").freshErr =
    some cs!"Resolve 'nope?x#y' failed in '/p'" := by decide +kernel
example : (resolve (treeEnv { optsA with descriptionFile := none } treeA) 20 cs!"/p" cs!"./b").freshErr
    = some cs!"Resolve './b' failed in '/p'" := by decide +kernel

/-! ## C43 -/

/-- `/p/package.json` with imports, `/p/a.js`, `/p/ts.json` with paths, and a package `m` whose
exports have a pattern with an extension. -/
def treeQ : Tree :=
  .dir [(cs!"p", .dir [
    (cs!"a.js", textFile),
    (cs!"package.json", jsonFile (.obj [(cs!"imports", .obj [(cs!"#a", .str cs!"./a.js")])])),
    (cs!"ts.json", jsonFile (.obj [(cs!"compilerOptions", .obj [(cs!"baseUrl", .str cs!"."),
      (cs!"paths", .obj [(cs!"a", .arr [.str cs!"./a.js"])])])])),
    (cs!"node_modules", .dir [(cs!"m", .dir [
      (cs!"package.json", jsonFile (.obj [(cs!"exports", .obj [(cs!"./*", .str cs!"./lib/*.js")])])),
      (cs!"lib", .dir [(cs!"x", textFile), (cs!"x.js", textFile)])])])])]

/-- C43 fails as stated: the query is lost through an imports mapping and through tsconfig
paths, and changed (and the wrong file returned) through an exports pattern. -/
theorem C43_query_violated :
    (resolve (treeEnv optsA treeQ) 20 cs!"/p" cs!"#a?q").freshInfo =
      some ⟨cs!"/p/a.js", ⟨[], [], [], .relative⟩⟩ ∧
    (resolve (treeEnv { optsA with tsconfig := some cs!"/p/ts.json" } treeQ) 20 cs!"/p"
      cs!"a?q").freshInfo = some ⟨cs!"/p/a.js", ⟨[], [], [], .relative⟩⟩ ∧
    (resolve (treeEnv optsA treeQ) 20 cs!"/p" cs!"m/x?q").freshInfo =
      some ⟨cs!"/p/node_modules/m/lib/x", ⟨[], cs!"?q.js", [], .relative⟩⟩ := by
  decide +kernel

/-- C43 for resolvers without tsconfig, on file systems whose description files have no exports
and no imports. Missing: mappings, where the code loses the query (`C43_query_violated`).
For any history, sharing and interleaving. -/
theorem C43_query_partial (cfg : Nat → Config) (ser : Json → Str) (fs : Fs) (l : List Event)
    (t : Task) (hfs : NoMaps fs) (hl : ∀ fs', Event.change fs' ∈ l → NoMaps fs')
    (ht : t ∈ ((Sys.init fs).after cfg ser l).tasks) (hts : (cfg t.rid).opts.tsconfig = none)
    (path request target query fragment : Str) (i : Info) (hc : t.call = .resolve path request)
    (hr : IsSplit request target query fragment)
    (hd : t.prog = .ret (.resolve (.ok (.info i)))) :
    i.request.query = query ∧ i.request.fragment = fragment := by
  have h := system_sameQF hfs hl ht hts hc hd
  simpa [parseRequest, parse_of_isSplit hr] using h

-- the hypothesis on the file system is met where a request with a query succeeds (see C08)
example : NoMaps (treeFs treeA []) :=
  noMaps_treeFs (by decide +kernel)

end Verif
