import Verif.Props.OtherAmid
/-!
# C99: packages do not matter to a request by path
-/

namespace Verif

variable {cfg cfg' : Nat → Config} {ser : Json → Str} {fs fs' : Fs}

/-- C99: two file systems have the same outside of the directories of some packages (the package `q.2` in the
`node_modules` of `q.1`, for each `q` in `pkgs`), and a request names a path that is in none of them. Then after any
histories the request ends in the same way on both. -/
theorem C99_by_path (hs : Static cfg ser fs) (hs' : Static cfg' ser fs') (l l' : List Event)
    (hl : ∀ e ∈ l, e.calm) (hl' : ∀ e ∈ l', e.calm) (t t' : Task)
    (ht : t ∈ ((Sys.init fs).after cfg ser l).tasks) (ht' : t' ∈ ((Sys.init fs').after cfg' ser l').tasks)
    (ho : (cfg' t'.rid).opts = (cfg t.rid).opts) (hfuel : t'.fuel = t.fuel) {path request : Str}
    (hc : t.call = .resolve path request) (hc' : t'.call = .resolve path request)
    (hp : Plain (cfg t.rid).opts path (parseRequest request).target) (hk : IsPath (parseRequest request).target)
    (hb : (cfg t.rid).opts.browserField = false) (hkeep : MainsStayOut (cfg t.rid).opts fs)
    (pkgs : List (Str × Str))
    (hpkg : ∀ q ∈ pkgs, isAbs q.1 = true ∧ NotOwn (cfg t.rid).opts q.2 ∧ NoneBeside (cfg t.rid).opts fs q.1 q.2 ∧
      ∀ e ∈ (cfg t.rid).opts.endings, Outside (pkgDir q.1 q.2) (targetPath path (parseRequest request).target ++ e))
    (hw : SameAt (fun w => ∀ q ∈ pkgs, Outside (pkgDir q.1 q.2) w) fs fs')
    (x x' : Outcome Answer) (hx : t.prog.outcome = some x) (hx' : t'.prog.outcome = some x') :
    x.Like Answer.Sim x' := by
  have out : ∀ w, Watched (cfg t.rid).opts fs (targetPath path (parseRequest request).target) w →
      ∀ q ∈ pkgs, Outside (pkgDir q.1 q.2) w := by
    intro w h q hq
    obtain ⟨h1, h2, h3, h4⟩ := hpkg q hq
    exact watched_out h1 h2 hkeep h3 h4 h
  exact C88_watched hs hs' l l' hl hl' t t' ht ht' ho hfuel hc hc' hp hk hb
    ⟨fun w h => hw.isFile w (out w h), fun w h => hw.isDir w (out w h), fun w h => hw.read w (out w h),
      fun w h => hw.mtime w (out w h), fun w h => hw.canon w (out w h)⟩ x x' hx hx'

/-- C99 for side effects: those of a path depend on no package that it is not in. -/
theorem C99_side_effects (hs : Static cfg ser fs) (hs' : Static cfg' ser fs') (l l' : List Event)
    (hl : ∀ e ∈ l, e.calm) (hl' : ∀ e ∈ l', e.calm) (t t' : Task)
    (ht : t ∈ ((Sys.init fs).after cfg ser l).tasks) (ht' : t' ∈ ((Sys.init fs').after cfg' ser l').tasks)
    (ho : (cfg' t'.rid).opts = (cfg t.rid).opts) {path : Str}
    (hc : t.call = .sideEffects path) (hc' : t'.call = .sideEffects path)
    (pkgs : List (Str × Str))
    (hpkg : ∀ q ∈ pkgs, isAbs q.1 = true ∧ NotOwn (cfg t.rid).opts q.2 ∧ Outside (pkgDir q.1 q.2) path)
    (hw : SameAt (fun w => ∀ q ∈ pkgs, Outside (pkgDir q.1 q.2) w) fs fs')
    (x x' : Outcome Answer) (hx : t.prog.outcome = some x) (hx' : t'.prog.outcome = some x') :
    x.Like Answer.Sim x' := by
  have out : ∀ w, (∃ a ∈ upward (path.length + 1) path, w = a ∨
      ∃ desc, (cfg t.rid).opts.descriptionFile = some desc ∧ w = pjoin a desc) →
      ∀ q ∈ pkgs, Outside (pkgDir q.1 q.2) w := by
    rintro w ⟨a, ha, h⟩ q hq
    obtain ⟨h1, h2, h3⟩ := hpkg q hq
    rcases h with rfl | ⟨desc, hd, rfl⟩
    · exact outside_upward h3 ha
    · have := out_join (e := []) h1 h2 (h2.description desc hd) (outside_upward h3 ha) (by
        rw [List.append_nil]
        exact h2.own desc (List.mem_append_right _ (by rw [hd]; exact List.mem_cons_self)))
      rwa [List.append_nil] at this
  exact C88_side_effects hs hs' l l' hl hl' t t' ht ht' ho hc hc'
    ⟨fun w h => hw.isFile w (out w h), fun w h => hw.isDir w (out w h), fun w h => hw.read w (out w h),
      fun w h => hw.mtime w (out w h), fun w h => hw.canon w (out w h)⟩ x x' hx hx'

/-- C99 for calls in histories in which files come and go at any moment, and packages are installed and uninstalled: if
the files that two calls have seen agree outside of the directories of the packages, the calls end in the same way. They
may be calls of the same history. -/
theorem C99_amid {fs0 fs0' fs1 fs2 : Fs} {l l' : List Event} {i i' : Nat} {t t' : Live.Task}
    (h : Live.SeesFiles cfg fs0 l i t fs1) (h' : Live.SeesFiles cfg' fs0' l' i' t' fs2)
    (ho : (cfg' t'.rid).opts = (cfg t.rid).opts) (hfuel : t'.fuel = t.fuel) {path request : Str}
    (hc : t.call = .resolve path request) (hc' : t'.call = .resolve path request) (ha : isAbs path = true)
    (hp : Plain (cfg t.rid).opts path (parseRequest request).target) (hk : IsPath (parseRequest request).target)
    (hb : (cfg t.rid).opts.browserField = false) (hkeep : MainsStayOut (cfg t.rid).opts fs1)
    (pkgs : List (Str × Str))
    (hpkg : ∀ q ∈ pkgs, isAbs q.1 = true ∧ NotOwn (cfg t.rid).opts q.2 ∧ NoneBeside (cfg t.rid).opts fs1 q.1 q.2 ∧
      ∀ e ∈ (cfg t.rid).opts.endings, Outside (pkgDir q.1 q.2) (targetPath path (parseRequest request).target ++ e))
    (hw : SameAt (fun w => ∀ q ∈ pkgs, Outside (pkgDir q.1 q.2) w) fs1 fs2)
    (x x' : Outcome Answer) (hx : Live.outcome t.prog = some x) (hx' : Live.outcome t'.prog = some x') :
    x.Like Answer.Sim x' := by
  refine Live.amid_two h h' (by rw [hc]; exact ha) (by rw [hc']; exact ha) ?_ hx hx'
  intro k k' g1 e1 u g2 u' e2 g3 g4 g5 e3 e4 e5 y y' hy hy'
  exact C99_by_path h.static h'.static k k' g1 e1 u u' g2 e2 (by rw [g3, e3]; exact ho) (by rw [g5, e5]; exact hfuel)
    (g4.trans hc) (e4.trans hc') (g3 ▸ hp) hk (g3 ▸ hb) (g3 ▸ hkeep) pkgs (g3 ▸ hpkg) hw y y' hy hy'

/-! ## The hypotheses are met -/

/-- A project with a directory `src` of its own, whose main field is `main`. -/
def treeSrc (main : Str) : Tree :=
  .dir [(cs!"package.json", timedFile (.obj []) 5), (cs!"p", .dir [(cs!"node_modules", .dir []), (cs!"src", .dir
    [(cs!"package.json", timedFile (.obj [(cs!"main", .str main)]) 5), (cs!"a.js", textFile), (cs!"index.js", textFile)])])]

/-- The package `bar` is installed. -/
def treeSrcBar (main : Str) : Tree := Tree.install pkgBar locBar (treeSrc main)

def docMain (d : Doc) : Bool :=
  match d.json with
  | some (.obj l) => l.all fun kv => match kv.2 with
    | .str s => s = cs!"a.js"
    | _ => true
  | _ => true

theorem src_docs : (treeSrc cs!"a.js").allDoc docMain = true := by decide +kernel

theorem src_mains : MainsStayOut optsA (treeFs (treeSrc cs!"a.js") []) := by
  intro d f _ v h
  obtain ⟨desc, doc, json, -, -, h2, h3, h4⟩ := h
  have hd := allDoc_read src_docs h2
  have : v = cs!"a.js" := by
    unfold docMain at hd
    rw [h3] at hd
    cases json with
    | obj l =>
      obtain ⟨x, hx, e⟩ : ∃ x ∈ l, x.2 = .str v := ⟨_, alookup_mem h4, rfl⟩
      have := List.all_eq_true.1 hd _ hx
      rw [e] at this
      simpa using this
    | _ => cases h4
  subst this
  unfold StaysOut
  decide +kernel

example : NotOwn optsA cs!"bar" where
  ne := by decide
  relative := rfl
  own s hs := by
    have key : ∀ s ∈ optsA.ownNames, Comp.up ∉ parts s ∧ Comp.normal cs!"bar" ∉ parts s := by decide +kernel
    refine ⟨(key s hs).1, fun x hx => ?_⟩
    cases (Option.some.inj hx : Comp.normal cs!"bar" = x)
    exact (key s hs).2
  description desc h := by
    cases (Option.some.inj h : cs!"package.json" = desc)
    rfl

example : ∀ e ∈ optsA.endings,
    Outside (pkgDir cs!"/p" cs!"bar") (targetPath cs!"/p" (parseRequest cs!"./src").target ++ e) := by
  have key : ∀ e ∈ optsA.endings, isAbs (targetPath cs!"/p" (parseRequest cs!"./src").target ++ e) = true ∧
      Comp.up ∉ comps (targetPath cs!"/p" (parseRequest cs!"./src").target ++ e) ∧
      ¬ comps (pkgDir cs!"/p" cs!"bar") <+: comps (targetPath cs!"/p" (parseRequest cs!"./src").target ++ e) := by
    decide +kernel
  exact fun e he => outside_plain (key e he).1 (key e he).2.1 (key e he).2.2

-- a request that goes up
example : ∀ e ∈ optsA.endings,
    Outside (pkgDir cs!"/p" cs!"bar") (targetPath cs!"/p/lib" (parseRequest cs!"../src").target ++ e) := by
  have key : ∀ e ∈ optsA.endings, isAbs (targetPath cs!"/p/lib" (parseRequest cs!"../src").target ++ e) = true ∧
      ∀ n ≤ (comps (targetPath cs!"/p/lib" (parseRequest cs!"../src").target ++ e)).length,
        ¬ comps (pkgDir cs!"/p" cs!"bar") <+:
          stand ((comps (targetPath cs!"/p/lib" (parseRequest cs!"../src").target ++ e)).take n) := by
    decide +kernel
  exact fun e he => outside_of (key e he).1 (key e he).2

-- one that comes through the package does not count as outside of it
example : ¬ Outside (pkgDir cs!"/p" cs!"bar") cs!"/p/node_modules/bar/../../src" := fun h =>
  h.2 (comps cs!"/p/node_modules/bar") ⟨comps cs!"../../src", by decide⟩ (by decide)

-- there is nothing in `/p/node_modules`
example : NoneBeside optsA (treeFs (treeSrc cs!"a.js") []) cs!"/p" cs!"bar" :=
  noneBeside_tree (n := [cs!"p", cs!"node_modules"]) rfl rfl fun desc h => by
    cases (Option.some.inj h : cs!"package.json" = desc)
    exact ⟨rfl, rfl, nofun⟩

example : Static (fun _ => config optsA 0) serJson (treeFs (treeSrc cs!"a.js") []) :=
  static_tree rfl rfl rfl (by decide +kernel)

example : Static (fun _ => config optsA 0) serJson (treeFs (treeSrcBar cs!"a.js") []) :=
  static_tree rfl rfl rfl (by decide +kernel)

example : SameAt (Outside (pkgDir cs!"/p" cs!"bar")) (treeFs (treeSrc cs!"a.js") []) (treeFs (treeSrcBar cs!"a.js") []) :=
  (C98_install (treeSrc cs!"a.js") pkgBar [] locBar (by unfold ValidName; decide)).1

example : foundPath optsA (treeSrc cs!"a.js") cs!"/p" cs!"./src" = some cs!"/p/src/a.js" ∧
    foundPath optsA (treeSrcBar cs!"a.js") cs!"/p" cs!"./src" = some cs!"/p/src/a.js" := by
  decide +kernel

/-- Main fields must not lead into `node_modules`. -/
theorem C99_main_fails :
    foundPath optsA (treeSrc cs!"../node_modules/bar/lib.js") cs!"/p" cs!"./src" = some cs!"/p/src/index.js" ∧
    foundPath optsA (treeSrcBar cs!"../node_modules/bar/lib.js") cs!"/p" cs!"./src" =
      some cs!"/p/node_modules/bar/lib.js" := by
  decide +kernel

/-- A description file in the `node_modules` directory itself, with a main field. -/
def treeMainBeside : Tree :=
  .dir [(cs!"p", .dir [(cs!"node_modules", .dir
    [(cs!"package.json", jsonFile (.obj [(cs!"main", .str cs!"bar/lib.js")])), (cs!"index.js", textFile)])])]

/-- There must be no description files beside packages. -/
theorem C99_beside_fails :
    foundPath optsA treeMainBeside cs!"/p" cs!"./node_modules" = some cs!"/p/node_modules/index.js" ∧
    foundPath optsA (Tree.install pkgBar locBar treeMainBeside) cs!"/p" cs!"./node_modules" =
      some cs!"/p/node_modules/bar/lib.js" := by
  decide +kernel

end Verif
