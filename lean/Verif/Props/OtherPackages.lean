import Verif.Proofs.OtherPackages
import Verif.Proofs.Install
import Verif.Props.WatchedBare
/-!
# C98: other packages do not matter to a request by name
-/

namespace Verif

variable {cfg cfg' : Nat → Config} {ser : Json → Str} {fs fs' : Fs}

/-- C98: two file systems have the same outside of the directories of some packages (the package `q.2` in the
`node_modules` of `q.1`, for each `q` in `pkgs`) that have nothing to do with a request by name. Then after any histories
the request ends in the same way on both. -/
theorem C98_others (hs : Static cfg ser fs) (hs' : Static cfg' ser fs') (l l' : List Event)
    (hl : ∀ e ∈ l, e.calm) (hl' : ∀ e ∈ l', e.calm) (t t' : Task)
    (ht : t ∈ ((Sys.init fs).after cfg ser l).tasks) (ht' : t' ∈ ((Sys.init fs').after cfg' ser l').tasks)
    (ho : (cfg' t'.rid).opts = (cfg t.rid).opts) (hfuel : t'.fuel = t.fuel) {path request name : Str}
    (hc : t.call = .resolve path request) (hc' : t'.call = .resolve path request)
    (hp : Plain (cfg t.rid).opts path (parseRequest request).target)
    (hk : getTargetKind (parseRequest request).target = .normal)
    (hname : PackageName (parseRequest request).target name)
    (hascii : AsciiStr name ∨ (parseRequest request).target = name)
    (hb : (cfg t.rid).opts.browserField = false) (hkeep : KeepToThemselves (cfg t.rid).opts fs request)
    (pkgs : List (Str × Str))
    (hpkg : ∀ q ∈ pkgs, isAbs q.1 = true ∧ Unrelated (cfg t.rid).opts (parseRequest request).target q.2 ∧
      NoneBeside (cfg t.rid).opts fs q.1 q.2 ∧ Outside (pkgDir q.1 q.2) path)
    (hw : SameAt (fun w => ∀ q ∈ pkgs, Outside (pkgDir q.1 q.2) w) fs fs')
    (he : ∀ w, (∀ q ∈ pkgs, Outside (pkgDir q.1 q.2) w) → fs'.pathExists w = fs.pathExists w)
    (x x' : Outcome Answer) (hx1 : t.prog.outcome = some x) (hx2 : t'.prog.outcome = some x') :
    x.Like Answer.Sim x' := by
  have hrel := kind_normal_rel hk
  have out : ∀ w, WatchedBare (cfg t.rid).opts fs path (parseRequest request).target request name w →
      ∀ q ∈ pkgs, Outside (pkgDir q.1 q.2) w := by
    intro w h q hq
    obtain ⟨h1, h2, h3, h4⟩ := hpkg q hq
    exact watchedBare_out h1 h2 hkeep h3 h4 hrel hname h
  refine C97_watched hs hs' l l' hl hl' t t' ht ht' ho hfuel hc hc' hp hk hname hascii hb
    (fun v hv s hs => (hkeep.exports v hv s hs).1)
    ⟨fun w h => hw.isFile w (out w h), fun w h => hw.isDir w (out w h), fun w h => hw.read w (out w h),
      fun w h => hw.mtime w (out w h), fun w h => hw.canon w (out w h)⟩ (fun a ha => he _ fun q hq => ?_)
    x x' hx1 hx2
  obtain ⟨h1, h2, h3, h4⟩ := hpkg q hq
  exact out_target' h1 h2 (outside_upward h4 ha) hrel

/-- C98 for trees: putting anything at the location of a package changes nothing outside of it, so `C98_others` applies
to the tree before and after. -/
theorem C98_install (t sub : Tree) (cwd d : List Str) (hd : ∀ s ∈ d, ValidName s) :
    SameAt (Outside (absText d)) (treeFs t cwd) (treeFs (Tree.install sub d t) cwd) ∧
      ∀ w, Outside (absText d) w → (treeFs (Tree.install sub d t) cwd).pathExists w = (treeFs t cwd).pathExists w :=
  tree_same (fun _ h => install_at sub h) hd cwd

/-! ## The hypotheses are met -/

/-- The package `bar`. -/
def pkgBar : Tree := .dir [(cs!"package.json", jsonFile exportsLib), (cs!"lib.js", textFile),
  (cs!"node_modules", .dir [(cs!"foo", .dir [(cs!"index.js", textFile)])])]

/-- The location of `bar`. -/
def locBar : List Str := [cs!"p", cs!"node_modules", cs!"bar"]

example : Tree.install pkgBar locBar (treeFoo []) = treeFooBar := by rfl
example : absText locBar = pkgDir cs!"/p" cs!"bar" := by decide
example : ∀ s ∈ locBar, ValidName s := by unfold ValidName; decide

/-- All strings are the same text, which is none of a field itself. -/
def docLib (d : Doc) : Bool :=
  match d.json with
  | some (.obj l) => l.all fun kv => match kv.2 with
    | .obj m => (Json.obj m).strings.all fun t => t = cs!"./lib.js"
    | _ => false
  | some _ => true
  | none => true

theorem treeFoo_libs : (treeFoo []).allDoc docLib = true := by decide +kernel

theorem docLib_get {d : Doc} (h : docLib d = true) {j v : Json} {f : Str} (hj : d.json = some j)
    (hv : j.get f = some v) : ∀ t ∈ v.strings, t = cs!"./lib.js" := by
  unfold docLib at h
  rw [hj] at h
  cases j with
  | obj l =>
    have := List.all_eq_true.1 h (f, v) (alookup_mem (show alookup f l = some v from hv))
    cases v <;> first | cases this | skip
    exact fun t ht => of_decide_eq_true (List.all_eq_true.1 this t ht)
  | null => cases hv
  | bool b => cases hv
  | num n => cases hv
  | str s => cases hv
  | arr l => cases hv

instance (o : Opts) (s : Str) : Decidable (StaysOut o s) := by unfold StaysOut; infer_instance

/-- The ends of a text. -/
def endsOf : Str → List Str
  | [] => [[]]
  | c :: s => (c :: s) :: endsOf s

theorem mem_endsOf {x s : Str} (h : x <:+ s) : x ∈ endsOf s := by
  induction s with
  | nil => cases List.suffix_nil.1 h; exact List.mem_singleton_self _
  | cons c s ih =>
    rcases List.suffix_cons_iff.1 h with rfl | h
    · exact List.mem_cons_self
    · exact List.mem_cons_of_mem _ (ih h)

theorem keep_lib {request : Str} : KeepToThemselves optsA (treeFs (treeFoo []) []) request where
  exports := by
    rintro v ⟨p, doc, json, h1, h2, h3⟩ t ht
    cases docLib_get (allDoc_read treeFoo_libs h1) h2 h3 t ht
    refine ⟨by decide, fun s hs => ?_⟩
    have : s = cs!"./lib.js" := by
      cases hs with
      | asIs => rfl
      | folder x _ h => cases h
      | star x _ => rfl
    subst this
    decide +kernel
  mains d f _ v h := (treeFoo_names h).elim

-- a target with a wildcard
example : ∀ s, FilledWith cs!"foo/a" cs!"./lib/*.js" s → StaysOut optsA (parseRequest s).target := by
  intro s hs
  cases hs with
  | asIs => decide +kernel
  | folder x _ h => cases h
  | star x hx =>
    exact (by decide +kernel : ∀ x ∈ endsOf cs!"foo/a", StaysOut optsA (parseRequest (cs!"./lib/*.js".flatMap fun c =>
      if c = '*' then x.flatMap fun c => if c = '$' then cs!"$$" else [c] else [c])).target) x (mem_endsOf hx)

-- what is filled in may lead elsewhere, but only if the request says so
example : ¬ ∀ s, FilledWith cs!"foo/node_modules/bar/lib" cs!"./*.js" s → StaysOut optsA (parseRequest s).target := by
  intro h
  have := h _ (.star cs!"node_modules/bar/lib" ⟨cs!"foo/", rfl⟩)
  revert this
  decide +kernel

example : Unrelated optsA (parseRequest cs!"foo").target cs!"bar" where
  ne := by decide
  relative := rfl
  modules := by decide
  target_out := by decide +kernel
  target := by decide +kernel
  own s hs := by
    have key : ∀ s ∈ optsA.ownNames, Comp.up ∉ parts s ∧ Comp.normal cs!"bar" ∉ parts s := by decide +kernel
    refine ⟨(key s hs).1, fun x hx => ?_⟩
    cases (Option.some.inj hx : Comp.normal cs!"bar" = x)
    exact (key s hs).2
  description desc h := by
    cases (Option.some.inj h : cs!"package.json" = desc)
    rfl

example : Outside (pkgDir cs!"/p" cs!"bar") cs!"/p" := outside_plain rfl (by decide) (by decide)

example : NoneBeside optsA (treeFs (treeFoo []) []) cs!"/p" cs!"bar" :=
  noneBeside_tree (n := [cs!"p", cs!"node_modules"]) rfl rfl fun desc h => by
    cases (Option.some.inj h : cs!"package.json" = desc)
    exact ⟨rfl, rfl, nofun⟩

-- the names that do not count as other packages: a file with an extension is what the request is for
example : ¬ Unrelated optsA cs!"foo" cs!"foo.js" := fun h =>
  h.target cs!".js" (by decide) (by decide)

/-- `foo` has a main field that leads into `bar`. -/
def treeReaching : Tree :=
  .dir [(cs!"p", .dir [(cs!"node_modules", .dir [(cs!"foo", .dir [(cs!"package.json",
    jsonFile (.obj [(cs!"main", .str cs!"../bar/lib.js")])), (cs!"index.js", textFile)])])])]

/-- Packages must keep to themselves. -/
theorem C98_main_fails :
    foundPath optsA treeReaching cs!"/p" cs!"foo" = some cs!"/p/node_modules/foo/index.js" ∧
    foundPath optsA (Tree.install pkgBar locBar treeReaching) cs!"/p" cs!"foo" = some cs!"/p/node_modules/bar/lib.js" := by
  decide +kernel

/-- There is a description file in `node_modules`; its name is that of a request for what is not there. -/
def treeBeside : Tree :=
  .dir [(cs!"p", .dir [(cs!"node_modules", .dir [(cs!"package.json", jsonFile (.obj [(cs!"name", .str cs!"foo"),
    (cs!"exports", .obj [(cs!"./a", .str cs!"./bar/lib.js")])]))])])]

/-- There must be no description files beside packages: such a file makes a package of all of `node_modules`. -/
theorem C98_beside_fails :
    foundPath optsA treeBeside cs!"/p" cs!"foo/a" = none ∧
    foundPath optsA (Tree.install pkgBar locBar treeBeside) cs!"/p" cs!"foo/a" = some cs!"/p/node_modules/bar/lib.js" := by
  decide +kernel

end Verif
