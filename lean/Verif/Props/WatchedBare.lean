import Verif.Proofs.WatchedBare
import Verif.Props.Watched
/-!
# C97: the files that have a say in the answer to a request by name
-/

namespace Verif

variable {cfg cfg' : Nat → Config} {ser : Json → Str} {fs fs' : Fs}

/-- C97: two file systems have the same at the paths `WatchedBare` by a request by name, and anything else may differ,
other packages among it. Then after any histories the request ends in the same way on both. -/
theorem C97_watched (hs : Static cfg ser fs) (hs' : Static cfg' ser fs') (l l' : List Event)
    (hl : ∀ e ∈ l, e.calm) (hl' : ∀ e ∈ l', e.calm) (t t' : Task)
    (ht : t ∈ ((Sys.init fs).after cfg ser l).tasks) (ht' : t' ∈ ((Sys.init fs').after cfg' ser l').tasks)
    (ho : (cfg' t'.rid).opts = (cfg t.rid).opts) (hfuel : t'.fuel = t.fuel) {path request name : Str}
    (hc : t.call = .resolve path request) (hc' : t'.call = .resolve path request)
    (hp : Plain (cfg t.rid).opts path (parseRequest request).target)
    (hk : getTargetKind (parseRequest request).target = .normal)
    (hname : PackageName (parseRequest request).target name)
    (hascii : AsciiStr name ∨ (parseRequest request).target = name)
    (hb : (cfg t.rid).opts.browserField = false) (hx : DottedExports fs)
    (hw : SameAt (WatchedBare (cfg t.rid).opts fs path (parseRequest request).target request name) fs fs')
    (he : ∀ a ∈ upward (path.length + 1) path,
      fs'.pathExists (pjoin (pjoin a cs!"node_modules") (parseRequest request).target) =
        fs.pathExists (pjoin (pjoin a cs!"node_modules") (parseRequest request).target))
    (x x' : Outcome Answer) (hx1 : t.prog.outcome = some x) (hx2 : t'.prog.outcome = some x') :
    x.Like Answer.Sim x' := by
  obtain ⟨y, h1, h2⟩ := static_ends hs hl ht hx1
  obtain ⟨y', h1', h2'⟩ := static_ends hs' hl' ht' hx2
  have hts : TsClear (cfg t.rid).opts fs t.call := by
    rw [hc]
    intro loc hloc
    rw [hp.tsconfig] at hloc
    cases hloc
  obtain ⟨z, hz⟩ := call_sure hs t.rid hts t.fuel
  have e : t'.call.pure (cfg' t'.rid) fs' t'.fuel = t.call.pure (cfg t.rid) fs t.fuel := by
    rw [hc', hc, hfuel]
    unfold Call.pure
    dsimp only
    rw [hs.debug t.rid, hs'.debug t'.rid, ho,
      resolveCtx_watchedBare hw hb hx hp hk (moduleName_spec hascii hname) (fun _ => id) he]
  rw [e] at h1'
  rw [hz _ h1] at h2
  rw [hz _ h1'] at h2'
  exact Answer.like_join h2 h2'

/-! ## The hypotheses are met -/

/-- A description file with exports. -/
def exportsLib : Json := .obj [(cs!"exports", .obj [(cs!".", .str cs!"./lib.js")])]

/-- `/p` with the package `foo` in `node_modules`, and further packages. -/
def treeFoo (l : List (Str × Tree)) : Tree :=
  .dir [(cs!"p", .dir [(cs!"node_modules", .dir ([(cs!"foo", .dir [(cs!"package.json", jsonFile exportsLib),
    (cs!"lib.js", textFile)])] ++ l))])]

/-- The package `bar` is installed, too. -/
def treeFooBar : Tree := treeFoo [(cs!"bar", .dir [(cs!"package.json", jsonFile exportsLib),
  (cs!"lib.js", textFile), (cs!"node_modules", .dir [(cs!"foo", .dir [(cs!"index.js", textFile)])])])]

example : Static (fun _ => config optsA 0) serJson (treeFs (treeFoo []) []) := static_new rfl (by decide +kernel)
example : Static (fun _ => config optsA 0) serJson (treeFs treeFooBar []) := static_new rfl (by decide +kernel)
example : foundPath optsA (treeFoo []) cs!"/p" cs!"foo" = some cs!"/p/node_modules/foo/lib.js" := by decide +kernel
example : foundPath optsA treeFooBar cs!"/p" cs!"foo" = some cs!"/p/node_modules/foo/lib.js" := by decide +kernel
example : Plain (config optsA 0).opts cs!"/p" (parseRequest cs!"foo").target := ⟨rfl, .inr nofun, .inl rfl⟩
example : getTargetKind (parseRequest cs!"foo").target = .normal := by decide +kernel
example : PackageName (parseRequest cs!"foo").target cs!"foo" :=
  PackageName.plain (name := cs!"foo") (rest := []) (by decide) (by decide) (.inl rfl)

/-- All fields are objects, and those of exports have targets that begin with `./`. -/
def docExports (d : Doc) : Bool :=
  match d.json with
  | some (.obj l) => l.all fun kv => match kv.2 with
    | .obj m => (Json.obj m).strings.all fun t => startsWith t cs!"./"
    | _ => false
  | some _ => true
  | none => true

theorem docExports_get {d : Doc} (h : docExports d = true) {j v : Json} {f : Str} (hj : d.json = some j)
    (hv : j.get f = some v) : (∃ m, v = .obj m) ∧ ∀ t ∈ v.strings, cs!"./" <+: t := by
  unfold docExports at h
  rw [hj] at h
  cases j with
  | obj l =>
    have := List.all_eq_true.1 h (f, v) (alookup_mem (show alookup f l = some v from hv))
    cases v <;> first | cases this | skip
    exact ⟨⟨_, rfl⟩, fun t ht => (startsWith_iff _ _).1 (List.all_eq_true.1 this t ht)⟩
  | null => cases hv
  | bool b => cases hv
  | num n => cases hv
  | str s => cases hv
  | arr l => cases hv

theorem treeFoo_docs : (treeFoo []).allDoc docExports = true := by decide +kernel

example : DottedExports (treeFs (treeFoo []) []) := by
  rintro v ⟨p, doc, json, h1, h2, h3⟩
  exact (docExports_get (allDoc_read treeFoo_docs h1) h2 h3).2

theorem treeFoo_names {d f m : Str} : ¬ NamesMain optsA (treeFs (treeFoo []) []) d f m := by
  rintro ⟨desc, doc, json, -, -, h2, h3, h4⟩
  obtain ⟨⟨_, h⟩, -⟩ := docExports_get (allDoc_read treeFoo_docs h2) h3 h4
  cases h

theorem treeFoo_leads {p q : Str} (h : PathLeads optsA (treeFs (treeFoo []) []) p q) : q = p := by
  induction h with
  | here => rfl
  | mains _ hq ih =>
    rw [← ih]
    clear ih
    induction hq with
    | here => rfl
    | next _ ih => exact ih
    | main _ hn _ => exact (treeFoo_names hn).elim

/-- What the request is about. -/
def soughtFoo : List Str := ([cs!"/p", cs!"/"].flatMap fun a => [pjoin a cs!"node_modules",
  pjoin (pjoin a cs!"node_modules") [], pjoin (pjoin a cs!"node_modules") cs!"foo",
  pjoin (pjoin a cs!"node_modules") cs!"./foo"]) ++ [cs!"/p/node_modules/foo/./lib.js"]

theorem treeFoo_sought {p : Str} (h : Sought optsA (treeFs (treeFoo []) []) cs!"/p" cs!"foo" cs!"foo" p) : p ∈ soughtFoo := by
  have up : ∀ {a}, a ∈ upward ((cs!"/p").length + 1) cs!"/p" → a = cs!"/p" ∨ a = cs!"/" := by
    intro a ha
    rw [show upward ((cs!"/p").length + 1) cs!"/p" = [cs!"/p", cs!"/"] by decide] at ha
    simpa using ha
  cases h with
  | root h => rcases up h with rfl | rfl <;> decide
  | left h => rcases up h with rfl | rfl <;> decide
  | named h => rcases up h with rfl | rfl <;> decide
  | dotted h => rcases up h with rfl | rfl <;> decide
  | @exported a d t s desc doc json v ha hdesc hd hr hj hv ht hf _ =>
    cases (Option.some.inj hdesc : cs!"package.json" = desc)
    rcases up ha with rfl | rfl
    · have : d = cs!"/p/node_modules/foo" := by
        rw [show closest (treeFs (treeFoo []) []) cs!"package.json" (pjoin (pjoin cs!"/p" cs!"node_modules") cs!"foo") =
          some cs!"/p/node_modules/foo" by decide +kernel] at hd
        exact (Option.some.inj hd).symm
      subst this
      have hread : (treeFs (treeFoo []) []).read (pjoin cs!"/p/node_modules/foo" cs!"package.json") =
        some ⟨some exportsLib, .ok (some exportsLib)⟩ := by rfl
      rw [hread] at hr
      cases hr
      cases hj
      cases hv
      cases List.mem_singleton.1 (show t ∈ [cs!"./lib.js"] from ht)
      have : s = cs!"./lib.js" := by
        cases hf with
        | asIs => rfl
        | folder x _ h => cases h
        | star x _ => rfl
      subst this
      decide
    · rw [show closest (treeFs (treeFoo []) []) cs!"package.json" (pjoin (pjoin cs!"/" cs!"node_modules") cs!"foo") =
        none by decide +kernel] at hd
      cases hd

/-- The paths that are watched by the request. -/
def watchFoo : List Str := soughtFoo.flatMap fun q =>
  (q :: optsA.extensions.map (q ++ ·)) ++
  (optsA.mainFiles.flatMap fun m => pjoin q (cs!"./" ++ m) :: optsA.extensions.map (pjoin q (cs!"./" ++ m) ++ ·)) ++
  upward (q.length + 1) q ++ (upward (q.length + 1) q).map (pjoin · cs!"package.json")

theorem treeFoo_watched {w : Str} (h : WatchedBare optsA (treeFs (treeFoo []) []) cs!"/p" cs!"foo" cs!"foo" cs!"foo" w) :
    w ∈ watchFoo := by
  have into : ∀ q ∈ soughtFoo, LookedAt optsA q w → w ∈ watchFoo := by
    intro q hq hw
    refine List.mem_flatMap.2 ⟨q, hq, ?_⟩
    simp only [List.mem_append]
    cases hw with
    | file h => exact .inl (.inl (.inl h))
    | mainFile hm h => exact .inl (.inl (.inr (List.mem_flatMap.2 ⟨_, hm, h⟩)))
    | above h => exact .inl (.inr h)
    | description hu hd =>
      cases (Option.some.inj hd : cs!"package.json" = _)
      exact .inr (List.mem_map.2 ⟨_, hu, rfl⟩)
  rcases h with ⟨p, hp, q, hq, hw⟩ | ⟨a, ha, rfl⟩
  · cases treeFoo_leads hq
    exact into _ (treeFoo_sought hp) hw
  · exact into _ (treeFoo_sought (.named ha)) (.above (upward_self _))

example : SameAt (WatchedBare optsA (treeFs (treeFoo []) []) cs!"/p" cs!"foo" cs!"foo" cs!"foo") (treeFs (treeFoo []) [])
    (treeFs treeFooBar []) where
  isFile w h := (by decide +kernel : ∀ w ∈ watchFoo, (treeFs treeFooBar []).isFile w = _) w (treeFoo_watched h)
  isDir w h := (by decide +kernel : ∀ w ∈ watchFoo, (treeFs treeFooBar []).isDir w = _) w (treeFoo_watched h)
  read w h := List.map_inj_left.1
    (by rfl : watchFoo.map (treeFs treeFooBar []).read = watchFoo.map (treeFs (treeFoo []) []).read) w
    (treeFoo_watched h)
  mtime w h := (by decide +kernel : ∀ w ∈ watchFoo, ((treeFs treeFooBar []).mtime w).isSome =
    ((treeFs (treeFoo []) []).mtime w).isSome) w (treeFoo_watched h)
  canon w h := (by decide +kernel : ∀ w ∈ watchFoo, (treeFs treeFooBar []).canon w = _) w (treeFoo_watched h)

example : ∀ a ∈ upward ((cs!"/p").length + 1) cs!"/p",
    (treeFs treeFooBar []).pathExists (pjoin (pjoin a cs!"node_modules") cs!"foo") =
      (treeFs (treeFoo []) []).pathExists (pjoin (pjoin a cs!"node_modules") cs!"foo") := by decide +kernel

-- each sort of path has a say: the file with an extension, what exports name, the `node_modules` above
example : foundPath optsA (.dir [(cs!"p", .dir [(cs!"node_modules", .dir [(cs!"foo.js", textFile)])])]) cs!"/p" cs!"foo" =
    some cs!"/p/node_modules/foo.js" := by decide +kernel
example : foundPath optsA (.dir [(cs!"p", .dir []), (cs!"node_modules", .dir [(cs!"foo", .dir [(cs!"index.js", textFile)])])])
    cs!"/p" cs!"foo" = some cs!"/node_modules/foo/index.js" := by decide +kernel

/-- `foo` exports what begins with `#`, and has further files. -/
def treeHashFoo (l : List (Str × Tree)) : Tree :=
  .dir [(cs!"p", .dir [(cs!"node_modules", .dir [(cs!"foo", .dir ([(cs!"package.json", jsonFile (.obj
    [(cs!"exports", .obj [(cs!".", .str cs!"#bar")]), (cs!"imports", .obj [(cs!"#bar", .str cs!"bar")])])),
    (cs!"#bar", textFile)] ++ l))])])]

/-- The targets of exports must begin with `./`: one that begins with `#` leads on to imports and from there to other
packages, so that here `bar`, which is at none of the paths above, has a say in the answer for `foo`. -/
theorem C97_hash_fails : foundPath optsA (treeHashFoo [(cs!"node_modules", .dir [(cs!"bar", .dir
      [(cs!"package.json", jsonFile exportsLib), (cs!"lib.js", textFile)])])]) cs!"/p" cs!"foo" ≠
    foundPath optsA (treeHashFoo []) cs!"/p" cs!"foo" := by
  decide +kernel

end Verif
