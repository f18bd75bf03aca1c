import Verif.Proofs.Browser
import Verif.Proofs.BrowserOff
import Verif.Props.Packages
/-!
# Properties about the `browser` field: C27, C28, C29
-/

namespace Verif

variable {cfg : Nat → Config} {ser : Json → Str} {fs : Fs} {rid : Nat} {path request : Str}

/-- The `browser` map of the package of a request has an entry that fits the request, which leads to
`w` in the end. -/
structure Redirected (o : Opts) (fs : Fs) (path request : Str) (pkg : Pkg) (w : AliasMap) : Prop where
  abs : isAbs path = true
  browser : o.browserField = true
  plain : Plain o path (parseRequest request).target
  noHash : ¬ cs!"#" <+: (parseRequest request).target
  loads : Loads o fs (pkgPath path (parseRequest request).target) (.ok (some pkg))
  unique : ∀ m, pkg.raw.get cs!"browser" = some (.obj m) → UniqueKeys m
  entry : ∃ k v, KeyFits o pkg.absDir path (parseRequest request).target k ∧
    BrowserEntry pkg.raw k v ∧ ChainEnd pkg.raw v w

/-- The path of the answer to a call. -/
def pathOf (p : Prog (Except Err Result)) : Option Str :=
  match p with
  | .ret (.ok (.info i)) => some i.path
  | _ => none

theorem pathOf_some {p : Prog (Except Err Result)} {x : Str} (h : pathOf p = some x) :
    ∃ i, p = .ret (.ok (.info i)) ∧ i.path = x := by
  unfold pathOf at h
  split at h
  · rename_i i
    exact ⟨i, rfl, Option.some.inj h⟩
  · cases h

theorem yields_path {o : Opts} (hs : Static (fun _ => config o 0) ser fs) {N : Nat} {x : Str}
    (h : pathOf (resolveCtx (pureCtx (config o 0).opts fs false) N path request) = some x) :
    ∃ i, i.path = x ∧ Yields (fun _ => config o 0) ser fs rid path request (.ok (.info i)) := by
  obtain ⟨i, h, hi⟩ := pathOf_some h
  exact ⟨i, hi, yields_of_pure hs (rid := rid) (N := N) h⟩

/-! ## C27 -/

/-- C27: with `browser_field` off, a call on a file system with other `browser` fields ends alike,
after any history. (With two matching entries in the
`paths` of a tsconfig: it may end like this, depending on hash seeds.) Missing: `browser`
maps with the value `true` (`C27_panic_violated`), and `browser` as a main field
(`C27_main_violated`). -/
theorem C27_off_partial {fs' : Fs} (hs : Static cfg ser fs) (hs' : Static cfg ser fs')
    (h : BrowserOnly fs fs') (hb : (cfg rid).opts.browserField = false)
    (hm : cs!"browser" ∉ (cfg rid).opts.mainFields) {l l' : List Event} (hl : ∀ e ∈ l, e.calm)
    (hl' : ∀ e ∈ l', e.calm) {t : Task} (ht : t ∈ ((Sys.init fs).after cfg ser l).tasks)
    (hr : t.rid = rid) (hc : t.call.abs) {o : Outcome Answer} (ho : t.prog.outcome = some o) :
    (∃ seeds, o.Like Answer.Sim
      ((t.call.prog ((cfg rid).env ser fs') t.fuel).run (World.init seeds)).1) ∧
    (TsClear (cfg rid).opts fs' t.call → ∀ t' ∈ ((Sys.init fs').after cfg ser l').tasks, t'.rid = rid →
      t'.call = t.call → t'.fuel = t.fuel → ∀ o', t'.prog.outcome = some o' →
      o.Like Answer.Sim o') := by
  subst hr
  obtain ⟨x, h1, h2⟩ := static_ends hs hl ht ho
  obtain ⟨y, h3, h4⟩ := (browserOff_call (cfg := cfg t.rid) hs.lawful hs'.lawful h hb hm
    (hs.tsconfig t.rid) hc t.fuel).ends_any h1
  have h5 : o.Like Answer.Sim y := by
    cases x with
    | done x =>
      cases o with
      | crashed c => exact (h2 : False).elim
      | done o =>
        cases y with
        | crashed c => exact (h4 : False).elim
        | done y => exact Answer.Sim.trans h2 h4
    | crashed c =>
      cases o with
      | done o => exact (h2 : False).elim
      | crashed c' =>
        cases y with
        | done y => exact (h4 : False).elim
        | crashed c'' => exact Eq.trans (h2 : c' = c) h4
  constructor
  · obtain ⟨seeds, h⟩ := (call_rel hs' t.rid hc t.fuel).run_exists
      (w := World.init fun _ => 0) (fun d _ => faithW_init fs' d ser _) h3
    exact ⟨seeds, Answer.like_join h5 h⟩
  · intro hts t' ht' hr' hc' hf' o' ho'
    obtain ⟨z, h6, h7⟩ := static_ends hs' hl' ht' ho'
    obtain ⟨u, hu⟩ := call_sure hs' t.rid hts t.fuel
    rw [hr', hc', hf'] at h6
    rw [hu _ h3] at h5
    rw [hu _ h6] at h7
    exact Answer.like_join h5 h7

/-- File contents without `browser` field. -/
def stripDoc (d : Doc) : Doc :=
  ⟨d.json.map (Json.without cs!"browser"), d.jsonc.map (·.map (Json.without cs!"browser"))⟩

/-- `NoTrue` in a form that can be checked. -/
def noTrueDoc (d : Doc) : Bool :=
  match d.json with
  | none => true
  | some j =>
    match j.get cs!"browser" with
    | some (.obj m) => m.all fun kv => kv.2.asBool != some true
    | _ => true

theorem without_without (k : Str) (j : Json) : (j.without k).without k = j.without k := by
  cases j <;> simp [Json.without]

theorem get_without_self (k : Str) (j : Json) : (j.without k).get k = none := by
  cases j with
  | obj l =>
    simp only [Json.without, Json.get]
    induction l with
    | nil => rfl
    | cons kv l ih =>
      by_cases e : kv.1 = k
      · rw [List.filter_cons_of_neg (by simp [e])]; exact ih
      · rw [List.filter_cons_of_pos (by simp [e])]
        obtain ⟨k', v⟩ := kv
        rw [alookup, if_neg e]; exact ih
  | _ => rfl

/-- A tree and the same tree without `browser` fields. -/
theorem browserOnly_strip {t : Tree} (h : t.allDoc noTrueDoc = true) :
    BrowserOnly (treeFs t []) (treeFs (t.mapDoc stripDoc) []) := by
  rw [treeFs_mapDoc]
  refine ⟨rfl, rfl, rfl, rfl, fun _ => rfl, fun p => ?_, fun p doc doc' hr hr' => ?_⟩
  · show ((treeFs t []).read p).isSome = (((treeFs t []).read p).map stripDoc).isSome
    cases (treeFs t []).read p <;> rfl
  · have hr' : ((treeFs t []).read p).map stripDoc = some doc' := hr'
    rw [hr] at hr'
    cases hr'
    refine ⟨?_, ?_, fun j hj m k hm hk => ?_, fun j hj m k hm hk => ?_⟩
    · simp [stripDoc, Function.comp_def, without_without]
    · cases hd : doc.jsonc with
      | error e => simp [stripDoc, hd, Except.map]
      | ok o => simp [stripDoc, hd, Except.map, Function.comp_def, without_without]
    · have := allDoc_read h hr
      simp only [noTrueDoc, hj, hm, List.all_eq_true] at this
      exact absurd (this _ hk) (by simp [Json.asBool])
    · simp only [stripDoc, Option.map_eq_some_iff] at hj
      obtain ⟨j', -, rfl⟩ := hj
      rw [get_without_self] at hm
      cases hm

/-- `/p` with a `browser` map that redirects. -/
def treeOff : Tree :=
  .dir [(cs!"p", .dir [
    (cs!"package.json", jsonFile (.obj [(cs!"main", .str cs!"./b.js"),
      (cs!"browser", .obj [(cs!"./a.js", .str cs!"./b.js")])])),
    (cs!"a.js", textFile), (cs!"b.js", textFile)])]

example : Static (fun _ => config optsA 0) serJson (treeFs treeOff []) ∧
    Static (fun _ => config optsA 0) serJson (treeFs (treeOff.mapDoc stripDoc) []) ∧
    BrowserOnly (treeFs treeOff []) (treeFs (treeOff.mapDoc stripDoc) []) ∧
    optsA.browserField = false ∧ cs!"browser" ∉ optsA.mainFields :=
  ⟨static_tree rfl rfl rfl (by decide +kernel), static_tree rfl rfl rfl (by decide +kernel),
    browserOnly_strip (by decide +kernel), rfl, by decide⟩

/-- It is not that nothing depends on the `browser` field: it does when it is switched on. -/
example : (resolve (treeEnv { optsA with browserField := true } treeOff) 9 cs!"/p" cs!"./a.js").freshInfo =
      some ⟨cs!"/p/b.js", Request.empty⟩ ∧
    (resolve (treeEnv optsA treeOff) 9 cs!"/p" cs!"./a.js").freshInfo =
      some ⟨cs!"/p/a.js", Request.empty⟩ := by decide +kernel

/-- `/p` with a `browser` map that has the value `true`. -/
def treeTrue : Tree :=
  .dir [(cs!"p", .dir [
    (cs!"package.json", jsonFile (.obj [(cs!"browser", .obj [(cs!"./x.js", .bool true)])])),
    (cs!"a.js", textFile)])]

/-- The site at which a call panics. -/
def panicOf {α : Type} (p : Prog α) : Option Site :=
  match p with
  | .crash (.panic s) => some s
  | _ => none

theorem panicOf_some {α : Type} {p : Prog α} {s : Site} (h : panicOf p = some s) : p = .panic s := by
  unfold panicOf at h
  split at h
  · cases h; rfl
  · cases h

theorem panics_site {o : Opts} (hs : Static (fun _ => config o 0) ser fs) {N : Nat} {s : Site}
    (h : panicOf (resolveCtx (pureCtx (config o 0).opts fs false) N path request) = some s) :
    Panics (fun _ => config o 0) ser fs rid path request s :=
  panics_of_pure hs (rid := rid) (N := N) (panicOf_some h)

/-- C27 does not hold in general: a `browser` map with the value `true` makes calls panic, also when
`browser_field` is off. -/
theorem C27_panic_violated : optsA.browserField = false ∧
    Panics (fun _ => config optsA 0) serJson (treeFs treeTrue []) 0 cs!"/p" cs!"./a.js" .browserTrue ∧
    ∃ i, i.path = cs!"/p/a.js" ∧ Yields (fun _ => config optsA 0) serJson
      (treeFs (treeTrue.mapDoc stripDoc) []) 0 cs!"/p" cs!"./a.js" (.ok (.info i)) :=
  ⟨rfl, panics_site (static_tree (t := treeTrue) (o := optsA) rfl rfl rfl (by decide +kernel)) (N := 9)
      (by decide +kernel),
    yields_path (static_tree (t := treeTrue.mapDoc stripDoc) (o := optsA) rfl rfl rfl (by decide +kernel))
      (N := 9) (by decide +kernel)⟩

/-- `browser` can be listed as a main field. -/
def treeMainB : Tree :=
  .dir [(cs!"p", .dir [
    (cs!"package.json", jsonFile (.obj [(cs!"browser", .str cs!"./b.js")])),
    (cs!"index.js", textFile), (cs!"b.js", textFile)])]

def optsMainB : Opts := { optsA with mainFields := [cs!"browser"] }

/-- C27 does not hold in general: the `browser` field counts if it is listed as a main field. -/
theorem C27_main_violated : optsMainB.browserField = false ∧
    (∃ i, i.path = cs!"/p/b.js" ∧ Yields (fun _ => config optsMainB 0) serJson
      (treeFs treeMainB []) 0 cs!"/" cs!"./p" (.ok (.info i))) ∧
    ∃ i, i.path = cs!"/p/index.js" ∧ Yields (fun _ => config optsMainB 0) serJson
      (treeFs (treeMainB.mapDoc stripDoc) []) 0 cs!"/" cs!"./p" (.ok (.info i)) :=
  ⟨rfl, yields_path (static_tree (t := treeMainB) (o := optsMainB) rfl rfl rfl (by decide +kernel))
      (N := 9) (by decide +kernel),
    yields_path (static_tree (t := treeMainB.mapDoc stripDoc) (o := optsMainB) rfl rfl rfl
      (by decide +kernel)) (N := 9) (by decide +kernel)⟩

/-! ## C28 -/

/-- C28: an entry that leads to `false` makes the answer `Ignored`, for bare requests and paths.
Missing: for a bare request the package below `node_modules` is asked and not the one that the request
comes from (`C28_bare_violated`); maps in which two keys cover the same path (part of `Static`). -/
theorem C28_ignored_partial (hs : Static cfg ser fs) {pkg : Pkg}
    (h : Redirected (cfg rid).opts fs path request pkg .ignored) :
    Yields cfg ser fs rid path request (.ok .ignored) := by
  obtain ⟨k, v, hk, he, hc⟩ := h.entry
  obtain ⟨N, hN⟩ := browser_stages hs h.abs h.browser h.plain h.noHash h.loads h.unique hk he hc
  refine yields_of_pure hs (N := N + 1) ?_
  rw [hN N (Nat.le_refl _)]
  rfl

/-- The other end of a chain: what is found at the path that the replacement names, seen from the
package: a file, what a directory resolves to, or nothing. -/
theorem C28_replaced (hs : Static cfg ser fs) {pkg : Pkg} {t : Str} {r : Loc}
    (h : Redirected (cfg rid).opts fs path request pkg (.target t)) (ht : IsPath t)
    (hf : AtPath (cfg rid).opts fs (Loads (cfg rid).opts fs) (targetPath pkg.absDir t) r) :
    HitYields cfg ser fs rid path request
      (r.hit (parseRequest request).query (parseRequest request).fragment) := by
  obtain ⟨k, v, hk, he, hc⟩ := h.entry
  obtain ⟨N, hN⟩ := browser_stages hs h.abs h.browser h.plain h.noHash h.loads h.unique hk he hc
  have hpk : isAbs pkg.absDir = true := loads_abs h.loads (pkgPath_abs h.abs)
  obtain ⟨M, hM⟩ := atPath_run (sound_pure hs rid) (targetPath_abs hpk) hf
  refine loc_yields hs (i := ⟨pkg.absDir, (parseRequest request).withTarget t⟩) rfl rfl
    (N := N + M + 1) hf ?_
  rw [hN (N + M) (by omega)]
  simp only [replaced, Prog.ret_bind, Stats.andThen_resolving]
  rw [lastStage_path (c := pureCtx (cfg rid).opts fs false) rfl (show IsPath t from ht),
    hM (N + M) (by omega) ⟨pkg.absDir, (parseRequest request).withTarget t⟩ rfl]
  rfl

/-- `/p` with a `browser` map of three entries. -/
def treeBr : Tree :=
  .dir [(cs!"p", .dir [
    (cs!"package.json", jsonFile (.obj [(cs!"browser", .obj [
      (cs!"./a.js", .str cs!"./b.js"), (cs!"./b.js", .bool false), (cs!"m", .bool false),
      (cs!"./c.js", .str cs!"./d.js")])])),
    (cs!"a.js", textFile), (cs!"b.js", textFile), (cs!"c.js", textFile), (cs!"d.js", textFile)])]

def optsBr : Opts := { optsA with browserField := true, extensions := [] }

/-- `browser` maps in which no two keys name the same path, in a form that can be checked. -/
def docBr (d : Doc) : Bool :=
  match d.json with
  | none => true
  | some j => (j.get cs!"imports").isNone &&
    match browserFields j with
    | none => true
    | some fields => fields.all fun kv => !isAbs kv.1 &&
        (match kv.2 with
          | .ignored => true
          | .target t => t ≠ [] && t ≠ cs!".") &&
        fields.all fun kv' => decide (kv.1 = kv'.1) || decide (body (comps kv.1) ≠ body (comps kv'.1))

theorem static_browser {t : Tree} {o : Opts} (ht : t.isDir = true) (hts : o.tsconfig = none)
    (hx : o.extensions = []) (hi : t.allDoc docBr = true) :
    Static (fun _ => config o 0) serJson (treeFs t []) where
  lawful := treeFs_lawful [] ht
  debug _ := rfl
  inj _ _ := serJson_inj
  mix v t' _ h _ := by
    obtain ⟨p, doc, json, hr, hj, hv⟩ := h
    have := allDoc_read hi hr
    simp only [docBr, hj, hv] at this
    cases this
  desc rid rid' d d' _ h h' := by rw [h] at h'; exact Option.some.inj h'
  browser rid desc h _ d doc json fields hd hr hj hf := by
    have h1 := allDoc_read hi hr
    unfold docBr at h1
    simp only [hj, hf, Bool.and_eq_true, List.all_eq_true] at h1
    have hne : d ≠ [] := by rintro rfl; cases hd
    constructor
    · intro x k v k' v' _ hm hm' hc hc'
      have hrel := (h1.2 _ hm).1.1
      have hrel' := (h1.2 _ hm').1.1
      have hdis := (h1.2 _ hm).2 _ hm'
      simp only [Bool.not_eq_true', Bool.or_eq_true, decide_eq_true_eq] at hrel hrel' hdis
      rcases hdis with hdis | hdis
      · exact hdis
      · exfalso
        have e : ∀ k, Covers (config o 0).opts.extensions d k x → comps (pjoin d k) = comps x := by
          intro k hk
          rcases hk with hk | ⟨ext, hk, -⟩
          · exact hk
          · rw [show (config o 0).opts.extensions = [] from hx] at hk
            cases hk
        have := (e _ hc).trans (e _ hc').symm
        rw [comps_pjoin hne hrel, comps_pjoin hne hrel'] at this
        exact hdis (List.append_cancel_left this)
    · intro k t hm
      have := (h1.2 _ hm).1.2
      simpa using this
  tsconfig rid l h := by cases hts.symm.trans h

theorem static_br : Static (fun _ => config optsBr 0) serJson (treeFs treeBr []) :=
  static_browser rfl rfl rfl (by decide +kernel)

/-- A chain of two: `./a.js` is `./b.js`, which is ignored. -/
example : ∃ pkg, Redirected optsBr (treeFs treeBr []) cs!"/p" cs!"./a.js" pkg .ignored := by
  refine ⟨_, ⟨rfl, rfl, ⟨rfl, .inr nofun, .inl rfl⟩, by decide, loads_get (by decide +kernel), ?_,
    cs!"./a.js", .target cs!"./b.js", ?_, .target rfl (.head _),
    .next (.ignored rfl (.tail _ (.head _))) .ignored⟩⟩
  · intro m hm
    cases hm
    unfold UniqueKeys
    decide
  · exact .inl (by decide +kernel)

/-- A bare request. -/
example : ∃ pkg, Redirected optsBr (treeFs treeBr []) cs!"/p" cs!"m" pkg .ignored := by
  refine ⟨_, ⟨rfl, rfl, ⟨rfl, .inr nofun, .inl rfl⟩, by decide, loads_get (by decide +kernel), ?_,
    cs!"m", .ignored, rfl, .ignored rfl (.tail _ (.tail _ (.head _))), .ignored⟩⟩
  intro m hm
  cases hm
  unfold UniqueKeys
  decide

/-- A replacement. -/
example : ∃ pkg, Redirected optsBr (treeFs treeBr []) cs!"/p" cs!"./c.js?q" pkg (.target cs!"./d.js") ∧
    IsPath cs!"./d.js" ∧ AtPath optsBr (treeFs treeBr []) (Loads optsBr (treeFs treeBr []))
      (targetPath pkg.absDir cs!"./d.js") (.got (.file cs!"/p/./d.js")) := by
  refine ⟨_, ⟨rfl, rfl, ⟨rfl, .inr nofun, .inl rfl⟩, by decide, loads_get (by decide +kernel), ?_,
    cs!"./c.js", .target cs!"./d.js", ?_, .target rfl (.tail _ (.tail _ (.tail _ (.head _)))),
    .stop ?_⟩, .inl (by decide), .file ⟨[], [], by decide +kernel, by decide +kernel, by simp⟩⟩
  · intro m hm
    cases hm
    unfold UniqueKeys
    decide
  · exact .inl (by decide +kernel)
  · intro v hv
    cases hv with
    | ignored h hm => cases h; revert hm; simp
    | target h hm => cases h; revert hm; simp

/-- `/p` says that `m` is ignored; `m` is a package with a description file. -/
def treeOwn : Tree :=
  .dir [(cs!"p", .dir [
    (cs!"package.json", jsonFile (.obj [(cs!"browser", .obj [(cs!"m", .bool false)])])),
    (cs!"node_modules", .dir [(cs!"m", .dir [
      (cs!"package.json", jsonFile (.obj [(cs!"name", .str cs!"m")])),
      (cs!"index.js", textFile)])])])]

def optsOwn : Opts := { optsBr with mainFiles := [cs!"index.js"] }

/-- C28 does not hold for bare requests: the `browser` map of the package from which the request comes
is not asked if the package requested has a description file. -/
theorem C28_bare_violated :
    (∃ pkg, Loads optsOwn (treeFs treeOwn []) cs!"/p" (.ok (some pkg)) ∧
      BrowserEntry pkg.raw cs!"m" .ignored) ∧
    ∃ i, i.path = cs!"/p/node_modules/m/index.js" ∧
      Yields (fun _ => config optsOwn 0) serJson (treeFs treeOwn []) 0 cs!"/p" cs!"m"
        (.ok (.info i)) := by
  refine ⟨⟨_, loads_get (by decide +kernel), .ignored rfl (.head _)⟩, ?_⟩
  exact yields_path (static_browser (t := treeOwn) (o := optsOwn) rfl rfl rfl (by decide +kernel)) (N := 9)
    (by decide +kernel)

/-! ## C13, C25, C30, C31 with `browser` maps -/

/-- `/` maps `./d/index.js` to `./gone.js`, which does not exist. -/
def treeDrift : Tree :=
  .dir [(cs!"package.json", jsonFile (.obj [(cs!"browser", .obj [(cs!"./d/index.js", .str cs!"./gone.js")])])),
    (cs!"main.js", textFile), (cs!"d", .dir [(cs!"index.js", textFile), (cs!"main.js", textFile)])]

def optsMains : Opts := { optsBr with mainFiles := [cs!"index.js", cs!"main.js"] }

/-- C31 does not hold in general: after a main file that the `browser` map of another directory's package
replaces by something that is not there, the next main file is looked for in that other directory. -/
theorem C31_browser_violated :
    (treeFs treeDrift []).isFile cs!"/d/main.js" = true ∧
    ∃ i, i.path = cs!"/main.js" ∧
      Yields (fun _ => config optsMains 0) serJson (treeFs treeDrift []) 0 cs!"/" cs!"./d" (.ok (.info i)) :=
  ⟨by decide +kernel, yields_path (static_browser (t := treeDrift) (o := optsMains) rfl rfl rfl
    (by decide +kernel)) (N := 9) (by decide +kernel)⟩

/-- `/p`: the main field is replaced by a directory, whose first main file is replaced by something that
is not there. `m` exports a file that is replaced. -/
def treeMaps : Tree :=
  .dir [(cs!"p", .dir [
    (cs!"package.json", jsonFile (.obj [(cs!"main", .str cs!"./a.js"),
      (cs!"browser", .obj [(cs!"./a.js", .str cs!"./w")])])),
    (cs!"a.js", textFile),
    (cs!"w", .dir [
      (cs!"package.json", jsonFile (.obj [(cs!"browser", .obj [(cs!"./index.js", .str cs!"./gone.js")])])),
      (cs!"index.js", textFile), (cs!"main.js", textFile)]),
    (cs!"node_modules", .dir [(cs!"m", .dir [
      (cs!"package.json", jsonFile (.obj [(cs!"exports", .obj [(cs!".", .str cs!"./in.js")]),
        (cs!"browser", .obj [(cs!"./in.js", .str cs!"./out.js")])])),
      (cs!"in.js", textFile), (cs!"out.js", textFile)])])])]

/-- A package that is found, as it was read. -/
theorem loads_pkg {o : Opts} {fs : Fs} {p : Str} (h : (pkgAt o fs p).isSome = true) :
    ∃ pkg, pkgAt o fs p = some pkg ∧ Loads o fs p (.ok (some pkg)) :=
  ⟨_, (Option.some_get h).symm, loads_get h⟩

/-- Something about a package that can be computed. -/
theorem at_ {o : Opts} {fs : Fs} {p : Str} {β : Type} {f : Pkg → β} {b : β} {pkg : Pkg}
    (hd : (pkgAt o fs p).map f = some b) (h : pkgAt o fs p = some pkg) : f pkg = b := by
  rw [h] at hd
  exact Option.some.inj hd

/-- `NotCovered`, in a form that can be checked. -/
theorem notCovered_of {o : Opts} {fs : Fs} {p x : Str} {pkg : Pkg} (hx : o.extensions = [])
    (h : pkgAt o fs p = some pkg) (hc : ((pkgAt o fs p).all fun p =>
      p.aliasFields.all fun kv => decide (comps (pjoin p.absDir kv.1) ≠ comps x)) = true) :
    NotCovered o (some pkg) x := by
  rintro - p kv ⟨⟩ hkv
  rw [h] at hc
  simp only [Option.all_some, List.all_eq_true, decide_eq_true_eq] at hc
  rintro (h1 | ⟨ext, h1, -⟩)
  · exact hc _ hkv h1
  · rw [hx] at h1
    cases h1

/-- `NotKeyed`, in a form that can be checked. -/
theorem notKeyed_of {o : Opts} {fs : Fs} {p x : Str} {pkg : Pkg} (h : pkgAt o fs p = some pkg)
    (hc : ((pkgAt o fs p).all fun p => p.aliasFields.all fun kv => decide (kv.1 ≠ x)) = true) :
    NotKeyed o (some pkg) x := by
  rintro - p kv ⟨⟩ hkv
  rw [h] at hc
  simp only [Option.all_some, List.all_eq_true, decide_eq_true_eq] at hc
  exact hc _ hkv

/-- The `browser` map of a package. -/
theorem raw_browser {o : Opts} {fs : Fs} {p : Str} {l : List (Str × Json)} {pkg : Pkg}
    (h : pkgAt o fs p = some pkg)
    (hl : ((pkgAt o fs p).bind fun p => (p.raw.get cs!"browser").map serJson) = some (serJson (.obj l))) :
    pkg.raw.get cs!"browser" = some (.obj l) := by
  rw [h, Option.bind_some] at hl
  obtain ⟨j, h1, h2⟩ := Option.map_eq_some_iff.1 hl
  rw [h1, serJson_inj h2]

/-- A replacement, in a form that can be checked. -/
theorem replaced_of {o : Opts} {pkg : Pkg} {x d k t : Str} {l : List (Str × Json)} (hb : o.browserField = true)
    (hr : pkg.raw.get cs!"browser" = some (.obj l)) (hd : pkg.absDir = d) (hu : UniqueKeys l)
    (hm : (k, Json.str t) ∈ l) (hs : ∀ v, (t, v) ∉ l) (hc : Covers o.extensions d k x) :
    Replaced o pkg x (.target t) := by
  refine ⟨hb, fun m h => ?_, k, .target t, .target hr hm, hd ▸ hc, .stop fun v hv => ?_⟩
  · rw [hr] at h
    cases h
    exact hu
  · cases hv with
    | ignored h hm => rw [hr] at h; cases h; exact hs _ hm
    | target h hm => rw [hr] at h; cases h; exact hs _ hm

example : Static (fun _ => config optsMains 0) serJson (treeFs treeMaps []) :=
  static_browser rfl rfl rfl (by decide +kernel)

-- C30 and C31: `./a.js` is replaced by the directory `./w`, where `index.js` is replaced by nothing
example : ∃ pkg, DirRequest optsMains (treeFs treeMaps []) cs!"/" cs!"./p" cs!"/./p" (some pkg) ∧
    comps cs!"/./p" = comps pkg.absDir ∧ mainValues optsMains pkg = [] ++ cs!"./a.js" :: [] ∧
    LeadsTo optsMains (treeFs treeMaps []) pkg cs!"/./p" cs!"./a.js" (.file cs!"/./p/./w/./main.js") := by
  obtain ⟨pkg, h, hl⟩ := loads_pkg (o := optsMains) (fs := treeFs treeMaps []) (p := cs!"/./p")
    (by decide +kernel)
  obtain ⟨w, hw, hlw⟩ := loads_pkg (o := optsMains) (fs := treeFs treeMaps []) (p := cs!"/./p/./w")
    (by decide +kernel)
  have hd := at_ (f := Pkg.absDir) (b := cs!"/./p") (by decide +kernel) h
  have hdw := at_ (f := Pkg.absDir) (b := cs!"/./p/./w") (by decide +kernel) hw
  have hr := raw_browser (l := [(cs!"./a.js", .str cs!"./w")]) h (by decide +kernel)
  have hrw := raw_browser (l := [(cs!"./index.js", .str cs!"./gone.js")]) hw (by decide +kernel)
  refine ⟨pkg, ⟨⟨rfl, .inr nofun, .inl rfl⟩, rfl, .inl (by decide), by decide, by decide +kernel,
    by decide +kernel, hl, notCovered_of rfl h (by decide +kernel)⟩, by rw [hd],
    at_ (f := mainValues optsMains) (by decide +kernel) h, .found (.instead rfl (replaced_of rfl hr hd (by unfold UniqueKeys; decide)
      (.head _) (by simp) (.inl (by decide)))) ?_⟩
  rw [hd]
  refine .dir (by decide +kernel) (by decide +kernel) (.noField hlw (by rw [hdw]; rfl) ?_ ?_)
  · rw [at_ (f := mainValues optsMains) (b := []) (by decide +kernel) hw]
    exact .nil
  · refine .gone rfl (replaced_of rfl hrw hdw (by unfold UniqueKeys; decide) (.head _) (by simp)
      (.inl (by decide))) ?_ (.inr (by rw [hdw]; rfl)) (.file (.keep (notCovered_of rfl hw (by decide +kernel)))
        ⟨[], [], rfl, by decide +kernel, nofun⟩)
    rw [hdw]; decide +kernel

-- C25: what `m` exports is replaced
example : Bare optsMains cs!"/p" cs!"m" cs!"m" [] ([] ++ cs!"/p" :: [cs!"/"]) ∧
    FirstLoad optsMains (treeFs treeMaps []) cs!"/p" cs!"m" ∧
    ∃ pkg, Exporting optsMains (treeFs treeMaps []) cs!"/p" cs!"m" [] pkg [(cs!".", .direct cs!"./in.js")] ∧
      Usable (treeFs treeMaps []) pkg.absDir cs!"./in.js" ∧
      Swap optsMains (some pkg) (exportPath pkg.absDir cs!"./in.js") (some cs!"/p/node_modules/m/./out.js") ∧
      AtPath optsMains (treeFs treeMaps []) (Loads optsMains (treeFs treeMaps [])) cs!"/p/node_modules/m/./out.js"
        (.got (.file cs!"/p/node_modules/m/./out.js")) := by
  obtain ⟨pkg, h, hl⟩ := loads_pkg (o := optsMains) (fs := treeFs treeMaps []) (p := cs!"/p/node_modules/m")
    (by decide +kernel)
  have hd := at_ (f := Pkg.absDir) (b := cs!"/p/node_modules/m") (by decide +kernel) h
  have hr := raw_browser (l := [(cs!"./in.js", .str cs!"./out.js")]) h (by decide +kernel)
  refine ⟨?_, ⟨some pkg, hl, notKeyed_of h (by decide +kernel)⟩, pkg, ⟨by decide +kernel, .inl (by decide +kernel), hl,
    .inl ?_, ?_⟩, ⟨?_, ?_⟩, ?_, .file ⟨[], [], rfl, by decide +kernel, nofun⟩⟩
  · exact ⟨⟨rfl, .inr nofun, .inl rfl⟩, rfl, by decide, by decide, by unfold AsciiStr; decide,
      .plain (rest := []) (by decide) (by decide) (.inl rfl), by decide, .up (by decide) (.top (by decide))⟩
  · rw [hd]; exact ⟨cs!"/p/", cs!"/m", rfl⟩
  · have h1 : ((pkgAt optsMains (treeFs treeMaps []) cs!"/p/node_modules/m").bind fun p =>
        (p.raw.get cs!"exports").map serJson) = some (serJson (.obj [(cs!".", .str cs!"./in.js")])) := by
      decide +kernel
    rw [h, Option.bind_some] at h1
    obtain ⟨j, h1, h2⟩ := Option.map_eq_some_iff.1 h1
    refine ⟨j, .cond [(cs!".", .direct cs!"./in.js")], h1, ?_, .paths (by decide) ?_⟩
    · rw [serJson_inj h2]; rfl
    · intro kv hkv
      rw [List.mem_singleton] at hkv
      subst hkv
      exact .inl rfl
  · rw [hd]; decide +kernel
  · exact (contained_iff _).1 (by decide +kernel)
  · have := Swap.instead (o := optsMains) (x := exportPath pkg.absDir cs!"./in.js") rfl (replaced_of rfl hr hd
      (by unfold UniqueKeys; decide) (.head _) (by simp) (.inl (by rw [hd]; decide)))
    rw [hd] at this ⊢
    exact this

/-! ## C29 -/

/-- A package whose `browser` entries are kept in some order. -/
def Pkg.order (pkg : Pkg) (l : List (Str × AliasMap)) : Pkg := { pkg with aliasFields := l }

/-- C29 for bare requests: the order in which the entries are kept does not matter. -/
theorem C29_bare (c : Ctx) (n : Nat) (pkg : Pkg) (info : Info) {fields l m : List (Str × AliasMap)}
    (hf : browserFields pkg.raw = some fields) (hl : l.Perm fields) (hm : m.Perm fields)
    (hk : info.request.kind = .normal) :
    aliasFieldPlugin c n (some (pkg.order l)) info =
      aliasFieldPlugin c n (some (pkg.order m)) info := by
  have hn := browserFields_keys hf
  have hm' : (m.map (·.1)).Nodup := (hm.map _).nodup_iff.2 hn
  have hlm := hl.trans hm.symm
  have e1 : ∀ k, aliasMatches c (pkg.order l) info k = decide (info.request.target = k) := by
    intro k; unfold aliasMatches; rw [if_pos hk]
  have e2 : ∀ k, aliasMatches c (pkg.order m) info k = decide (info.request.target = k) := by
    intro k; unfold aliasMatches; rw [if_pos hk]
  have hfind : l.find? (fun kv => aliasMatches c (pkg.order l) info kv.1) =
      m.find? (fun kv => aliasMatches c (pkg.order m) info kv.1) := by
    refine find_perm hlm (fun x _ => by rw [e1, e2]) ?_
    intro x hx y hy h1 h2
    simp only [e2, decide_eq_true_eq] at h1 h2
    obtain ⟨k, v⟩ := x
    obtain ⟨k', v'⟩ := y
    simp only at h1 h2
    subst h1
    subst h2
    have a := alookup_of_mem hm' hx
    rw [alookup_of_mem hm' hy] at a
    cases a
    rfl
  unfold aliasFieldPlugin
  simp only [show (pkg.order l).aliasFields = l from rfl, show (pkg.order m).aliasFields = m from rfl,
    hfind, aliasChain_perm hlm hm']
  rfl

/-- C29 for paths: what is chosen, said without an order. Missing: two keys that cover the same path
(`C29_order_violated`). -/
theorem C29_chosen_partial (c : Ctx) (pkg : Pkg) (info : Info) {fields : List (Str × AliasMap)}
    {k : Str} {v w : AliasMap} (hb : c.opts.browserField = true)
    (hf : browserFields pkg.raw = some fields)
    (hu : ∀ m, pkg.raw.get cs!"browser" = some (.obj m) → UniqueKeys m)
    (hkind : info.request.kind = getTargetKind info.request.target)
    (hk : KeyFits c.opts pkg.absDir info.path info.request.target k)
    (honly : ∀ k' v', BrowserEntry pkg.raw k' v' →
      KeyFits c.opts pkg.absDir info.path info.request.target k' → k' = k)
    (he : BrowserEntry pkg.raw k v) (hc : ChainEnd pkg.raw v w) :
    ∃ N, ∀ n, N ≤ n → ∀ l, l.Perm fields → aliasFieldPlugin c n (some (pkg.order l)) info =
      .ret (match w with
        | .ignored => .success .ignored
        | .target t => .resolving ⟨pkg.absDir, info.request.withTarget t⟩) := by
  obtain ⟨N, hN⟩ := aliasChain_end hf hu hc
  refine ⟨N, fun n hn l hl => ?_⟩
  obtain ⟨M, hM⟩ := aliasField_chosen (c := c) (pkg := pkg.order l) hb hf hl hu hkind hk honly he hc
  have h1 := hM (M + N) (by omega)
  have hnd := browserFields_keys hf
  unfold aliasFieldPlugin at h1 ⊢
  simp only [hb, Bool.not_true, Bool.false_eq_true, if_false,
    show (pkg.order l).aliasFields = l from rfl] at h1 ⊢
  have hmem : (k, v) ∈ l := hl.mem_iff.2 (mem_of_alookup ((browserFields_entry hf hu k v).2 he))
  have hfits : aliasMatches c (pkg.order l) info k = true := (aliasMatches_fits hkind).2 hk
  cases hx : l.find? (fun kv => aliasMatches c (pkg.order l) info kv.1) with
  | none =>
    rw [List.find?_eq_none] at hx
    exact absurd hfits (hx _ hmem)
  | some kv =>
    obtain ⟨k', v'⟩ := kv
    have h2 := List.find?_some hx
    have h3 := List.mem_of_find?_eq_some hx
    have h4 : k' = k := honly k' v'
      ((browserFields_entry hf hu k' v').1 (alookup_of_mem hnd (hl.mem_iff.1 h3)))
      ((aliasMatches_fits hkind).1 h2)
    subst h4
    have h5 := alookup_of_mem hnd (hl.mem_iff.1 h3)
    rw [alookup_of_mem hnd (hl.mem_iff.1 hmem)] at h5
    cases h5
    simp only [aliasChain_perm hl hnd, hN n hn]
    cases w <;> rfl

/-- C29: and if no key fits, nothing is replaced, whatever the order. -/
theorem C29_unchanged (c : Ctx) (n : Nat) (pkg : Pkg) (info : Info) {fields l : List (Str × AliasMap)}
    (hf : browserFields pkg.raw = some fields) (hl : l.Perm fields)
    (hu : ∀ m, pkg.raw.get cs!"browser" = some (.obj m) → UniqueKeys m)
    (hkind : info.request.kind = getTargetKind info.request.target)
    (hno : ∀ k v, BrowserEntry pkg.raw k v →
      ¬ KeyFits c.opts pkg.absDir info.path info.request.target k) :
    aliasFieldPlugin c n (some (pkg.order l)) info = .ret (.resolving info) :=
  aliasField_unchanged (pkg := pkg.order l) hf hl hu hkind hno

/-- The path to which the plugin sends a request. -/
def sentTo (p : Prog Stats) : Option Str :=
  match p with
  | .ret (.resolving i) => some i.getPath
  | _ => none

/-- C29 does not hold for paths in general: with `./a` and `./a.js` in the map, the order decides. -/
theorem C29_order_violated :
    let c := pureCtx { optsA with browserField := true } (treeFs treeOrder []) false
    let info : Info := ⟨cs!"/p", parseRequest cs!"./a"⟩
    ∃ (pkg : Pkg) (fields l m : List (Str × AliasMap)), browserFields pkg.raw = some fields ∧ l.Perm fields ∧ m.Perm fields ∧
      sentTo (aliasFieldPlugin c 9 (some (pkg.order l)) info) = some cs!"/p/./x.js" ∧
      sentTo (aliasFieldPlugin c 9 (some (pkg.order m)) info) = some cs!"/p/./y.js" := by
  refine ⟨(pkgAt optsA (treeFs treeOrder []) cs!"/p").get (by decide +kernel),
    [(cs!"./a", .target cs!"./x.js"), (cs!"./a.js", .target cs!"./y.js")],
    [(cs!"./a", .target cs!"./x.js"), (cs!"./a.js", .target cs!"./y.js")],
    [(cs!"./a.js", .target cs!"./y.js"), (cs!"./a", .target cs!"./x.js")],
    by rfl, .refl _, .swap .., by decide +kernel, by decide +kernel⟩

theorem br_isSome : (pkgAt optsBr (treeFs treeBr []) cs!"/p").isSome = true := by decide +kernel

/-- The hypotheses of `C29_chosen_partial`, for a chain. -/
example : ∃ pkg : Pkg, ∃ fields, browserFields pkg.raw = some fields ∧
    KeyFits optsBr pkg.absDir cs!"/p" cs!"./a.js" cs!"./a.js" ∧
    (∀ k' v', BrowserEntry pkg.raw k' v' → KeyFits optsBr pkg.absDir cs!"/p" cs!"./a.js" k' →
      k' = cs!"./a.js") ∧
    BrowserEntry pkg.raw cs!"./a.js" (.target cs!"./b.js") ∧
    ChainEnd pkg.raw (.target cs!"./b.js") .ignored := by
  refine ⟨(pkgAt optsBr (treeFs treeBr []) cs!"/p").get br_isSome, _,
    (loads_fields (loads_get br_isSome) rfl).1,
    .inl (by decide +kernel), ?_, .target rfl (.head _), .next (.ignored rfl (.tail _ (.head _))) .ignored⟩
  refine onlyKey static_br (rid := 0) rfl rfl rfl (loads_get br_isSome) ?_ (.target rfl (.head _))
    (.inl (by decide +kernel))
  intro m hm
  cases hm
  unfold UniqueKeys
  decide

end Verif
