import Verif.Proofs.Imports
import Verif.Props.Packages
import Verif.Props.Result
/-!
# Properties about `#` requests: C65

As in `Props/Packages.lean` the theorems speak about calls on a system of resolvers after any history on an
unchanging file system; `Spec/Imports.lean` says what is expected.
-/

namespace Verif

variable {cfg : Nat → Config} {ser : Json → Str} {fs : Fs} {rid : Nat} {path request : Str}

/-- A `#` request from a package with the imports `m`. -/
structure Internal (o : Opts) (fs : Fs) (path request : Str) (pkg : Pkg) (m : List (Str × MV)) : Prop where
  plain : Plain o path (parseRequest request).target
  abs : isAbs path = true
  hash : cs!"#" <+: (parseRequest request).target
  loads : Loads o fs (targetPath path (parseRequest request).target) (.ok (some pkg))
  imports : ∃ j, pkg.raw.get cs!"imports" = some j ∧ fromJson j = some (.cond m)
  keys : ∀ kv ∈ m, ImportsKey kv.1

theorem internal_tree {o : Opts} {pkg : Pkg} {m : List (Str × MV)} (h : Internal o fs path request pkg m) :
    ∃ j tree, fromJson j = some (.cond m) ∧ pkg.importsTree = some tree ∧
      buildTree .imports j = some (.ok tree) := by
  obtain ⟨j, h1, h2⟩ := h.imports
  have hp := h.loads
  unfold Loads at hp
  cases ho : o.descriptionFile with
  | none => rw [ho] at hp; cases hp
  | some desc =>
    rw [ho] at hp
    obtain ⟨d, -, -, h3⟩ := findPkg_found (targetPath_abs h.abs) (by rw [hp]; exact .ret _)
    have := (readPkg_trees h3).2
    rw [h1] at this
    obtain ⟨tree, h4, h5⟩ := this
    exact ⟨j, tree, h2, h4, h5⟩

/-- What imports give for any request that they do not refuse. -/
theorem internal_mapped {o : Opts} {pkg : Pkg} {m : List (Str × MV)} (h : Internal o fs path request pkg m)
    {key : Str} (hk : ImportsKey key) (ha : AsciiStars m key) (hs : key.getLast? ≠ some '/') :
    ∃ out, ImportsMapped o pkg key out ∧ Selected .imports o.conditionNames m key out := by
  obtain ⟨j, tree, h2, h4, h5⟩ := internal_tree h
  obtain ⟨req, rfl⟩ : ∃ req, key = cs!"#" ++ req := by
    obtain ⟨req, hreq⟩ := hk.1
    exact ⟨req, hreq.symm⟩
  have hne : req ≠ [] := by rintro rfl; exact hk.2.1 rfl
  have hs' : req.getLast? ≠ some '/' := by
    rw [List.getLast?_append] at hs
    cases hl : req.getLast? with
    | none => nofun
    | some c => rw [hl] at hs; simpa using hs
  obtain ⟨root, out, h6, h7, h8⟩ := C19_imports_partial j m h2 h.keys req hk ha hs' o.conditionNames
  rw [h5] at h6
  cases h6
  exact ⟨out, ⟨tree, h4, h7⟩, h8⟩

/-- C65: a `#` request leads where the first of the targets leads that imports give for it (`ImportsOut`), and
nowhere if they give none. Missing: aliases, `prefer_relative` and tsconfig (`Plain`); `*` keys that match and are
not ASCII; targets that are replaced by a bare one in a `browser` map, and bare targets for which such a map has
an entry; packages without imports, where the request is searched for. -/
theorem C65_first_partial (hs : Static cfg ser fs) {pkg : Pkg} {m : List (Str × MV)}
    (hi : Internal (cfg rid).opts fs path request pkg m)
    (hk : ImportsKey (parseRequest request).target) (ha : AsciiStars m (parseRequest request).target)
    (hslash : (parseRequest request).target.getLast? ≠ some '/') :
    ∃ out, Selected .imports (cfg rid).opts.conditionNames m (parseRequest request).target out ∧
      ∀ h, ImportsOut (cfg rid).opts fs (Loads (cfg rid).opts fs) pkg (parseRequest request).target out h →
        HitYields cfg ser fs rid path request h := by
  obtain ⟨out, h1, h2⟩ := internal_mapped hi hk ha hslash
  exact ⟨out, h2, fun h ho => imports_yields hs hi.plain hi.abs hi.hash hi.loads h1 ho⟩

/-- C65 for a target that is a path: it is used as it is if it names a file and does not lead out of the package,
and is not exported otherwise. The targets after it are not looked at. Missing: as for `C65_first_partial`,
`browser` maps, and enforced extensions. -/
theorem C65_path_partial (hs : Static cfg ser fs) {pkg : Pkg} {m : List (Str × MV)}
    (hi : Internal (cfg rid).opts fs path request pkg m)
    (hk : ImportsKey (parseRequest request).target) (ha : AsciiStars m (parseRequest request).target)
    (hslash : (parseRequest request).target.getLast? ≠ some '/')
    (hb : (cfg rid).opts.browserField = false) (he : (cfg rid).opts.enforceExtension ≠ some true) :
    ∃ out, Selected .imports (cfg rid).opts.conditionNames m (parseRequest request).target out ∧
      ∀ t l, out = .ok (t :: l) → IsPath (parseRequest t).target →
        (Usable fs pkg.absDir t → HitYields cfg ser fs rid path request
          (some (.file (targetPath pkg.absDir (parseRequest t).target) (parseRequest t).query
            (parseRequest t).fragment))) ∧
        (¬ Usable fs pkg.absDir t →
          Yields cfg ser fs rid path request (.error (.notExported (parseRequest request).target))) := by
  obtain ⟨out, h1, h2⟩ := C65_first_partial hs hi hk ha hslash
  refine ⟨out, h1, ?_⟩
  rintro t l rfl hp
  constructor
  · intro hu
    exact h2 _ (.path (r := .got (.file _)) hp hu (fun h => by rw [hb] at h; cases h)
      (.file (fileCandidates_self he hu.1)))
  · intro hu
    exact h2 _ (.unusable hp hu)

/-- C65 for requests that imports refuse: the call fails with an error that says so. Missing: aliases,
`prefer_relative` and tsconfig (`Plain`). -/
theorem C65_refused_partial (hs : Static cfg ser fs) {pkg : Pkg} {m : List (Str × MV)} {e : Err}
    (hi : Internal (cfg rid).opts fs path request pkg m) (hr : Refused (parseRequest request).target e) :
    Yields cfg ser fs rid path request (.error e) := by
  obtain ⟨j, tree, h2, h4, h5⟩ := internal_tree hi
  refine imports_yields (h := some (.fail e)) hs hi.plain hi.abs hi.hash hi.loads (out := .error e)
    ⟨tree, h4, ?_⟩ .error
  have hh := hi.hash
  generalize (parseRequest request).target = t at hh hr
  have hs := (startsWith_iff t cs!"#").2 hh
  unfold fieldProcess assertRequest
  cases hr with
  | empty => rfl
  | slash h =>
    obtain ⟨r, rfl⟩ := h
    have hl : utf8Len (cs!"#/" ++ r) ≠ 1 := by
      rw [utf8Len_append]
      have : utf8Len cs!"#/" = 2 := rfl
      omega
    simp only [hs, Bool.not_true, Bool.false_eq_true, if_false, if_neg hl,
      (startsWith_iff (cs!"#/" ++ r) cs!"#/").2 (List.prefix_append ..), if_true]
  | folder h hl =>
    have h1 : startsWith t cs!"#/" = false := by
      rw [← Bool.not_eq_true, startsWith_iff]; exact h
    have h2 : utf8Len t ≠ 1 := by
      obtain ⟨r, rfl⟩ := hh
      cases r with
      | nil => cases hl
      | cons c r =>
        rw [utf8Len_append]
        have : utf8Len cs!"#" = 1 := rfl
        have : utf8Len (c :: r) ≠ 0 := fun h => List.cons_ne_nil _ _ (utf8Len_eq_zero.1 h)
        omega
    have h3 : endsWithC t '/' = true := by
      cases h : endsWithC t '/' with
      | true => rfl
      | false => exact absurd hl ((endsWithC_false _ _).1 h)
    simp only [hs, Bool.not_true, Bool.false_eq_true, if_false, if_neg h2, h1, h3, if_true]

/-- C23 for imports in whole calls: if the first target is a relative path, a file found is named by a path to a
place at or below the directory of the package, and without symlinks that place is what is returned (with symlinks,
what the file links to). Missing: as for `C65_path_partial`; targets with empty segments (`C23_escape_violated`). -/
theorem C23_imports_resolve_partial (hs : Static cfg ser fs) {pkg : Pkg} {m : List (Str × MV)}
    (hi : Internal (cfg rid).opts fs path request pkg m)
    (hk : ImportsKey (parseRequest request).target) (ha : AsciiStars m (parseRequest request).target)
    (hslash : (parseRequest request).target.getLast? ≠ some '/')
    (hb : (cfg rid).opts.browserField = false) (he : (cfg rid).opts.enforceExtension ≠ some true)
    (hfs : ∀ p, fs.isFile p = true → (splitC '/' p).getLast? ≠ some cs!"..")
    (hh : ∀ t l, Selected .imports (cfg rid).opts.conditionNames m (parseRequest request).target (.ok (t :: l)) →
      getTargetKind (parseRequest t).target = .relative ∧
        ∀ s ∈ (splitC '/' (parseRequest t).target).dropLast, s ≠ [])
    (events : List Event) (hcalm : ∀ e ∈ events, e.calm)
    (t : Task) (ht : t ∈ ((Sys.init fs).after cfg ser events).tasks) (hrid : t.rid = rid)
    (hcall : t.call = .resolve path request) (i : Info)
    (hdone : t.prog.outcome = some (.done (.resolve (.ok (.info i))))) :
    ∃ loc0 p loc, Walk [] pkg.absDir loc0 ∧ Walk [] p loc ∧ loc0 <+: loc ∧ fs.isFile p = true ∧
      FinalPath (cfg rid).opts fs p i.path ∧
      ((cfg rid).opts.symlinks = false → i.path = absText loc) := by
  have key : ∀ ans, Yields cfg ser fs rid path request ans → ans = .ok (.info i) := by
    intro ans hy
    rcases hy.right events hcalm t ht hrid hcall _ hdone with h | ⟨a', h, h'⟩
    · cases h
    · cases h
      cases ans with
      | error e => exact h'.elim
      | ok r' => exact congrArg _ (Eq.symm h')
  obtain ⟨out, hsel, hy⟩ := C65_first_partial hs hi hk ha hslash
  match out, hsel, hy with
  | .error e, _, hy => cases key _ (hy _ .error)
  | .ok [], _, hy => cases key _ (hy _ .none)
  | .ok (u :: l), hsel, hy =>
    obtain ⟨hrel, hne⟩ := hh u l hsel
    by_cases hu : Usable fs pkg.absDir u
    · obtain ⟨ans, h1, h2⟩ := hy _ (.path (r := .got (.file _)) (.inl hrel) hu (fun h => by rw [hb] at h; cases h)
        (.file (fileCandidates_self he hu.1)))
      have := key _ h2
      subst this
      have hpa : isAbs pkg.absDir = true := loads_abs hi.loads (targetPath_abs hi.abs)
      have hr : isAbs (parseRequest u).target = false := by
        cases h : isAbs (parseRequest u).target with
        | false => rfl
        | true =>
          obtain ⟨r, hr⟩ := (isAbs_iff _).1 h
          rw [hr] at hrel
          cases hrel
      generalize hq : i.path = q
      cases h1 with
      | path h5 =>
        subst hq
        have hpath : (Info.mk pkg.absDir (parseRequest u)).getPath =
            targetPath pkg.absDir (parseRequest u).target := getPath_eq _
        obtain ⟨loc0, h0⟩ := walk_exists [] pkg.absDir
        obtain ⟨⟨loc, hw⟩, h6⟩ := C07_walk _ (targetPath_abs (t := (parseRequest u).target) hpa)
        refine ⟨loc0, _, loc, h0, hw, ?_, hu.1, h5, fun hsym => ?_⟩
        · exact inside_of_checked (fs := fs) (r := parseRequest u) hpa hr (by rw [hpath]; exact hu.1)
            ((contained_iff _).2 hu.2) hfs hne h0 (by rw [hpath]; exact hw)
        · cases h5 with
          | canonical hc _ => rw [hsym] at hc; cases hc
          | lexical => exact h6 loc hw
    · cases key _ (hy _ (.unusable (.inl hrel) hu))

/-! ## Examples -/

/-- The imports of the example. -/
def importsJson : Json :=
  .obj [(cs!"#a", .arr [.str cs!"./a.js", .str cs!"./b.js"]), (cs!"#gone", .arr [.str cs!"./gone.js", .str cs!"./a.js"]),
    (cs!"#b", .str cs!"#a"), (cs!"#m", .str cs!"m"), (cs!"#e", .str cs!"e"), (cs!"#x/*", .str cs!"./*.js")]

/-- The same, as entries. -/
def importsIm : List (Str × MV) :=
  [(cs!"#a", .arr [.direct cs!"./a.js", .direct cs!"./b.js"]),
    (cs!"#gone", .arr [.direct cs!"./gone.js", .direct cs!"./a.js"]),
    (cs!"#b", .direct cs!"#a"), (cs!"#m", .direct cs!"m"), (cs!"#e", .direct cs!"e"),
    (cs!"#x/*", .direct cs!"./*.js")]

/-- `/p` with imports, and the packages `m` (without exports) and `e` (with exports). -/
def treeIm : Tree :=
  .dir [
    (cs!"p", .dir [
      (cs!"package.json", jsonFile (.obj [(cs!"name", .str cs!"p"), (cs!"imports", importsJson)])),
      (cs!"a.js", textFile), (cs!"b.js", textFile),
      (cs!"node_modules", .dir [
        (cs!"m", .dir [(cs!"package.json", jsonFile (.obj [(cs!"name", .str cs!"m")])), (cs!"index.js", textFile)]),
        (cs!"e", .dir [
          (cs!"package.json", jsonFile (.obj [(cs!"exports", .obj [(cs!".", .str cs!"./main.js")])])),
          (cs!"main.js", textFile)])])])]

def cfgIm (_ : Nat) : Config := config optsA 0

theorem static_im : Static cfgIm serJson (treeFs treeIm []) where
  lawful := treeFs_lawful [] rfl
  debug _ := rfl
  inj _ _ := serJson_inj
  mix v t' he hi := by
    obtain ⟨p, doc, json, hr, hj, hv⟩ := hi
    obtain ⟨p', doc', json', hr', hj', hv'⟩ := he
    have h1 : treeIm.allDoc (fun d => match d.json with
      | none => true
      | some j => match j.get cs!"imports" with
        | none => true
        | some v => serJson v == serJson importsJson) = true := by decide +kernel
    have h2 : treeIm.allDoc (fun d => match d.json with
      | none => true
      | some j => match j.get cs!"exports" with
        | none => true
        | some v => serJson v != serJson importsJson) = true := by decide +kernel
    have h1 := allDoc_read h1 hr
    have h2 := allDoc_read h2 hr'
    simp only [hj, hv, beq_iff_eq] at h1
    simp only [hj', hv', bne_iff_ne] at h2
    exact absurd h1 h2
  desc rid rid' d d' _ h h' := Option.some.inj (h.symm.trans h')
  browser rid desc h := by cases h
  tsconfig rid l h := by cases h

theorem internal_im (request : Str) (hr : cs!"#" <+: (parseRequest request).target)
    (hh : targetPath cs!"/p" (parseRequest request).target = cs!"/p/" ++ (parseRequest request).target)
    (hg : (pkgAt optsA (treeFs treeIm []) (cs!"/p/" ++ (parseRequest request).target)).isSome = true)
    (hi : ((pkgAt optsA (treeFs treeIm []) (cs!"/p/" ++ (parseRequest request).target)).bind fun p =>
        (p.raw.get cs!"imports").map serJson) = some (serJson importsJson)) :
    Internal (cfgIm 0).opts (treeFs treeIm []) cs!"/p" request ((pkgAt optsA (treeFs treeIm [])
      (cs!"/p/" ++ (parseRequest request).target)).get hg) importsIm where
  plain := ⟨rfl, .inr nofun, .inl rfl⟩
  abs := rfl
  hash := hr
  loads := by rw [hh]; exact loads_get _
  imports := by
    rw [← Option.some_get hg, Option.bind_some] at hi
    obtain ⟨j, h1, h2⟩ := Option.map_eq_some_iff.1 hi
    refine ⟨j, h1, ?_⟩
    rw [serJson_inj h2]; rfl
  keys := by
    intro kv hkv
    simp only [importsIm, List.mem_cons, List.not_mem_nil, or_false] at hkv
    rcases hkv with rfl | rfl | rfl | rfl | rfl | rfl <;> exact ⟨by decide, by decide, by decide⟩

-- the demands of C65 on the package and the request, for `#a` and for a request that is refused
example : ∃ pkg, Internal (cfgIm 0).opts (treeFs treeIm []) cs!"/p" cs!"#a" pkg importsIm :=
  ⟨_, internal_im cs!"#a" (by decide +kernel) (by decide +kernel) (by decide +kernel) (by decide +kernel)⟩

example : (∃ pkg, Internal (cfgIm 0).opts (treeFs treeIm []) cs!"/p" cs!"#x/" pkg importsIm) ∧
    Refused (parseRequest cs!"#x/").target .onlyFile :=
  ⟨⟨_, internal_im cs!"#x/" (by decide +kernel) (by decide +kernel) (by decide +kernel) (by decide +kernel)⟩,
    .folder (by decide +kernel) (by decide +kernel)⟩

theorem asciiStars_im (key : Str) : AsciiStars importsIm key := by
  rintro lit v ⟨h, -, -⟩
  simp only [importsIm, List.mem_cons, Prod.mk.injEq, List.not_mem_nil, or_false] at h
  have key : ∀ k : Str, lit ++ (if true = true then cs!"*" else []) = k → AsciiStr k → AsciiStr lit :=
    fun k hk ha c hc => ha c (by rw [← hk]; simp [hc])
  rcases h with ⟨h, -⟩ | ⟨h, -⟩ | ⟨h, -⟩ | ⟨h, -⟩ | ⟨h, -⟩ | ⟨h, -⟩ <;> exact key _ h (by unfold AsciiStr; decide)

example : ImportsKey (parseRequest cs!"#a").target ∧ AsciiStars importsIm (parseRequest cs!"#a").target ∧
    (parseRequest cs!"#a").target.getLast? ≠ some '/' :=
  ⟨⟨by decide +kernel, by decide +kernel, by decide +kernel⟩, asciiStars_im _, by decide +kernel⟩

-- the demands of C23 on the targets, for `#a`
example (names l : List Str) (t : Str) (h : Selected .imports names importsIm cs!"#a" (.ok (t :: l))) :
    getTargetKind (parseRequest t).target = .relative ∧
      ∀ s ∈ (splitC '/' (parseRequest t).target).dropLast, s ≠ [] := by
  have key : t = cs!"./a.js" := by
    have he : KeyEqual importsIm cs!"#a" (.arr [.direct cs!"./a.js", .direct cs!"./b.js"]) :=
      ⟨List.mem_cons_self .., by decide, by decide⟩
    cases h with
    | star lit v h _ _ => exact (h _ he).elim
    | folder lit v h _ _ => exact (h _ he).elim
    | none h _ _ => exact (h _ he).elim
    | exact v hk hm =>
      obtain ⟨h1, -, -⟩ := hk
      simp only [importsIm, List.mem_cons, Prod.mk.injEq, List.not_mem_nil, or_false] at h1
      have h1 : v = .arr [.direct cs!"./a.js", .direct cs!"./b.js"] := by
        rcases h1 with ⟨-, h⟩ | ⟨h, -⟩ | ⟨h, -⟩ | ⟨h, -⟩ | ⟨h, -⟩ | ⟨h, -⟩
        · exact h
        all_goals exact absurd h (by decide)
      subst h1
      obtain ⟨g, hg, -, ho⟩ := hm
      generalize ht : t :: l = out at ho
      cases ho with
      | cons h1 h2 =>
        cases h1 with
        | direct h =>
          have h5 := subst_det (hg cs!"./a.js" (by unfold PlainFor; decide)) (.exact (by unfold BadTarget; decide) (by decide))
          rw [h] at h5
          cases ht
          exact Option.some.inj h5
  subst key
  decide +kernel

-- the targets of `#a` and `#gone`: one is usable, one is not
example : Usable (treeFs treeIm []) cs!"/p" cs!"./a.js" ∧ ¬ Usable (treeFs treeIm []) cs!"/p" cs!"./gone.js" ∧
    IsPath (parseRequest cs!"./a.js").target :=
  ⟨⟨by decide +kernel, (contained_iff _).1 (by decide +kernel)⟩, fun h => absurd h.1 (by decide +kernel),
    .inl (by decide +kernel)⟩

-- the call itself: the first target counts, `#b` leads to `#a`, `#e` leads to what `e` exports
example : ((resolve (treeEnv optsA treeIm) 10 cs!"/p" cs!"#a").freshInfo.map (·.path) = some cs!"/p/a.js") ∧
    ((resolve (treeEnv optsA treeIm) 10 cs!"/p" cs!"#b").freshInfo.map (·.path) = some cs!"/p/a.js") ∧
    ((resolve (treeEnv optsA treeIm) 10 cs!"/p" cs!"#x/b").freshInfo.map (·.path) = some cs!"/p/b.js") ∧
    ((resolve (treeEnv optsA treeIm) 10 cs!"/p" cs!"#e").freshInfo.map (·.path) =
      some cs!"/p/node_modules/e/main.js") ∧
    ((resolve (treeEnv optsA treeIm) 10 cs!"/p" cs!"#gone").freshInfo.map (·.path) = none) := by
  decide +kernel

/-- C65 is not what one expects for a bare target: the request `m` resolves, while `#m`, for which imports give
`m`, does not. A bare target of imports must be a file, or in a package with exports. -/
theorem C65_main_violated :
    (resolve (treeEnv optsA treeIm) 10 cs!"/p" cs!"m").freshInfo.map (·.path) =
      some cs!"/p/node_modules/m/index.js" ∧
    (resolve (treeEnv optsA treeIm) 10 cs!"/p" cs!"#m").freshErr =
      some cs!"Package path #m is not exported" := by
  decide +kernel

end Verif
