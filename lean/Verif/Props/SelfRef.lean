import Verif.Proofs.SelfRef
import Verif.Props.Packages
import Verif.Props.Result
/-!
# A package can ask for itself by its name: C74
-/

namespace Verif

variable {cfg : Nat → Config} {ser : Json → Str} {fs : Fs} {rid : Nat} {path request : Str}

/-- What follows from the targets that the exports of the package in `dir` give. -/
def SelfYields (cfg : Nat → Config) (ser : Json → Str) (fs : Fs) (rid : Nat) (path request : Str)
    (dir : Str) (pkg : Pkg) (target : Str) : Except Err (List Str) → Prop
  | .error e => Yields cfg ser fs rid path request (.error e)
  | .ok l =>
    (∀ t, FirstIn (Usable fs dir) l t → ¬ cs!"#" <+: (parseRequest t).target →
      NotCovered (cfg rid).opts (some pkg) (exportPath dir (parseRequest t).target) →
      (cfg rid).opts.enforceExtension ≠ some true →
      ∃ a, FileAnswer (cfg rid).opts fs (targetPath dir (parseRequest t).target)
        (parseRequest t).query (parseRequest t).fragment a ∧ Yields cfg ser fs rid path request a) ∧
    ((∀ t ∈ l, ¬ Usable fs dir t) →
      Yields cfg ser fs rid path request (.error (.notExported target)))

/-- C74: a request that starts with the name of the package in `dir`, from `dir` or from a directory below
it with no `node_modules` in between, comes to what the exports of that package say, after any history.
Missing: there has to be a directory `dir/node_modules` (`C74_modules_violated`); as for
`C25_order_partial`. -/
theorem C74_self_partial (hs : Static cfg ser fs) {name rest : Str} {a b : List Str} {dir : Str}
    (hb : Bare (cfg rid).opts path request name rest (a ++ dir :: b))
    (hl : FirstLoad (cfg rid).opts fs path (name ++ rest))
    (ha : ∀ x ∈ a, fs.isDir (pjoin x cs!"node_modules") = false) {pkg : Pkg}
    (hi : Itself (cfg rid).opts fs dir name (name ++ rest) pkg) {j : Json} {v : MV} {m : List (Str × MV)}
    (hj : pkg.raw.get cs!"exports" = some j) (hv : fromJson j = some v) (hm : ExportsOf v m) {key : Str}
    (hk : Subpath (parseRequest request).query (parseRequest request).fragment rest key)
    (hstar : AsciiStars m key) :
    ∃ out, Selected .exports (cfg rid).opts.conditionNames m key out ∧
      SelfYields cfg ser fs rid path request dir pkg (name ++ rest) out := by
  have hda : isAbs dir = true := ancestors_abs hb.above hb.abs dir (by simp)
  have hrel : isAbs (name ++ rest) = false := by
    rw [← hb.target]; exact kind_normal_rel hb.kind
  obtain ⟨pkg', h1, h2, h3, h4, h5, h6, h7⟩ := loads_between hs.lawful hda hi hrel
  have hname : pkg'.name = some name := h4.trans hi.name
  have hd : Exporting (cfg rid).opts fs dir name rest pkg' m :=
    ⟨hi.modules, .inr ⟨⟨_, _, rfl, hname, List.prefix_append ..⟩, .inr (.inl hname)⟩, h1,
      .inr ⟨_, hname, List.prefix_append ..⟩, j, v, h5 ▸ hj, hv, hm⟩
  obtain ⟨out, hsel, hy⟩ := C25_order_partial hs hb hl (fun x hx => .noModules (ha x hx)) hd hk hstar
  refine ⟨out, hsel, ?_⟩
  cases out with
  | error e => exact hy
  | ok l =>
    have hu : ∀ t, Usable fs pkg'.absDir t ↔ Usable fs dir t := fun t =>
      (usable_comps hs.lawful hda hi.isDir h3.symm).symm
    obtain ⟨hy1, hy2⟩ := hy
    refine ⟨fun t ht hh hc he => ?_, fun hn => hy2 fun t ht h => hn t ht ((hu t).1 h)⟩
    obtain ⟨l1, l2, e1, e2, e3⟩ := ht
    have ht' : FirstIn (Usable fs pkg'.absDir) l t :=
      ⟨l1, l2, e1, (hu t).2 e2, fun x hx h => e3 x hx ((hu x).1 h)⟩
    have hne := usable_target hs.lawful hda hi.isDir e2
    have hxs := exportPath_comps h2 h3 hne
    obtain ⟨a', h8, h9⟩ := (hy1 t ht' hh).1 (fun hbr p kv hp hkv hcov => by
      cases hp
      refine hc hbr pkg kv rfl (h6 ▸ hkv) ?_
      refine covers_comps h2 (h3.trans h7.symm) ?_ hxs hcov
      exact (exportPath_sim h2).1) he
    exact ⟨a', fileAnswer_sim hs.lawful (targetPath_abs h2) (targetPath_comps h2 h3 hne) h8, h9⟩

/-- A package `lib` in `/lib` that exports `.` and `./y`. -/
def treeLib (modules : List (Str × Tree)) : Tree :=
  .dir [(cs!"lib", .dir ([
    (cs!"package.json", jsonFile (.obj [(cs!"name", .str cs!"lib"), (cs!"exports", .obj [
      (cs!".", .str cs!"./a.js"), (cs!"./y", .str cs!"./src/y.js")])])),
    (cs!"a.js", textFile), (cs!"src", .dir [(cs!"y.js", textFile)])] ++ modules))]

def treeSelf : Tree := treeLib [(cs!"node_modules", .dir [(cs!"other", .dir [])])]

def cfgSelf (_ : Nat) : Config := config optsA 0

-- the hypotheses of C74, for `lib/y` from `/lib/src`
example : Static cfgSelf serJson (treeFs treeSelf []) ∧
    Bare (cfgSelf 0).opts cs!"/lib/src" cs!"lib/y" cs!"lib" cs!"/y" ([cs!"/lib/src"] ++ cs!"/lib" :: [cs!"/"]) ∧
    FirstLoad (cfgSelf 0).opts (treeFs treeSelf []) cs!"/lib/src" cs!"lib/y" ∧
    (∀ x ∈ [cs!"/lib/src"], (treeFs treeSelf []).isDir (pjoin x cs!"node_modules") = false) ∧
    ∃ pkg, Itself (cfgSelf 0).opts (treeFs treeSelf []) cs!"/lib" cs!"lib" cs!"lib/y" pkg ∧
      pkg.raw.get cs!"exports" = some (.obj [(cs!".", .str cs!"./a.js"), (cs!"./y", .str cs!"./src/y.js")]) ∧
      Subpath [] [] cs!"/y" cs!"./y" ∧ Usable (treeFs treeSelf []) cs!"/lib" cs!"./src/y.js" := by
  have hg : (pkgAt (cfgSelf 0).opts (treeFs treeSelf []) cs!"/lib").isSome = true := by decide +kernel
  refine ⟨static_tree rfl rfl rfl (by decide +kernel), ?_, ⟨_, loads_of_ok (by decide +kernel), nofun⟩,
    by decide +kernel, (pkgAt _ _ _).get hg, ⟨by decide +kernel, loads_get _, ?_, by decide +kernel,
      cs!"package.json", rfl, by decide +kernel, ?_⟩, ?_, .sub (req := cs!"y") (by decide) (by decide),
      by decide +kernel, (contained_iff _).1 (by decide +kernel)⟩
  · exact ⟨⟨rfl, .inr nofun, .inl rfl⟩, rfl, by decide, by decide, by unfold AsciiStr; decide,
      .plain (rest := cs!"/y") (by decide) (by decide) (.inr ⟨_, rfl⟩), by decide,
      .up (by decide) (.up (by decide) (.top (by decide)))⟩
  · have h : ((pkgAt (cfgSelf 0).opts (treeFs treeSelf []) cs!"/lib").bind Pkg.name) = some cs!"lib" := by
      decide +kernel
    rw [← Option.some_get hg, Option.bind_some] at h
    exact h
  · intro q hq h1 h2 h3 hd
    have hl := treeFs_lawful (t := treeSelf) [] rfl
    have key : ∀ p, comps q = comps p → (treeFs treeSelf []).isDir p = false ∨
        (treeFs treeSelf []).isFile (pjoin p cs!"package.json") = false →
        (treeFs treeSelf []).isFile (pjoin q cs!"package.json") = false := by
      rintro p hp (h | h)
      · rw [← hl.dir q p hq hp, hd] at h; cases h
      · rw [hl.file _ _ (isAbs_pjoin_left _ hq) (sim_pjoin hq hp _)]; exact h
    obtain ⟨l, hl'⟩ := h2
    have h4 : comps (pjoin (pjoin cs!"/lib" cs!"node_modules") cs!"lib/y") =
      [.root, .normal cs!"lib", .normal cs!"node_modules", .normal cs!"lib", .normal cs!"y"] := by decide
    have h5 : comps cs!"/lib" = [.root, .normal cs!"lib"] := by decide
    rw [h4] at hl'
    rw [h5] at h1 h3
    obtain ⟨r, hr⟩ := h1
    rw [← hr] at hl' h3
    simp only [List.cons_append, List.nil_append, List.cons.injEq, true_and] at hl'
    match r, hl', hr with
    | [], _, _ => exact absurd rfl h3
    | [x], hl', hr =>
      refine key cs!"/lib/node_modules" ?_ (.inr (by decide +kernel))
      simp only [List.cons_append, List.cons.injEq] at hl'
      rw [← hr, hl'.1]; decide
    | [x, y], hl', hr =>
      refine key cs!"/lib/node_modules/lib" ?_ (.inl (by decide +kernel))
      simp only [List.cons_append, List.cons.injEq] at hl'
      rw [← hr, hl'.1, hl'.2.1]; decide
    | [x, y, z], hl', hr =>
      refine key cs!"/lib/node_modules/lib/y" ?_ (.inl (by decide +kernel))
      simp only [List.cons_append, List.cons.injEq] at hl'
      rw [← hr, hl'.1, hl'.2.1, hl'.2.2.1]; decide
    | x :: y :: z :: w :: r, hl', _ =>
      have := congrArg List.length hl'
      simp at this
  · have h : ((pkgAt (cfgSelf 0).opts (treeFs treeSelf []) cs!"/lib").bind fun p =>
        (p.raw.get cs!"exports").map serJson) = some (serJson (.obj [
          (cs!".", .str cs!"./a.js"), (cs!"./y", .str cs!"./src/y.js")])) := by decide +kernel
    rw [← Option.some_get hg, Option.bind_some] at h
    obtain ⟨j, h1, h2⟩ := Option.map_eq_some_iff.1 h
    rw [h1, serJson_inj h2]

-- what comes out
example : (resolve (treeEnv optsA treeSelf) 10 cs!"/lib/src" cs!"lib").freshInfo.map (·.path) =
      some cs!"/lib/a.js" ∧
    (resolve (treeEnv optsA treeSelf) 10 cs!"/lib/src" cs!"lib/y").freshInfo.map (·.path) =
      some cs!"/lib/src/y.js" := by
  decide +kernel

/-- C74 does not hold for a package without a `node_modules` directory: the request is not found. -/
theorem C74_modules_violated :
    (resolve (treeEnv optsA (treeLib [])) 10 cs!"/lib" cs!"lib/y").freshErr =
      some cs!"Resolve 'lib/y' failed in '/lib'" := by
  decide +kernel

/-- C74 does not hold for names that start in the same way: a request for the package `lib-extra` (which
is not there) from the package `lib` comes to a file of `lib`. -/
theorem C74_prefix_violated :
    (resolve (treeEnv optsA treeSelf) 10 cs!"/lib" cs!"lib-extra/y").freshInfo.map (·.path) =
      some cs!"/lib/src/y.js" := by
  decide +kernel

end Verif
