import Verif.Proofs.Packages
import Verif.Proofs.Lawful
import Verif.Props.Maps
import Verif.Props.Caches
import Verif.Props.Normalize
import Verif.Spec.Examples
/-!
# Properties about packages: C10, C13, C14, C25, C26, C30, C31, C44

The theorems speak about calls on a system of resolvers after any history on an unchanging file
system (`Static`, `Yields`); `Spec/Packages.lean` and `Spec/Dirs.lean` say what is expected.
-/

namespace Verif

variable {cfg : Nat → Config} {ser : Json → Str} {fs : Fs} {rid : Nat} {path request : Str}

/-! ## A tree for the examples -/

/-- `/p` with packages below `/p/node_modules` and directories `d`, `e`, `f`. -/
def treePk : Tree :=
  .dir [
    (cs!"node_modules", .dir [(cs!"up", .dir [(cs!"index.js", textFile)])]),
    (cs!"p", .dir [
      (cs!"package.json", jsonFile (.obj [(cs!"name", .str cs!"p")])),
      (cs!"a.js", textFile),
      (cs!"d", .dir [
        (cs!"package.json", jsonFile (.obj [(cs!"main", .str cs!"./gone"), (cs!"module", .str cs!"lib")])),
        (cs!"lib", .dir [(cs!"index.js", textFile)])]),
      (cs!"e", .dir [(cs!"index.json", textFile)]),
      (cs!"f", .dir []),
      (cs!"node_modules", .dir [(cs!"m", .dir [
        (cs!"package.json", jsonFile (.obj [(cs!"exports", .obj [
          (cs!".", .arr [.str cs!"./none.js", .str cs!"./index.js"]),
          (cs!"./x/*", .str cs!"./lib/*.js")])])),
        (cs!"index.js", textFile),
        (cs!"lib", .dir [(cs!"y.js", textFile)])])])])]

def optsPk : Opts := { optsA with mainFields := [cs!"main", cs!"module"] }

def cfgPk (_ : Nat) : Config := config optsPk 0

theorem static_tree {t : Tree} {o : Opts} (ht : t.isDir = true) (hb : o.browserField = false)
    (hts : o.tsconfig = none)
    (hi : t.allDoc (fun d => match d.json with
      | none => true
      | some j => (j.get cs!"imports").isNone) = true) :
    Static (fun _ => config o 0) serJson (treeFs t []) where
  lawful := treeFs_lawful [] ht
  debug _ := rfl
  inj _ _ := serJson_inj
  mix v t' _ h _ := by
    obtain ⟨p, doc, json, hr, hj, hv⟩ := h
    have := allDoc_read hi hr
    simp only [hj, hv] at this
    cases this
  desc rid rid' d d' _ h h' := by rw [h] at h'; exact Option.some.inj h'
  browser rid desc h := by cases hb.symm.trans h
  tsconfig rid l h := by cases hts.symm.trans h

theorem static_pk : Static cfgPk serJson (treeFs treePk []) :=
  static_tree rfl rfl rfl (by decide +kernel)

/-- The package that belongs to a path. -/
def pkgAt (o : Opts) (fs : Fs) (p : Str) : Option Pkg :=
  match findPkg fs o.descriptionFile p with
  | .ret (.ok r) => r
  | _ => none

/-- Whether looking for the package works. -/
def loadOk (o : Opts) (fs : Fs) (p : Str) : Bool :=
  match findPkg fs o.descriptionFile p with
  | .ret (.ok _) => true
  | _ => false

theorem loads_of_ok {o : Opts} {p : Str} (h : loadOk o fs p = true) :
    Loads o fs p (.ok (pkgAt o fs p)) := by
  unfold loadOk at h
  unfold Loads pkgAt
  split at h
  · rename_i r hr; rw [hr]
  · cases h

theorem loads_get {o : Opts} {p : Str} (h : (pkgAt o fs p).isSome = true) :
    Loads o fs p (.ok (some ((pkgAt o fs p).get h))) := by
  rw [Option.some_get]
  refine loads_of_ok ?_
  unfold pkgAt at h
  unfold loadOk
  split at h <;> simp_all

/-! ## C10 -/

/-- C10: the first candidate that is a file is returned (or the error that its path cannot be
normalised). -/
theorem C10_found (hs : Static cfg ser fs)
    (hp : Plain (cfg rid).opts path (parseRequest request).target) (ha : isAbs path = true)
    (hk : IsPath (parseRequest request).target) {pkg : Option Pkg} {p : Str}
    (hl : Loads (cfg rid).opts fs (targetPath path (parseRequest request).target) (.ok pkg))
    (hn : NotCovered (cfg rid).opts pkg (targetPath path (parseRequest request).target))
    (hf : FirstIn (fun p => fs.isFile p = true)
      (fileCandidates (cfg rid).opts (targetPath path (parseRequest request).target)) p) :
    ∃ a, FileAnswer (cfg rid).opts fs p (parseRequest request).query (parseRequest request).fragment a ∧
      Yields cfg ser fs rid path request a :=
  path_yields hs hp ha hk (.here hl hn (.file hf))

/-- C10: nothing is found if no candidate is a file and there is no directory. -/
theorem C10_missing (hs : Static cfg ser fs)
    (hp : Plain (cfg rid).opts path (parseRequest request).target) (ha : isAbs path = true)
    (hk : IsPath (parseRequest request).target) {pkg : Option Pkg}
    (hl : Loads (cfg rid).opts fs (targetPath path (parseRequest request).target) (.ok pkg))
    (hn : NotCovered (cfg rid).opts pkg (targetPath path (parseRequest request).target))
    (hf : ∀ p ∈ fileCandidates (cfg rid).opts (targetPath path (parseRequest request).target),
      fs.isFile p = false)
    (hd : fs.isDir (targetPath path (parseRequest request).target) = false) :
    Yields cfg ser fs rid path request (.error (.failed request path)) :=
  path_yields hs hp ha hk (.here hl hn (.missing hf hd))

example : Plain (cfgPk 0).opts cs!"/p" cs!"./a" ∧ IsPath cs!"./a" ∧
    (∃ pkg, Loads (cfgPk 0).opts (treeFs treePk []) cs!"/p/./a" (.ok (some pkg)) ∧
      NotCovered (cfgPk 0).opts (some pkg) cs!"/p/./a") ∧
    FirstIn (fun p => (treeFs treePk []).isFile p = true) (fileCandidates (cfgPk 0).opts cs!"/p/./a")
      cs!"/p/./a.js" := by
  refine ⟨⟨rfl, .inr nofun, .inl rfl⟩, .inl (by decide), ?_, ?_⟩
  · exact ⟨_, loads_get (by decide +kernel), nofun⟩
  · exact ⟨[cs!"/p/./a"], [cs!"/p/./a.json", cs!"/p/./a.node"], by decide +kernel, by decide +kernel,
      by decide +kernel⟩

/-! ## C13, C14 -/

/-- A bare request: `name` is the package name, `rest` what follows it, `dirs` are the base directory
and the directories above it. -/
structure Bare (o : Opts) (path request name rest : Str) (dirs : List Str) : Prop where
  plain : Plain o path (parseRequest request).target
  abs : isAbs path = true
  kind : getTargetKind (parseRequest request).target = .normal
  target : (parseRequest request).target = name ++ rest
  ascii : AsciiStr name ∨ rest = []
  isName : PackageName (name ++ rest) name
  scope : cs!"@" <+: name → '/' ∈ name
  above : Ancestors path dirs

/-- The base directory's own lookup does not fail, and what it finds has no `browser` entry for the
target. -/
def FirstLoad (o : Opts) (fs : Fs) (path target : Str) : Prop :=
  ∃ pkg, Loads o fs (pjoin (pjoin path cs!"node_modules") target) (.ok pkg) ∧ NotKeyed o pkg target

/-- What one `node_modules` directory gives for the request. -/
abbrev Step (o : Opts) (fs : Fs) (request name rest d : Str) (r : Option Hit) : Prop :=
  StepOut o fs (Loads o fs) name rest (parseRequest request).query (parseRequest request).fragment d r

theorem search_of_steps {o : Opts} {name rest : Str} {a b : List Str} {d : Str} {h : Hit}
    (ha : ∀ x ∈ a, Step o fs request name rest x none)
    (hd : Step o fs request name rest d (some h)) :
    SearchOut o fs (Loads o fs) name rest (parseRequest request).query (parseRequest request).fragment
      (a ++ d :: b) (some h) := by
  induction a with
  | nil => exact .hit hd
  | cons x a ih =>
    exact .next (ha x (List.mem_cons_self ..)) (ih fun y hy => ha y (List.mem_cons_of_mem _ hy))

theorem search_of_none {o : Opts} {name rest : Str} {dirs : List Str}
    (h : ∀ x ∈ dirs, Step o fs request name rest x none) :
    SearchOut o fs (Loads o fs) name rest (parseRequest request).query (parseRequest request).fragment
      dirs none := by
  induction dirs with
  | nil => exact .nil
  | cons x a ih =>
    exact .next (h x (List.mem_cons_self ..)) (ih fun y hy => h y (List.mem_cons_of_mem _ hy))

theorem bare_yields' (hs : Static cfg ser fs) {name rest : Str} {dirs : List Str}
    (hb : Bare (cfg rid).opts path request name rest dirs)
    (hl : FirstLoad (cfg rid).opts fs path (name ++ rest)) {r : Option Hit}
    (h : SearchOut (cfg rid).opts fs (Loads (cfg rid).opts fs) name rest (parseRequest request).query
      (parseRequest request).fragment dirs r) :
    HitYields cfg ser fs rid path request r := by
  obtain ⟨pkg, hl, hn⟩ := hl
  exact bare_yields hs hb.plain hb.abs hb.kind hb.target hb.ascii hb.isName hb.scope hb.above
    (.search hl hn h)

/-- C13: the nearest `node_modules` that has something decides, with description files. -/
theorem C13_nearest (hs : Static cfg ser fs) {name rest : Str} {a b : List Str} {d : Str}
    (hb : Bare (cfg rid).opts path request name rest (a ++ d :: b))
    (hl : FirstLoad (cfg rid).opts fs path (name ++ rest))
    (ha : ∀ x ∈ a, Step (cfg rid).opts fs request name rest x none) {h : Hit}
    (hd : Step (cfg rid).opts fs request name rest d (some h)) :
    HitYields cfg ser fs rid path request (some h) :=
  bare_yields' hs hb hl (search_of_steps ha hd)

/-- C14: the request fails with the not-found error exactly in the case in which no `node_modules` has
anything, with description files. -/
theorem C14_exhaustive (hs : Static cfg ser fs) {name rest : Str} {dirs : List Str}
    (hb : Bare (cfg rid).opts path request name rest dirs)
    (hl : FirstLoad (cfg rid).opts fs path (name ++ rest))
    (h : ∀ d ∈ dirs, ∃ r, Step (cfg rid).opts fs request name rest d r) :
    ((∀ d ∈ dirs, Step (cfg rid).opts fs request name rest d none) ∧
      Yields cfg ser fs rid path request (.error (.failed request path))) ∨
    ∃ a d b hit, dirs = a ++ d :: b ∧ (∀ x ∈ a, Step (cfg rid).opts fs request name rest x none) ∧
      Step (cfg rid).opts fs request name rest d (some hit) ∧
      HitYields cfg ser fs rid path request (some hit) := by
  have key : ∀ l : List Str, (∀ d ∈ l, ∃ r, Step (cfg rid).opts fs request name rest d r) →
      (∀ d ∈ l, Step (cfg rid).opts fs request name rest d none) ∨
      ∃ a d b hit, l = a ++ d :: b ∧ (∀ x ∈ a, Step (cfg rid).opts fs request name rest x none) ∧
        Step (cfg rid).opts fs request name rest d (some hit) := by
    intro l
    induction l with
    | nil => intro _; exact .inl nofun
    | cons x l ih =>
      intro h
      obtain ⟨r, hr⟩ := h x (List.mem_cons_self ..)
      cases r with
      | some hit => exact .inr ⟨[], x, l, hit, rfl, nofun, hr⟩
      | none =>
        rcases ih fun y hy => h y (List.mem_cons_of_mem _ hy) with h' | ⟨a, d, b, hit, rfl, h1, h2⟩
        · left
          intro y hy
          rcases List.mem_cons.1 hy with rfl | hy
          · exact hr
          · exact h' y hy
        · refine .inr ⟨x :: a, d, b, hit, rfl, fun y hy => ?_, h2⟩
          rcases List.mem_cons.1 hy with rfl | hy
          · exact hr
          · exact h1 y hy
  rcases key dirs h with h | ⟨a, d, b, hit, rfl, h1, h2⟩
  · exact .inl ⟨h, bare_yields' hs hb hl (search_of_none h)⟩
  · exact .inr ⟨a, d, b, hit, rfl, h1, h2, C13_nearest hs hb hl h1 h2⟩

theorem bare_pk (request name rest : Str) (hk : getTargetKind (parseRequest request).target = .normal)
    (ht : (parseRequest request).target = name ++ rest) (ha : AsciiStr name)
    (hn : PackageName (name ++ rest) name) (hs : cs!"@" <+: name → '/' ∈ name) :
    Bare (cfgPk 0).opts cs!"/p" request name rest [cs!"/p", cs!"/"] where
  plain := ⟨rfl, .inr nofun, .inl rfl⟩
  abs := rfl
  kind := hk
  target := ht
  ascii := .inl ha
  isName := hn
  scope := hs
  above := .up (by decide) (.top (by decide))

-- `up` is not in `/p/node_modules` but in `/node_modules`
example : Bare (cfgPk 0).opts cs!"/p" cs!"up" cs!"up" [] ([cs!"/p"] ++ cs!"/" :: []) ∧
    FirstLoad (cfgPk 0).opts (treeFs treePk []) cs!"/p" cs!"up" ∧
    (∀ x ∈ [cs!"/p"], Step (cfgPk 0).opts (treeFs treePk []) cs!"up" cs!"up" [] x none) ∧
    Step (cfgPk 0).opts (treeFs treePk []) cs!"up" cs!"up" [] cs!"/"
      (some (.file cs!"/node_modules/./up/./index.js" [] [])) := by
  refine ⟨bare_pk _ _ _ (by decide) (by decide) (by unfold AsciiStr; decide)
    (.plain (rest := []) (by decide) (by decide) (.inl rfl)) (by decide), ?_, ?_, ?_⟩
  · exact ⟨_, loads_of_ok (by decide +kernel), nofun⟩
  · intro x hx
    rw [List.mem_singleton] at hx
    subst hx
    refine .missing (by decide +kernel) (loads_of_ok (by decide +kernel)) ?_ (by decide +kernel)
    rintro (h | ⟨p, name, h1, h2, h3⟩)
    · revert h
      decide +kernel
    have : ((pkgAt (cfgPk 0).opts (treeFs treePk []) (pjoin (pjoin cs!"/p" cs!"node_modules")
      (cs!"up" ++ []))).bind Pkg.name) = some cs!"p" := by decide +kernel
    rw [h1] at this
    have h4 := h2.symm.trans this
    cases h4
    revert h3
    decide
  · have hnone : (pkgAt (cfgPk 0).opts (treeFs treePk [])
        (pjoin (pjoin cs!"/" cs!"node_modules") (cs!"up" ++ []))).isNone = true := by decide +kernel
    have hl := loads_of_ok (fs := treeFs treePk []) (o := (cfgPk 0).opts)
      (p := pjoin (pjoin cs!"/" cs!"node_modules") (cs!"up" ++ [])) (by decide +kernel)
    rw [Option.isNone_iff_eq_none.1 hnone] at hl
    refine .plain (r := .got (.file _)) (by decide +kernel) hl (.inl (by decide +kernel)) nofun (.keep nofun)
      (.dir (by decide +kernel) (by decide +kernel) (.noPkg ?_ (.file (.keep nofun)
        ⟨[cs!"/node_modules/./up/./index"],
        [cs!"/node_modules/./up/./index.json", cs!"/node_modules/./up/./index.node"], by decide +kernel,
        by decide +kernel, by decide +kernel⟩)))
    have hnone : (pkgAt (cfgPk 0).opts (treeFs treePk [])
        (pjoin (pjoin cs!"/" cs!"node_modules") (cs!"./" ++ (cs!"up" ++ [])))).isNone = true := by
      decide +kernel
    have hl := loads_of_ok (fs := treeFs treePk []) (o := (cfgPk 0).opts)
      (p := pjoin (pjoin cs!"/" cs!"node_modules") (cs!"./" ++ (cs!"up" ++ []))) (by decide +kernel)
    rw [Option.isNone_iff_eq_none.1 hnone] at hl
    exact hl

/-! ## C25, C26 -/

/-- The package that belongs to `d/node_modules/name` (a package of this name, or the one that asks for
itself) has the exports `m`, and they count for the request. -/
structure Exporting (o : Opts) (fs : Fs) (d name rest : Str) (pkg : Pkg) (m : List (Str × MV)) :
    Prop where
  modules : fs.isDir (pjoin d cs!"node_modules") = true
  entered : Entered fs d name rest pkg
  loads : Loads o fs (pjoin (pjoin d cs!"node_modules") (name ++ rest)) (.ok (some pkg))
  apply : ExportsApply pkg (name ++ rest)
  exports : ∃ j v, pkg.raw.get cs!"exports" = some j ∧ fromJson j = some v ∧ ExportsOf v m

/-- What is looked up in exports for what follows the package name: query and fragment are taken for a
part of the path. -/
inductive Subpath (query fragment : Str) : Str → Str → Prop where
  | main : query = [] → fragment = [] → Subpath query fragment [] cs!"."
  | sub {req : Str} : req ++ query ++ fragment ≠ [] →
      (req ++ query ++ fragment).getLast? ≠ some '/' →
      Subpath query fragment ('/' :: req) (cs!"./" ++ (req ++ query ++ fragment))
  | mainQuery : query ++ fragment ≠ [] → (query ++ fragment).getLast? ≠ some '/' →
      Subpath query fragment [] (cs!"./" ++ (query ++ fragment))

theorem exporting_selected {o : Opts} {d name rest : Str} {pkg : Pkg} {m : List (Str × MV)}
    (h : Exporting o fs d name rest pkg m) (hd : isAbs d = true) {query fragment key : Str}
    (hk : Subpath query fragment rest key) (ha : AsciiStars m key) :
    exportsKey rest query fragment = key ∧ ∃ out, Mapped o pkg key out ∧
      Selected .exports o.conditionNames m key out := by
  obtain ⟨j, v, h1, h2, h3⟩ := h.exports
  have htree : OwnTree .exports (pkg.raw.get cs!"exports") pkg.exportsTree := by
    have hp := h.loads
    unfold Loads at hp
    cases ho : o.descriptionFile with
    | none => rw [ho] at hp; cases hp
    | some desc =>
      rw [ho] at hp
      obtain ⟨d, -, -, h3⟩ := findPkg_found
        (isAbs_pjoin_left _ (isAbs_pjoin_left _ hd)) (by rw [hp]; exact .ret _)
      exact (readPkg_trees h3).1
  rw [h1] at htree
  obtain ⟨root, h4, h5⟩ := htree
  cases hk with
  | main hq hf =>
    subst hq hf
    obtain ⟨root', out, h6, h7, h8⟩ := C19_exports_main j v m h2 h3 o.conditionNames
    rw [h5] at h6
    cases h6
    exact ⟨rfl, out, ⟨root, h4, h7⟩, h8⟩
  | @sub req hr hs =>
    obtain ⟨root', out, h6, h7, h8⟩ := C19_exports_partial j v m h2 h3 _ hr ha hs o.conditionNames
    rw [h5] at h6
    cases h6
    refine ⟨?_, out, ⟨root, h4, h7⟩, h8⟩
    unfold exportsKey
    split
    · rename_i h; rw [h.1, h.2]; simp
    · simp
  | mainQuery hr hs =>
    obtain ⟨root', out, h6, h7, h8⟩ := C19_exports_partial j v m h2 h3 _ hr ha hs o.conditionNames
    rw [h5] at h6
    cases h6
    refine ⟨?_, out, ⟨root, h4, h7⟩, h8⟩
    unfold exportsKey
    rw [if_neg (by simpa using hr)]
    simp

theorem ancestors_abs {path : Str} {dirs : List Str} (h : Ancestors path dirs) (ha : isAbs path = true) :
    ∀ d ∈ dirs, isAbs d = true := by
  induction h with
  | top _ => intro d hd; rw [List.mem_singleton] at hd; rw [hd]; exact ha
  | up hp _ ih =>
    intro d hd
    rcases List.mem_cons.1 hd with rfl | hd
    · exact ha
    · exact ih (by rw [isAbs_pparent hp]; exact ha) d hd

/-- What follows from the targets that exports give: the first usable one is the answer (or what the
package's `browser` map has in its place, with an extension if these are enforced), or the error "Package
path … is not exported", or the error of the exports. Targets that start with `#` are left out. -/
def ExportsYields (cfg : Nat → Config) (ser : Json → Str) (fs : Fs) (rid : Nat) (path request : Str)
    (pkg : Pkg) (target : Str) : Except Err (List Str) → Prop
  | .error e => Yields cfg ser fs rid path request (.error e)
  | .ok l =>
    (∀ t, FirstIn (Usable fs pkg.absDir) l t → ¬ cs!"#" <+: (parseRequest t).target →
      (NotCovered (cfg rid).opts (some pkg) (exportPath pkg.absDir (parseRequest t).target) →
        (cfg rid).opts.enforceExtension ≠ some true →
        ∃ a, FileAnswer (cfg rid).opts fs (targetPath pkg.absDir (parseRequest t).target)
          (parseRequest t).query (parseRequest t).fragment a ∧ Yields cfg ser fs rid path request a) ∧
      (Swap (cfg rid).opts (some pkg) (exportPath pkg.absDir (parseRequest t).target) none →
        Yields cfg ser fs rid path request (.ok .ignored)) ∧
      ∀ y r h, Swap (cfg rid).opts (some pkg) (exportPath pkg.absDir (parseRequest t).target) (some y) →
        AtPath (cfg rid).opts fs (Loads (cfg rid).opts fs) y r →
        r.hit (parseRequest t).query (parseRequest t).fragment = some h →
        HitYields cfg ser fs rid path request (some h)) ∧
    ((∀ t ∈ l, ¬ Usable fs pkg.absDir t) →
      Yields cfg ser fs rid path request (.error (.notExported target)))

theorem fileAnswer_sim {o : Opts} (hl : fs.Lawful) {p p' q f : Str} (ha : isAbs p = true) (h : Sim p p')
    {a : Except Err Result} (hf : FileAnswer o fs p q f a) : FileAnswer o fs p' q f a := by
  cases hf with
  | path hp => exact .path (finalPath_sim hl (.inr ⟨ha, h⟩) hp)
  | noPath h1 h2 => exact .noPath h1 (by rw [← hl.canon _ _ ha h]; exact h2)

/-- The two spellings of the path of a target. -/
theorem exportPath_sim {dir t : Str} (h : isAbs dir = true) :
    isAbs (exportPath dir t) = true ∧ Sim (exportPath dir t) (targetPath dir t) := by
  unfold exportPath
  split
  · rename_i hk
    refine ⟨isAbs_pjoin_left _ h, ?_⟩
    rw [targetPath_bare hk]
    have := sim_dotSlash h (kind_normal_rel hk)
    exact ⟨this.1.symm, this.2.symm⟩
  · exact ⟨targetPath_abs h, rfl, rfl⟩

/-- C25: the alternatives of an export are tried in order: the first that is a file and passes the
containment check is the answer; if there is none, the request fails with "not exported". Partial:
for ASCII `*` keys and package names (if a path follows the name), and not for targets that start with `#`
(`C26_hash_violated`). With enforced extensions the first is given an extension
(`C26_extension_violated`). -/
theorem C25_order_partial (hs : Static cfg ser fs) {name rest : Str} {a b : List Str} {d : Str}
    (hb : Bare (cfg rid).opts path request name rest (a ++ d :: b))
    (hl : FirstLoad (cfg rid).opts fs path (name ++ rest))
    (ha : ∀ x ∈ a, Step (cfg rid).opts fs request name rest x none) {pkg : Pkg} {m : List (Str × MV)}
    (hd : Exporting (cfg rid).opts fs d name rest pkg m) {key : Str}
    (hk : Subpath (parseRequest request).query (parseRequest request).fragment rest key)
    (hstar : AsciiStars m key) :
    ∃ out, Selected .exports (cfg rid).opts.conditionNames m key out ∧
      ExportsYields cfg ser fs rid path request pkg (name ++ rest) out := by
  have hda : isAbs d = true := ancestors_abs hb.above hb.abs d (by simp)
  obtain ⟨hkey, out, hm, hsel⟩ := exporting_selected hd hda hk hstar
  refine ⟨out, hsel, ?_⟩
  have hm' : Mapped (cfg rid).opts pkg
      (exportsKey rest (parseRequest request).query (parseRequest request).fragment) out := by
    rw [hkey]; exact hm
  cases out with
  | error e =>
    exact C13_nearest hs hb hl ha (h := .fail e)
      (.exportsError hd.modules hd.loads hd.entered hd.apply hm')
  | ok l =>
    constructor
    · intro t ht hh
      have hgen : ∀ y r h, Swap (cfg rid).opts (some pkg) (exportPath pkg.absDir (parseRequest t).target)
          (some y) → AtPath (cfg rid).opts fs (Loads (cfg rid).opts fs) y r →
          r.hit (parseRequest t).query (parseRequest t).fragment = some h →
          HitYields cfg ser fs rid path request (some h) := fun y r h h1 h2 h3 =>
        C13_nearest hs hb hl ha (h3 ▸ .mapped hd.modules hd.loads hd.entered hd.apply hm' ht hh h1 h2)
      have hpa : isAbs pkg.absDir = true :=
        loads_abs hd.loads (isAbs_pjoin_left _ (isAbs_pjoin_left _ hda))
      obtain ⟨h1, h2⟩ := exportPath_sim (t := (parseRequest t).target) hpa
      refine ⟨fun hc he => ?_, fun h => C13_nearest hs hb hl ha (h := .ignored)
        (.mappedDropped hd.modules hd.loads hd.entered hd.apply hm' ht hh h), hgen⟩
      have hu := (firstIn_mem ht).2.1
      rw [← hs.lawful.file _ _ h1 h2] at hu
      obtain ⟨a, h3, h4⟩ := hgen _ (.got (.file _)) (.file _ _ _) (.keep hc)
        (.file (fileCandidates_self he hu)) rfl
      exact ⟨a, fileAnswer_sim hs.lawful h1 h2 h3, h4⟩
    · intro hn
      exact C13_nearest hs hb hl ha (h := .fail _)
        (.notExported hd.modules hd.loads hd.entered hd.apply hm' hn)

/-- C26: what a request into a package with exports comes to is one of the targets that exports give,
after any history, if no `browser` entry replaces it. Partial: for ASCII `*` keys and package names (if
a path follows the name), not for targets that start with `#`, and not with enforced extensions (`C26_extension_violated`,
`C26_hash_violated`). -/
theorem C26_exports_partial (hs : Static cfg ser fs) {name rest : Str} {a b : List Str} {d : Str}
    (hb : Bare (cfg rid).opts path request name rest (a ++ d :: b))
    (hl : FirstLoad (cfg rid).opts fs path (name ++ rest))
    (ha : ∀ x ∈ a, Step (cfg rid).opts fs request name rest x none) {pkg : Pkg} {m : List (Str × MV)}
    (hd : Exporting (cfg rid).opts fs d name rest pkg m) {key : Str}
    (hk : Subpath (parseRequest request).query (parseRequest request).fragment rest key)
    (hstar : AsciiStars m key)
    (he : (cfg rid).opts.enforceExtension ≠ some true)
    (hh : ∀ l, Selected .exports (cfg rid).opts.conditionNames m key (.ok l) →
      ∀ t ∈ l, ¬ cs!"#" <+: (parseRequest t).target ∧
        NotCovered (cfg rid).opts (some pkg) (exportPath pkg.absDir (parseRequest t).target))
    (events : List Event) (hcalm : ∀ e ∈ events, e.calm)
    (t : Task) (ht : t ∈ ((Sys.init fs).after cfg ser events).tasks) (hrid : t.rid = rid)
    (hcall : t.call = .resolve path request) (r : Result)
    (hdone : t.prog.outcome = some (.done (.resolve (.ok r)))) :
    ∃ l target info, Selected .exports (cfg rid).opts.conditionNames m key (.ok l) ∧ target ∈ l ∧
      Usable fs pkg.absDir target ∧ r = .info info ∧
      FinalPath (cfg rid).opts fs (targetPath pkg.absDir (parseRequest target).target) info.path := by
  obtain ⟨out, hsel, hy⟩ := C25_order_partial hs hb hl ha hd hk hstar
  have key : ∀ ans, Yields cfg ser fs rid path request ans → ans = .ok r := by
    intro ans hans
    rcases hans.right events hcalm t ht hrid hcall _ hdone with h | ⟨a, h, h'⟩
    · cases h
    · cases h
      cases ans with
      | error e => exact h'.elim
      | ok r' => exact congrArg _ (Eq.symm h')
  cases out with
  | error e => cases key _ hy
  | ok l =>
    rcases firstIn_or_none (Usable fs pkg.absDir) l with ⟨t, ht⟩ | hu
    · obtain ⟨hh1, hh2⟩ := hh l hsel t (firstIn_mem ht).1
      obtain ⟨ans, h1, h2⟩ := (hy.1 t ht hh1).1 hh2 he
      have := key _ h2
      subst this
      cases h1 with
      | path hq => exact ⟨l, t, _, hsel, (firstIn_mem ht).1, (firstIn_mem ht).2, rfl, hq⟩
    · cases key _ (hy.2 hu)

/-- C26 with enforced extensions: what a request comes to is one of the targets that exports give with one of the
extensions appended, if there is such a file for each target that can be used. Missing: as for
`C26_exports_partial`; targets for which there is no file with an extension, where the search goes on in the directories
further up (`C26_outer_violated`). -/
theorem C26_enforced_partial (hs : Static cfg ser fs) {name rest : Str} {a b : List Str} {d : Str}
    (hb : Bare (cfg rid).opts path request name rest (a ++ d :: b))
    (hl : FirstLoad (cfg rid).opts fs path (name ++ rest))
    (ha : ∀ x ∈ a, Step (cfg rid).opts fs request name rest x none) {pkg : Pkg} {m : List (Str × MV)}
    (hd : Exporting (cfg rid).opts fs d name rest pkg m) {key : Str}
    (hk : Subpath (parseRequest request).query (parseRequest request).fragment rest key)
    (hstar : AsciiStars m key)
    (he : (cfg rid).opts.enforceExtension = some true)
    (hh : ∀ l, Selected .exports (cfg rid).opts.conditionNames m key (.ok l) →
      ∀ t ∈ l, ¬ cs!"#" <+: (parseRequest t).target ∧
        NotCovered (cfg rid).opts (some pkg) (exportPath pkg.absDir (parseRequest t).target) ∧
        (Usable fs pkg.absDir t → ∃ ext ∈ (cfg rid).opts.extensions,
          fs.isFile (exportPath pkg.absDir (parseRequest t).target ++ ext) = true))
    (events : List Event) (hcalm : ∀ e ∈ events, e.calm)
    (t : Task) (ht : t ∈ ((Sys.init fs).after cfg ser events).tasks) (hrid : t.rid = rid)
    (hcall : t.call = .resolve path request) (r : Result)
    (hdone : t.prog.outcome = some (.done (.resolve (.ok r)))) :
    ∃ l target ext info, Selected .exports (cfg rid).opts.conditionNames m key (.ok l) ∧
      FirstIn (Usable fs pkg.absDir) l target ∧
      FirstIn (fun ext => fs.isFile (exportPath pkg.absDir (parseRequest target).target ++ ext) = true)
        (cfg rid).opts.extensions ext ∧ r = .info info ∧
      FinalPath (cfg rid).opts fs (exportPath pkg.absDir (parseRequest target).target ++ ext)
        info.path := by
  obtain ⟨out, hsel, hy⟩ := C25_order_partial hs hb hl ha hd hk hstar
  have key : ∀ ans, Yields cfg ser fs rid path request ans → ans = .ok r := by
    intro ans hans
    rcases hans.right events hcalm t ht hrid hcall _ hdone with h | ⟨a, h, h'⟩
    · cases h
    · cases h
      cases ans with
      | error e => exact h'.elim
      | ok r' => exact congrArg _ (Eq.symm h')
  cases out with
  | error e => cases key _ hy
  | ok l =>
    rcases firstIn_or_none (Usable fs pkg.absDir) l with ⟨t, ht⟩ | hu
    · obtain ⟨hh1, hh2, hh3⟩ := hh l hsel t (firstIn_mem ht).1
      obtain ⟨ext0, hx0, hf0⟩ := hh3 (firstIn_mem ht).2
      rcases firstIn_or_none (fun ext => fs.isFile
        (exportPath pkg.absDir (parseRequest t).target ++ ext) = true) (cfg rid).opts.extensions with
        ⟨ext, hx⟩ | hn
      · have hfc : FirstIn (fun p => fs.isFile p = true)
            (fileCandidates (cfg rid).opts (exportPath pkg.absDir (parseRequest t).target))
            (exportPath pkg.absDir (parseRequest t).target ++ ext) := by
          obtain ⟨u, v, h1, h2, h3⟩ := hx
          unfold fileCandidates
          rw [if_pos he, h1]
          refine ⟨u.map (exportPath pkg.absDir (parseRequest t).target ++ ·),
            v.map (exportPath pkg.absDir (parseRequest t).target ++ ·), by simp, h2, ?_⟩
          intro y hy
          obtain ⟨e, he, rfl⟩ := List.mem_map.1 hy
          exact h3 e he
        obtain ⟨ans, h1, h2⟩ := (hy.1 t ht hh1).2.2 _ (.got (.file _)) (.file _ _ _) (.keep hh2)
          (.file hfc) rfl
        have := key _ h2
        subst this
        cases h1 with
        | path hq => exact ⟨l, t, ext, _, hsel, ht, hx, rfl, hq⟩
      · exact absurd hf0 (hn _ hx0)
    · cases key _ (hy.2 hu)

/-- C23 for whole calls: a file found through exports is named by a path to a place at or below the directory
of the package, and without symlinks that place is what is returned (with symlinks, what the file links
to). Missing: as for `C26_exports_partial`; targets with empty segments (`C23_escape_violated`);
absolute targets, which a `*` at the beginning of a target can make (`C23_absolute_violated`); `browser` entries
for the target (`C23_browser_violated`). -/
theorem C23_resolve_partial (hs : Static cfg ser fs) {name rest : Str} {a b : List Str} {d : Str}
    (hb : Bare (cfg rid).opts path request name rest (a ++ d :: b))
    (hl : FirstLoad (cfg rid).opts fs path (name ++ rest))
    (ha : ∀ x ∈ a, Step (cfg rid).opts fs request name rest x none) {pkg : Pkg} {m : List (Str × MV)}
    (hd : Exporting (cfg rid).opts fs d name rest pkg m) {key : Str}
    (hk : Subpath (parseRequest request).query (parseRequest request).fragment rest key)
    (hstar : AsciiStars m key)
    (he : (cfg rid).opts.enforceExtension ≠ some true)
    (hfs : ∀ p, fs.isFile p = true → (splitC '/' p).getLast? ≠ some cs!"..")
    (hh : ∀ l, Selected .exports (cfg rid).opts.conditionNames m key (.ok l) →
      ∀ t ∈ l, (¬ cs!"#" <+: (parseRequest t).target ∧
          NotCovered (cfg rid).opts (some pkg) (exportPath pkg.absDir (parseRequest t).target)) ∧
        isAbs (parseRequest t).target = false ∧
        ∀ s ∈ (splitC '/' (parseRequest t).target).dropLast, s ≠ [])
    (events : List Event) (hcalm : ∀ e ∈ events, e.calm)
    (t : Task) (ht : t ∈ ((Sys.init fs).after cfg ser events).tasks) (hrid : t.rid = rid)
    (hcall : t.call = .resolve path request) (i : Info)
    (hdone : t.prog.outcome = some (.done (.resolve (.ok (.info i))))) :
    ∃ loc0 p loc, Walk [] pkg.absDir loc0 ∧ Walk [] p loc ∧ loc0 <+: loc ∧ fs.isFile p = true ∧
      FinalPath (cfg rid).opts fs p i.path ∧
      ((cfg rid).opts.symlinks = false → i.path = absText loc) := by
  obtain ⟨l, target, info, h1, h2, h3, h4, h5⟩ := C26_exports_partial hs hb hl ha hd hk hstar he
    (fun l hl t ht => (hh l hl t ht).1) events hcalm t ht hrid hcall _ hdone
  cases h4
  obtain ⟨-, hrel, hne⟩ := hh l h1 target h2
  have hda : isAbs d = true := ancestors_abs hb.above hb.abs d (by simp)
  have hpa : isAbs pkg.absDir = true := by
    have hp := hd.loads
    unfold Loads at hp
    cases ho : (cfg rid).opts.descriptionFile with
    | none => rw [ho] at hp; cases hp
    | some desc =>
      rw [ho] at hp
      obtain ⟨d', -, h6, h7⟩ := findPkg_found
        (isAbs_pjoin_left _ (isAbs_pjoin_left _ hda)) (by rw [hp]; exact .ret _)
      rw [readPkg_dir h7]
      exact h6
  have hpath : (Info.mk pkg.absDir (parseRequest target)).getPath =
      targetPath pkg.absDir (parseRequest target).target := getPath_eq _
  have habs : isAbs (targetPath pkg.absDir (parseRequest target).target) = true := by
    unfold targetPath
    split
    · exact hpa
    · exact isAbs_pjoin_left _ hpa
  obtain ⟨loc0, h0⟩ := walk_exists [] pkg.absDir
  obtain ⟨⟨loc, hw⟩, h6⟩ := C07_walk _ habs
  refine ⟨loc0, _, loc, h0, hw, ?_, h3.1, h5, fun hsym => ?_⟩
  · exact inside_of_checked (fs := fs) (r := parseRequest target) hpa hrel (by rw [hpath]; exact h3.1)
      ((contained_iff _).2 h3.2) hfs hne h0 (by rw [hpath]; exact hw)
  · generalize i.path = q at h5 ⊢
    cases h5 with
    | canonical hc _ => rw [hsym] at hc; cases hc
    | lexical => exact h6 loc hw

/-- The exports of `/p/node_modules/m`. -/
def exportsPk : List (Str × MV) :=
  [(cs!".", .arr [.direct cs!"./none.js", .direct cs!"./index.js"]), (cs!"./x/*", .direct cs!"./lib/*.js")]

-- the hypotheses of C25 and C26: the second of two targets is usable, for `m`
example : Bare (cfgPk 0).opts cs!"/p" cs!"m" cs!"m" [] ([] ++ cs!"/p" :: [cs!"/"]) ∧
    FirstLoad (cfgPk 0).opts (treeFs treePk []) cs!"/p" cs!"m" ∧
    ∃ pkg, Exporting (cfgPk 0).opts (treeFs treePk []) cs!"/p" cs!"m" [] pkg exportsPk ∧
      Subpath [] [] [] cs!"." ∧ AsciiStars exportsPk cs!"." ∧ Usable (treeFs treePk []) pkg.absDir cs!"./index.js" ∧
      ¬ Usable (treeFs treePk []) pkg.absDir cs!"./none.js" := by
  have hp : ((pkgAt (cfgPk 0).opts (treeFs treePk []) cs!"/p/node_modules/m").map Pkg.absDir) =
      some cs!"/p/node_modules/m" := by decide +kernel
  have hg : (pkgAt (cfgPk 0).opts (treeFs treePk []) cs!"/p/node_modules/m").isSome = true := by
    decide +kernel
  have hdir : ((pkgAt (cfgPk 0).opts (treeFs treePk []) cs!"/p/node_modules/m").get hg).absDir =
      cs!"/p/node_modules/m" := by
    rw [← Option.some_get hg] at hp
    exact Option.some.inj hp
  refine ⟨bare_pk _ _ _ (by decide) (by decide) (by unfold AsciiStr; decide)
    (.plain (rest := []) (by decide) (by decide) (.inl rfl)) (by decide),
    ⟨_, loads_of_ok (by decide +kernel), nofun⟩, (pkgAt _ _ _).get hg, ⟨by decide +kernel, .inl (by decide +kernel),
      loads_get _, .inl ?_, ?_⟩, .main rfl rfl, ?_, ⟨?_, ?_⟩, ?_⟩
  · rw [hdir]; exact ⟨cs!"/p/", cs!"/m", rfl⟩
  · have h : ((pkgAt (cfgPk 0).opts (treeFs treePk []) cs!"/p/node_modules/m").bind fun p =>
        (p.raw.get cs!"exports").map serJson) = some (serJson (.obj [
          (cs!".", .arr [.str cs!"./none.js", .str cs!"./index.js"]),
          (cs!"./x/*", .str cs!"./lib/*.js")])) := by decide +kernel
    rw [← Option.some_get hg, Option.bind_some] at h
    obtain ⟨j, h1, h2⟩ := Option.map_eq_some_iff.1 h
    refine ⟨j, .cond exportsPk, h1, ?_, .paths (by decide) ?_⟩
    · rw [serJson_inj h2]; rfl
    · intro kv hkv
      simp only [exportsPk, List.mem_cons, List.not_mem_nil, or_false] at hkv
      rcases hkv with rfl | rfl
      · exact .inl rfl
      · exact .inr (by decide)
  · rintro lit v ⟨h, -, -⟩
    simp only [exportsPk, List.mem_cons, Prod.mk.injEq, List.not_mem_nil, or_false] at h
    have key : ∀ k : Str, lit ++ (if true = true then cs!"*" else []) = k → AsciiStr k → AsciiStr lit :=
      fun k hk ha c hc => ha c (by rw [← hk]; simp [hc])
    rcases h with ⟨h, -⟩ | ⟨h, -⟩ <;> exact key _ h (by decide)
  · rw [hdir]; decide +kernel
  · exact (contained_iff _).1 (by decide +kernel)
  · rintro ⟨h, -⟩
    rw [hdir] at h
    revert h
    decide +kernel

-- the demands of C23 and C26 on the targets
example (names l : List Str) (h : Selected .exports names exportsPk cs!"." (.ok l)) (t : Str) (ht : t ∈ l) :
    ¬ cs!"#" <+: (parseRequest t).target ∧ isAbs (parseRequest t).target = false ∧
      ∀ s ∈ (splitC '/' (parseRequest t).target).dropLast, s ≠ [] := by
  have key : t = cs!"./none.js" ∨ t = cs!"./index.js" := by
    have hpat : ∀ star lit v, KeyMatches exportsPk cs!"." star lit v → False := by
      rintro star lit v ⟨h1, h2, h3⟩
      simp only [exportsPk, List.mem_cons, Prod.mk.injEq, List.not_mem_nil, or_false] at h1
      have h4 := h3.length_le
      rcases h1 with ⟨h1, -⟩ | ⟨h1, -⟩
      · cases star with
        | false =>
          rw [if_neg (by decide), List.append_nil] at h1
          subst h1
          exact absurd (h2 rfl) (by decide)
        | true =>
          have := congrArg List.getLast? h1
          rw [if_pos rfl, List.getLast?_append] at this
          exact absurd (show some '*' = some '.' from this) (by decide)
      · have := congrArg List.length h1
        cases star <;> simp at this h4 <;> omega
    cases h with
    | star lit v _ hc _ => exact (hpat _ _ _ hc.matches_).elim
    | folder lit v _ hc _ => exact (hpat _ _ _ hc.matches_).elim
    | none h _ _ => exact (h _ ⟨List.mem_cons_self .., by decide, by decide⟩).elim
    | exact v hk hm =>
      obtain ⟨h1, -, -⟩ := hk
      simp only [exportsPk, List.mem_cons, Prod.mk.injEq, List.not_mem_nil, or_false] at h1
      rcases h1 with ⟨-, rfl⟩ | ⟨h1, -⟩
      · obtain ⟨g, hg, -, ho⟩ := hm
        have hx : ∀ s s' : Str, '*' ∉ s → ¬ BadTarget .exports s → s.getLast? ≠ some '/' → g s = .ok s' → s' = s := by
          intro s s' h1 h2 h3 h4
          have h5 := subst_det (hg s h1) (.exact h2 h3)
          rw [h4] at h5
          exact Option.some.inj h5
        have hd : ∀ s a, Outputs (· ∈ names) g (.direct s) (.ok a) → ∃ s', g s = .ok s' ∧ a = [s'] := by
          intro s a h
          cases h with
          | direct h => exact ⟨_, h, rfl⟩
        cases ho with
        | cons h1 h2 =>
          obtain ⟨s1, h3, rfl⟩ := hd _ _ h1
          cases h2 with
          | cons h4 h5 =>
            obtain ⟨s2, h6, rfl⟩ := hd _ _ h4
            cases h5
            have e1 := hx _ _ (by decide) (by unfold BadTarget; decide) (by decide) h3
            have e2 := hx _ _ (by decide) (by unfold BadTarget; decide) (by decide) h6
            subst e1 e2
            simpa using ht
      · cases h1
  rcases key with rfl | rfl <;> decide +kernel

-- query and fragment are a part of what is looked up
example : Subpath cs!"?raw" [] cs!"/a" cs!"./a?raw" := .sub (req := cs!"a") (by decide) (by decide)
example : Subpath cs!"?raw" cs!"#f" [] cs!"./?raw#f" := .mainQuery (by decide) (by decide)

/-- `/node_modules/m` with exports `.`: `./lib`, and files `lib` and `lib.js`. -/
def treeEnforce : Tree :=
  .dir [(cs!"node_modules", .dir [(cs!"m", .dir [
    (cs!"package.json", jsonFile (.obj [(cs!"exports", .obj [(cs!".", .str cs!"./lib")])])),
    (cs!"lib", textFile), (cs!"lib.js", textFile)])])]

/-- C26 does not hold with enforced extensions: a target that exists is given an extension. -/
theorem C26_extension_violated :
    (resolve (treeEnv { optsA with enforceExtension := some true } treeEnforce) 10 cs!"/"
      cs!"m").freshInfo.map (·.path) = some cs!"/node_modules/m/lib.js" := by
  decide +kernel

-- the hypothesis of `C26_enforced_partial` on files holds here
example : (treeFs treeEnforce []).isFile cs!"/node_modules/m/lib" = true ∧
    (treeFs treeEnforce []).isFile (cs!"/node_modules/m/lib" ++ cs!".js") = true := by decide +kernel

/-- `/p/node_modules/m` with exports `.`: `./lib`, which is a file, and `/node_modules/m` with an `index.js`. -/
def treeEnforceOuter : Tree :=
  .dir [(cs!"p", .dir [(cs!"node_modules", .dir [(cs!"m", .dir [
      (cs!"package.json", jsonFile (.obj [(cs!"exports", .obj [(cs!".", .str cs!"./lib")])])),
      (cs!"lib", textFile)])])]),
    (cs!"node_modules", .dir [(cs!"m", .dir [(cs!"index.js", textFile)])])]

/-- C26 does not hold with enforced extensions in a further way: if the target exists and has no sibling with an
extension, a package of the same name further up is taken, which the exports say nothing about. -/
theorem C26_outer_violated :
    (resolve (treeEnv { optsA with enforceExtension := some true } treeEnforceOuter) 10 cs!"/p"
      cs!"m").freshInfo.map (·.path) = some cs!"/node_modules/m/index.js" := by
  decide +kernel

/-- `/node_modules/m` with exports `.`: `#x` and imports, and files `#x` and `y.js`. -/
def treeHashExport : Tree :=
  .dir [(cs!"node_modules", .dir [(cs!"m", .dir [
    (cs!"package.json", jsonFile (.obj [(cs!"exports", .obj [(cs!".", .str cs!"#x")]),
      (cs!"imports", .obj [(cs!"#x", .str cs!"./y.js")])])),
    (cs!"#x", textFile), (cs!"y.js", textFile)])])]

/-- C26 does not hold for a target that starts with `#`: it is looked up in imports. -/
theorem C26_hash_violated :
    (resolve (treeEnv optsA treeHashExport) 10 cs!"/" cs!"m").freshInfo.map (·.path) =
      some cs!"/node_modules/m/y.js" := by
  decide +kernel

/-! ## C30, C31 -/

/-- A request that is a path to a directory. -/
structure DirRequest (o : Opts) (fs : Fs) (path request x : Str) (pkg : Option Pkg) : Prop where
  plain : Plain o path (parseRequest request).target
  abs : isAbs path = true
  kind : IsPath (parseRequest request).target
  at_ : targetPath path (parseRequest request).target = x
  notFile : ∀ p ∈ fileCandidates o x, fs.isFile p = false
  isDir : fs.isDir x = true
  loads : Loads o fs x (.ok pkg)
  notCovered : NotCovered o pkg x

theorem dirRequest_yields (hs : Static cfg ser fs) {x : Str} {g : Got} {pkg : Option Pkg}
    (hr : DirRequest (cfg rid).opts fs path request x pkg)
    (h : DirOut (cfg rid).opts fs (Loads (cfg rid).opts fs) x (some g)) :
    HitYields cfg ser fs rid path request
      (some (g.hit (parseRequest request).query (parseRequest request).fragment)) := by
  have := hr.at_
  subst this
  exact path_yields hs hr.plain hr.abs hr.kind (.here hr.loads hr.notCovered (.dir hr.notFile hr.isDir h))

/-- A main field of a package in `dir` that leads nowhere: no file, and no directory, or one with a
description file that cannot be loaded. (A `browser` entry may put another path in its place.) -/
def Nowhere (o : Opts) (fs : Fs) (pkg : Pkg) (dir v : Str) : Prop :=
  v ≠ cs!"." ∧ v ≠ cs!"./" ∧ ∃ y, Swap o (some pkg) (fieldPath dir v) (some y) ∧
    (∀ p ∈ fileCandidates o y, fs.isFile p = false) ∧
    (fs.isDir y = false ∨ fs.isDir y = true ∧ ∃ e, Loads o fs y (.error e))

theorem fieldsOut_skip {o : Opts} {pkg : Pkg} {dir : Str} {a b : List Str} {r : Option Got}
    (ha : ∀ v ∈ a, Nowhere o fs pkg dir v) (h : FieldsOut o fs (Loads o fs) pkg dir b r) :
    FieldsOut o fs (Loads o fs) pkg dir (a ++ b) r := by
  induction a with
  | nil => exact h
  | cons v a ih =>
    have ih := ih fun u hu => ha u (List.mem_cons_of_mem _ hu)
    obtain ⟨h1, h2, y, h0, h3, h4⟩ := ha v (List.mem_cons_self ..)
    rcases h4 with h4 | ⟨h4, e, h5⟩
    · exact .missing h1 h2 h0 h3 h4 ih
    · exact .broken h1 h2 h0 h3 h4 h5 ih

/-- What a main field of a package in `dir` leads to: the first candidate that is a file, or what the
directory it names resolves to; or "ignored". (A `browser` entry may put another path in its place.) -/
inductive LeadsTo (o : Opts) (fs : Fs) (pkg : Pkg) (dir v : Str) : Got → Prop where
  | found {y : Str} {g : Got} : Swap o (some pkg) (fieldPath dir v) (some y) →
      AtPath o fs (Loads o fs) y (.got g) → LeadsTo o fs pkg dir v g
  | dropped : Swap o (some pkg) (fieldPath dir v) none → LeadsTo o fs pkg dir v .ignored

/-- C30: a directory with its own description file resolves through the first main field that leads
to something, all of them seen from this directory. Partial: not if an earlier main field names a
directory that does not resolve (`C30_order_violated`), or the directory itself. -/
theorem C30_order_partial (hs : Static cfg ser fs) {x v : Str} {g : Got} {a b : List Str} {pkg : Pkg}
    (hr : DirRequest (cfg rid).opts fs path request x (some pkg)) (hown : comps x = comps pkg.absDir)
    (hv : mainValues (cfg rid).opts pkg = a ++ v :: b)
    (ha : ∀ u ∈ a, Nowhere (cfg rid).opts fs pkg x u) (hne : v ≠ cs!"." ∧ v ≠ cs!"./")
    (hp : LeadsTo (cfg rid).opts fs pkg x v g) :
    HitYields cfg ser fs rid path request
      (some (g.hit (parseRequest request).query (parseRequest request).fragment)) := by
  refine dirRequest_yields hs hr (.field hr.loads hown ?_)
  rw [hv]
  refine fieldsOut_skip ha ?_
  cases hp with
  | found h1 h2 =>
    cases h2 with
    | file h2 => exact .file hne.1 hne.2 h1 h2
    | dir h2 h3 h4 => exact .dir hne.1 hne.2 h1 h2 h3 h4
  | dropped h => exact .dropped hne.1 hne.2 h

/-- No main field counts: no package, the package of another directory, or all main fields lead
nowhere (the last one may also name a directory that does not resolve). -/
inductive NoMain (o : Opts) (fs : Fs) (x : Str) : Option Pkg → Prop where
  | noPkg : NoMain o fs x none
  | otherPkg {pkg : Pkg} : comps x ≠ comps pkg.absDir → NoMain o fs x (some pkg)
  | nowhere {pkg : Pkg} : comps x = comps pkg.absDir →
      (∀ v ∈ mainValues o pkg, Nowhere o fs pkg x v) → NoMain o fs x (some pkg)
  | self {pkg : Pkg} {a b : List Str} {v : Str} :
      comps x = comps pkg.absDir → mainValues o pkg = a ++ v :: b → (∀ v ∈ a, Nowhere o fs pkg x v) →
      v = cs!"." ∨ v = cs!"./" → NoMain o fs x (some pkg)
  | dead {pkg : Pkg} {a : List Str} {v y : Str} :
      comps x = comps pkg.absDir → mainValues o pkg = a ++ [v] → (∀ v ∈ a, Nowhere o fs pkg x v) →
      v ≠ cs!"." → v ≠ cs!"./" → Swap o (some pkg) (fieldPath x v) (some y) →
      (∀ p ∈ fileCandidates o y, fs.isFile p = false) →
      fs.isDir y = true → DirOut o fs (Loads o fs) y none → NoMain o fs x (some pkg)

theorem noMain_dirOut {o : Opts} {x : Str} {pkg : Option Pkg} {r : Option Got} (h : NoMain o fs x pkg)
    (hl : Loads o fs x (.ok pkg)) (hf : FilesOut o fs pkg x o.mainFiles r) :
    DirOut o fs (Loads o fs) x r := by
  cases h with
  | noPkg => exact .noPkg hl hf
  | otherPkg hne => exact .otherPkg hl hne hf
  | nowhere hown hv =>
    refine .noField hl hown ?_ hf
    have := fieldsOut_skip (b := []) hv .nil
    rwa [List.append_nil] at this
  | self hown hv ha hself =>
    refine .noField hl hown ?_ hf
    rw [hv]
    exact fieldsOut_skip ha (.self hself)
  | dead hown hv ha h1 h2 h0 h3 h4 h5 =>
    refine .noField hl hown ?_ hf
    rw [hv]
    exact fieldsOut_skip ha (.dead h1 h2 h0 h3 h4 h5)

/-- A main file that is not there. (A `browser` entry of the directory's own package may put another
path in its place.) -/
inductive NoFile (o : Opts) (fs : Fs) (pkg : Option Pkg) (dir m : Str) : Prop where
  | missing : NotCovered o pkg (pjoin dir (cs!"./" ++ m)) →
      (∀ p ∈ fileCandidates o (pjoin dir (cs!"./" ++ m)), fs.isFile p = false) → NoFile o fs pkg dir m
  | replaced {p : Pkg} {t : Str} : pkg = some p → comps dir = comps p.absDir →
      Replaced o p (pjoin dir (cs!"./" ++ m)) (.target t) →
      (∀ q ∈ fileCandidates o (targetPath p.absDir t), fs.isFile q = false) → NoFile o fs pkg dir m

theorem filesOut_skip {o : Opts} {pkg : Option Pkg} {dir : Str} {a b : List Str} {r : Option Got}
    (ha : ∀ m ∈ a, NoFile o fs pkg dir m) (h : FilesOut o fs pkg dir b r) :
    FilesOut o fs pkg dir (a ++ b) r := by
  induction a with
  | nil => exact h
  | cons m a ih =>
    have ih := ih fun u hu => ha u (List.mem_cons_of_mem _ hu)
    cases ha m (List.mem_cons_self ..) with
    | missing h1 h2 => exact .next h1 h2 ih
    | replaced h1 h2 h3 h4 => exact .gone h1 h3 h4 (.inr h2) ih

/-- What a main file of a directory leads to: the first candidate that is a file, or "ignored". (A
`browser` entry may put another path in its place.) -/
inductive FileLeadsTo (o : Opts) (fs : Fs) (pkg : Option Pkg) (dir m : Str) : Got → Prop where
  | file {y p : Str} : Swap o pkg (pjoin dir (cs!"./" ++ m)) (some y) →
      FirstIn (fun p => fs.isFile p = true) (fileCandidates o y) p → FileLeadsTo o fs pkg dir m (.file p)
  | dropped : Swap o pkg (pjoin dir (cs!"./" ++ m)) none → FileLeadsTo o fs pkg dir m .ignored

/-- C31: if no main field leads to a file, a directory resolves to the first main file that resolves as
a file in it. Partial: not if a main field but the last names a directory that does not resolve
(`C31_order_violated`), and not after a main file that the `browser` map of another directory's package
replaces by something that is not there (`C31_browser_violated`). -/
theorem C31_order_partial (hs : Static cfg ser fs) {x m : Str} {g : Got} {a b : List Str}
    {pkg : Option Pkg} (hr : DirRequest (cfg rid).opts fs path request x pkg)
    (hm : NoMain (cfg rid).opts fs x pkg) (hl : (cfg rid).opts.mainFiles = a ++ m :: b)
    (ha : ∀ u ∈ a, NoFile (cfg rid).opts fs pkg x u) (hp : FileLeadsTo (cfg rid).opts fs pkg x m g) :
    HitYields cfg ser fs rid path request
      (some (g.hit (parseRequest request).query (parseRequest request).fragment)) := by
  refine dirRequest_yields hs hr (noMain_dirOut hm hr.loads ?_)
  rw [hl]
  refine filesOut_skip ha ?_
  cases hp with
  | file h1 h2 => exact .file h1 h2
  | dropped h => exact .dropped h

-- `/p/d`: the first main field leads nowhere, the second to a directory with a main file
example : ∃ pkg, DirRequest (cfgPk 0).opts (treeFs treePk []) cs!"/p" cs!"./d" cs!"/p/./d" (some pkg) ∧
      comps cs!"/p/./d" = comps pkg.absDir ∧
      mainValues (cfgPk 0).opts pkg = [cs!"./gone"] ++ cs!"lib" :: [] ∧
      Nowhere (cfgPk 0).opts (treeFs treePk []) pkg cs!"/p/./d" cs!"./gone" ∧
      LeadsTo (cfgPk 0).opts (treeFs treePk []) pkg cs!"/p/./d" cs!"lib"
        (.file cs!"/p/./d/./lib/./index.js") := by
  have hg : (pkgAt (cfgPk 0).opts (treeFs treePk []) cs!"/p/./d").isSome = true := by decide +kernel
  have hg' : (pkgAt (cfgPk 0).opts (treeFs treePk []) cs!"/p/./d/./lib").isSome = true := by
    decide +kernel
  refine ⟨(pkgAt _ _ _).get hg, ⟨⟨rfl, .inr nofun, .inl rfl⟩, rfl, .inl (by decide), by decide,
    by decide +kernel, by decide +kernel, loads_get hg, nofun⟩, ?_, ?_, ⟨by decide, by decide, _,
    .keep nofun, by decide +kernel, .inl (by decide +kernel)⟩, .found (.keep nofun) (.dir (by decide +kernel)
      (by decide +kernel) (.otherPkg (loads_get hg') ?_ (.file (.keep nofun) ⟨[cs!"/p/./d/./lib/./index"],
        [cs!"/p/./d/./lib/./index.json", cs!"/p/./d/./lib/./index.node"], by decide +kernel,
        by decide +kernel, by decide +kernel⟩)))⟩
  · have : ((pkgAt (cfgPk 0).opts (treeFs treePk []) cs!"/p/./d").map fun p => comps p.absDir) =
        some (comps cs!"/p/./d") := by decide +kernel
    rw [← Option.some_get hg] at this
    exact (Option.some.inj this).symm
  · have : ((pkgAt (cfgPk 0).opts (treeFs treePk []) cs!"/p/./d").map (mainValues (cfgPk 0).opts)) =
        some [cs!"./gone", cs!"lib"] := by decide +kernel
    rw [← Option.some_get hg] at this
    exact Option.some.inj this
  · have : ((pkgAt (cfgPk 0).opts (treeFs treePk []) cs!"/p/./d/./lib").map fun p => comps p.absDir) =
        some (comps cs!"/p/d") := by decide +kernel
    rw [← Option.some_get hg'] at this
    rw [show comps _ = _ from Option.some.inj this]
    decide

-- `/p/e` has no package of its own
example : ∃ pkg, DirRequest (cfgPk 0).opts (treeFs treePk []) cs!"/p" cs!"./e" cs!"/p/./e" pkg ∧
    NoMain (cfgPk 0).opts (treeFs treePk []) cs!"/p/./e" pkg ∧
    (cfgPk 0).opts.mainFiles = [] ++ cs!"index" :: [] ∧
    FileLeadsTo (cfgPk 0).opts (treeFs treePk []) pkg cs!"/p/./e" cs!"index"
      (.file cs!"/p/./e/./index.json") := by
  have hg : (pkgAt (cfgPk 0).opts (treeFs treePk []) cs!"/p/./e").isSome = true := by decide +kernel
  refine ⟨some ((pkgAt _ _ _).get hg), ⟨⟨rfl, .inr nofun, .inl rfl⟩, rfl, .inl (by decide), by decide,
    by decide +kernel, by decide +kernel, loads_get hg, nofun⟩, .otherPkg ?_, rfl, .file (.keep nofun)
      ⟨[cs!"/p/./e/./index", cs!"/p/./e/./index.js"],
      [cs!"/p/./e/./index.node"], by decide +kernel, by decide +kernel, by decide +kernel⟩⟩
  have : ((pkgAt (cfgPk 0).opts (treeFs treePk []) cs!"/p/./e").map fun p => comps p.absDir) =
      some (comps cs!"/p") := by decide +kernel
  rw [← Option.some_get hg] at this
  rw [show comps _ = _ from Option.some.inj this]
  decide

/-- `/d` with main fields `./lib`, a directory without main file, and `./x.js`. -/
def treeDeadMain : Tree :=
  .dir [(cs!"d", .dir [
    (cs!"package.json", jsonFile (.obj [(cs!"main", .str cs!"./lib"), (cs!"module", .str cs!"./x.js")])),
    (cs!"x.js", textFile), (cs!"index.js", textFile),
    (cs!"lib", .dir [(cs!"x.js", textFile)])])]

/-- C30 does not hold: after a main field that names a directory which does not resolve, the others are
seen from that directory. -/
theorem C30_order_violated :
    (resolve (treeEnv optsPk treeDeadMain) 10 cs!"/" cs!"./d").freshInfo.map (·.path) =
      some cs!"/d/lib/x.js" := by
  decide +kernel

/-- `/d` with main fields `./lib`, a directory without main file, and `./x.js`, which does not exist. -/
def treeDeadMain2 : Tree :=
  .dir [(cs!"d", .dir [
    (cs!"package.json", jsonFile (.obj [(cs!"main", .str cs!"./lib"), (cs!"module", .str cs!"./x.js")])),
    (cs!"index.js", textFile), (cs!"lib", .dir [(cs!"x.js", textFile)])])]

/-- C31 does not hold: no main field leads to a file, but the main file of the directory is not
returned. -/
theorem C31_order_violated :
    (treeFs treeDeadMain2 []).isFile cs!"/d/index.js" = true ∧
    (resolve (treeEnv optsPk treeDeadMain2) 10 cs!"/" cs!"./d").freshInfo.map (·.path) =
      some cs!"/d/lib/x.js" := by
  decide +kernel

/-! ## C44 -/

/-- C44 does not hold: a path to a directory that has no main file always panics, in every state of
the caches. -/
theorem C44_directory_violated (hs : Static cfg ser fs) {x : Str} {pkg : Option Pkg}
    (hr : DirRequest (cfg rid).opts fs path request x pkg) (hm : NoMain (cfg rid).opts fs x pkg)
    (hp : ∀ u ∈ (cfg rid).opts.mainFiles, NoFile (cfg rid).opts fs pkg x u) :
    Panics cfg ser fs rid path request .resolveUnreachable := by
  have hd := noMain_dirOut hm hr.loads (r := none) (by
    have := filesOut_skip (b := []) hp .nil
    rwa [List.append_nil] at this)
  have := hr.at_
  subst this
  exact path_panics hs hr.plain hr.abs hr.kind hr.loads hr.notCovered hr.notFile hr.isDir hd

example : ∃ pkg, DirRequest (cfgPk 0).opts (treeFs treePk []) cs!"/p" cs!"./f" cs!"/p/./f" pkg ∧
    NoMain (cfgPk 0).opts (treeFs treePk []) cs!"/p/./f" pkg ∧
    ∀ u ∈ (cfgPk 0).opts.mainFiles, NoFile (cfgPk 0).opts (treeFs treePk []) pkg cs!"/p/./f" u := by
  have hg : (pkgAt (cfgPk 0).opts (treeFs treePk []) cs!"/p/./f").isSome = true := by decide +kernel
  refine ⟨some ((pkgAt _ _ _).get hg), ⟨⟨rfl, .inr nofun, .inl rfl⟩, rfl, .inl (by decide), by decide,
    by decide +kernel, by decide +kernel, loads_get hg, nofun⟩, .otherPkg ?_, ?_⟩
  · have : ((pkgAt (cfgPk 0).opts (treeFs treePk []) cs!"/p/./f").map fun p => comps p.absDir) =
        some (comps cs!"/p") := by decide +kernel
    rw [← Option.some_get hg] at this
    rw [show comps _ = _ from Option.some.inj this]
    decide
  · intro u hu
    replace hu : u ∈ [cs!"index"] := hu
    rw [List.mem_singleton] at hu
    subst hu
    exact .missing nofun (by decide +kernel)

end Verif
