import Verif.Proofs.Modules
import Verif.Proofs.Parse
import Verif.Spec.Examples
/-!
# Properties about the search through node_modules: C13, C14
-/

namespace Verif

/-- The stages of a bare request without description files are the search through
`node_modules`. -/
theorem resolve_bare_nopkg (e : Env) (n : Nat) (path request : Str)
    (hd : e.opts.descriptionFile = none) (ht : e.opts.tsconfig = none)
    (ha : ∀ kv ∈ e.opts.alias, ¬ kv.1 <+: (parseRequest request).target)
    (hp : e.opts.preferRelative = false)
    (hk : getTargetKind (parseRequest request).target = .normal) :
    resolve e (n + 2) path request =
      (resolveAsModules e.ctx (n + 1) ⟨path, parseRequest request⟩).bind
        (answer e.ctx ⟨path, parseRequest request⟩) := by
  rw [resolve_plain e (n + 1) path request ht (.inr ha) (.inl hp)]
  have hload : ∀ p, e.ctx.load p = .ret (.ok none) := loadPkg_none e hd
  have hk' : (parseRequest request).kind = .normal := hk
  unfold plainStages pkgStage lastStage
  simp only [hload, Prog.ret_bind, importsPlugin_none, Stats.andThen_resolving,
    aliasFieldPlugin_none, hk']

/-- C13: the directories that are searched are the path and what is left of it without its last
part, without its last two parts, and so on; an absolute path ends at the root. -/
theorem C13_dirs {path : Str} {dirs : List Str} (h : Ancestors path dirs) :
    dirs.length = (comps path).length + (if isAbs path then 0 else 1) ∧
    ∀ i d, dirs[i]? = some d → comps d = (comps path).take ((comps path).length - i) := by
  induction h with
  | @top d hd =>
    have hi : ∀ i x, ([d] : List Str)[i]? = some x → i = 0 ∧ x = d := by
      intro i x hx
      cases i with
      | zero => cases hx; exact ⟨rfl, rfl⟩
      | succ i => cases hx
    refine ⟨?_, fun i x hx => ?_⟩
    · rcases (pparent_eq_none d).1 hd with hc | hc
      · have : isAbs d = false := by
          cases ha : isAbs d with
          | false => rfl
          | true =>
            have hr := (isAbs_iff_comps d).1 ha
            rw [hc] at hr
            cases hr
        simp [hc, this]
      · have : isAbs d = true := (isAbs_iff_comps d).2 (by simp [hc])
        simp [hc, this]
    · obtain ⟨rfl, rfl⟩ := hi i x hx
      simp
  | @up d d' l hp _ ih =>
    have hc := comps_pparent hp
    have hl : (comps d).length = (comps d').length + 1 := by
      have : comps d ≠ [] := by
        intro h0
        rw [(pparent_eq_none d).2 (.inl h0)] at hp
        cases hp
      rw [hc, List.length_dropLast]
      have := List.length_pos_iff.2 this
      omega
    refine ⟨?_, fun i x hx => ?_⟩
    · rw [List.length_cons, ih.1, hl, isAbs_pparent hp]
      omega
    · cases i with
      | zero => cases hx; simp
      | succ i =>
        rw [ih.2 i x hx, hc, List.length_dropLast, List.dropLast_eq_take, List.take_take]
        congr 1
        omega

/-- C13: without description files a bare request resolves to the first file among the candidates
of the nearest `node_modules`, then of the next one, and so on. Missing: if the target is a
directory without main file on the way, the search goes wrong (`C13_nearest_violated`); a path in a
package whose name has characters beyond ASCII (`C13_name_violated`). -/
theorem C13_nearest_partial (e : Env) (n : Nat) (path request name : Str) (dirs : List Str)
    (hd : e.opts.descriptionFile = none) (ht : e.opts.tsconfig = none)
    (ha : ∀ kv ∈ e.opts.alias, ¬ kv.1 <+: (parseRequest request).target)
    (hp : e.opts.preferRelative = false) (hs : e.opts.symlinks = false)
    (hk : getTargetKind (parseRequest request).target = .normal)
    (hname : PackageName (parseRequest request).target name)
    (hascii : AsciiStr name ∨ (parseRequest request).target = name)
    (hdirs : Ancestors path dirs) (hn : dirs.length + 3 ≤ n)
    (hdead : ∀ a d b, dirs = a ++ d :: b →
      (∀ x ∈ a, ∀ p ∈ moduleCandidates e.opts e.fs name (parseRequest request).target x,
        e.fs.isFile p = false) →
      NoDeadDir e.opts e.fs name (parseRequest request).target d)
    (p : Str) (hf : FirstIn (fun p => e.fs.isFile p = true)
      (dirs.flatMap (moduleCandidates e.opts e.fs name (parseRequest request).target)) p) :
    resolve e n path request = .ret (.ok (.info ⟨normalizeLex p,
      ⟨[], (parseRequest request).query, (parseRequest request).fragment, .relative⟩⟩)) := by
  obtain ⟨m, rfl⟩ : ∃ m, n = m + 2 := ⟨n - 2, by omega⟩
  rw [resolve_bare_nopkg e m path request hd ht ha hp hk]
  have hload : ∀ p, e.ctx.load p = .ret (.ok none) := loadPkg_none e hd
  rw [(resolveAsModules_nopkg hload (parseRequest request) name hk (targetPath_bare hk)
    (moduleName_spec hascii hname) hdirs (m + 1) (by omega) hdead).1 p hf]
  simp only [Prog.ret_bind, answer, normalizeResult, Request.withTarget, normalizePath,
    show e.ctx.opts.symlinks = false from hs]
  simp [Info.withPath, getTargetKind]

/-- C14: without description files a bare request fails only if there is no file among the
candidates of any ancestor. Missing: as for `C13_nearest_partial` (`C14_exhaustive_violated`). -/
theorem C14_exhaustive_partial (e : Env) (n : Nat) (path request name : Str) (dirs : List Str)
    (hd : e.opts.descriptionFile = none) (ht : e.opts.tsconfig = none)
    (ha : ∀ kv ∈ e.opts.alias, ¬ kv.1 <+: (parseRequest request).target)
    (hp : e.opts.preferRelative = false)
    (hk : getTargetKind (parseRequest request).target = .normal)
    (hname : PackageName (parseRequest request).target name)
    (hascii : AsciiStr name ∨ (parseRequest request).target = name)
    (hdirs : Ancestors path dirs) (hn : dirs.length + 3 ≤ n)
    (hdead : ∀ a d b, dirs = a ++ d :: b →
      (∀ x ∈ a, ∀ p ∈ moduleCandidates e.opts e.fs name (parseRequest request).target x,
        e.fs.isFile p = false) →
      NoDeadDir e.opts e.fs name (parseRequest request).target d) :
    resolve e n path request = .ret (.error (.failed request path)) ↔
      ∀ d ∈ dirs, ∀ p ∈ moduleCandidates e.opts e.fs name (parseRequest request).target d,
        e.fs.isFile p = false := by
  obtain ⟨m, rfl⟩ : ∃ m, n = m + 2 := ⟨n - 2, by omega⟩
  rw [resolve_bare_nopkg e m path request hd ht ha hp hk]
  have hload : ∀ p, e.ctx.load p = .ret (.ok none) := loadPkg_none e hd
  have hmods := resolveAsModules_nopkg hload (parseRequest request) name hk (targetPath_bare hk)
    (moduleName_spec hascii hname) hdirs (m + 1) (by omega) hdead
  have hdisp : (parseRequest request).display = request := (parse_isSplit request).concat.symm
  constructor
  · intro h d hd p hp
    rcases firstIn_or_none (fun p => e.fs.isFile p = true)
      (dirs.flatMap (moduleCandidates e.opts e.fs name (parseRequest request).target)) with
      ⟨q, hq⟩ | hnone
    · rw [hmods.1 q hq] at h
      simp only [Prog.ret_bind, answer, normalizeResult, Request.withTarget] at h
      simp only [not_true_eq_false, decide_false, Bool.and_false, ne_eq,
        Bool.false_eq_true, if_false] at h
      cases hnorm : normalizePath e.ctx q with
      | error err =>
        rw [hnorm] at h
        unfold normalizePath at hnorm
        split at hnorm
        · cases hc : e.ctx.fs.canon q with
          | none =>
            rw [hc] at hnorm
            injection hnorm with hnorm
            subst hnorm
            simp at h
          | some _ => rw [hc] at hnorm; cases hnorm
        · cases hnorm
      | ok q' =>
        rw [hnorm] at h
        simp at h
    · have := hnone p (List.mem_flatMap.2 ⟨d, hd, hp⟩)
      simpa using this
  · intro h
    obtain ⟨i, hi⟩ := hmods.2 fun p hp => by
      obtain ⟨d, hd, hp⟩ := List.mem_flatMap.1 hp
      exact h d hd p hp
    rw [hi]
    simp [answer, Err.isTag, failedMessage, hdisp]

/-- `/a/b/node_modules/m/` (empty), `/a/node_modules/m/index.js`, `/node_modules/index.js`,
`/node_modules/n.js`, `/node_modules/@s/m/lib/x.js`. -/
def treeDead : Tree :=
  .dir [(cs!"a", .dir [
      (cs!"b", .dir [(cs!"node_modules", .dir [(cs!"m", .dir [])])]),
      (cs!"node_modules", .dir [(cs!"m", .dir [(cs!"index.js", textFile)])])]),
    (cs!"node_modules", .dir [(cs!"index.js", textFile), (cs!"n.js", textFile),
      (cs!"@s", .dir [(cs!"m", .dir [(cs!"lib", .dir [(cs!"x.js", textFile)])])])])]

/-- No description files. -/
def optsBare : Opts := { optsA with descriptionFile := none }

-- the hypotheses are met: from `/a` for `m` and `n`, from `/a/b` for `@s/m/lib/x`
theorem treeDead_ancestors : Ancestors cs!"/a/b" [cs!"/a/b", cs!"/a", cs!"/"] :=
  .up (by decide) (.up (by decide) (.top (by decide)))

theorem treeDead_name : PackageName (parseRequest cs!"@s/m/lib/x").target cs!"@s/m" :=
  .inScope (a := cs!"@s") (b := cs!"m") (rest := cs!"/lib/x") (by decide) (by decide) (by decide)
    (.inr (by decide))

example : resolve (treeEnv optsBare treeDead) 6 cs!"/a/b" cs!"@s/m/lib/x" =
    .ret (.ok (.info ⟨cs!"/node_modules/@s/m/lib/x.js", ⟨[], [], [], .relative⟩⟩)) := by
  refine C13_nearest_partial (treeEnv optsBare treeDead) 6 cs!"/a/b" cs!"@s/m/lib/x" cs!"@s/m" _
    rfl rfl (by decide) rfl rfl (by decide) treeDead_name (by decide) treeDead_ancestors
    (by decide) ?_ cs!"/node_modules/./@s/m/lib/x.js" ?_
  · intro a d b hd _
    have : d ∈ [cs!"/a/b", cs!"/a", cs!"/"] := by rw [hd]; simp
    simp only [List.mem_cons, List.not_mem_nil, or_false] at this
    intro h1 h2 h3
    rcases this with rfl | rfl | rfl
    · exact absurd h2 (by decide +kernel)
    · exact absurd h2 (by decide +kernel)
    · exact absurd h3 (by decide +kernel)
  · exact ⟨[cs!"/a/b/node_modules/@s/m/lib/x", cs!"/a/b/node_modules/@s/m/lib/x.js",
      cs!"/a/b/node_modules/@s/m/lib/x.json", cs!"/a/b/node_modules/@s/m/lib/x.node",
      cs!"/a/node_modules/@s/m/lib/x", cs!"/a/node_modules/@s/m/lib/x.js",
      cs!"/a/node_modules/@s/m/lib/x.json", cs!"/a/node_modules/@s/m/lib/x.node",
      cs!"/node_modules/./@s/m/lib/x"],
      [cs!"/node_modules/./@s/m/lib/x.json", cs!"/node_modules/./@s/m/lib/x.node"],
      by decide +kernel, by decide +kernel, by decide +kernel⟩

-- the hypotheses of `C14_exhaustive_partial` are met: from `/a` for `z`
example : resolve (treeEnv optsBare treeDead) 5 cs!"/a" cs!"z" =
    .ret (.error (.failed cs!"z" cs!"/a")) := by
  refine (C14_exhaustive_partial (treeEnv optsBare treeDead) 5 cs!"/a" cs!"z" cs!"z"
    [cs!"/a", cs!"/"] rfl rfl (by decide) rfl (by decide)
    (.plain (name := cs!"z") (rest := []) (by decide) (by decide) (.inl rfl)) (by decide)
    (.up (by decide) (.top (by decide))) (by decide) ?_).2 (by decide +kernel)
  intro a d b hd _
  have : d ∈ [cs!"/a", cs!"/"] := by rw [hd]; simp
  simp only [List.mem_cons, List.not_mem_nil, or_false] at this
  intro h1 h2 h3
  rcases this with rfl | rfl
  · exact absurd h2 (by decide +kernel)
  · exact absurd h2 (by decide +kernel)

/-- C13 does not hold if a nearer package is a directory without main file: the search goes on
with an empty target. From `/a/b` the request `m` gives a file of the root directory's
`node_modules` that is no candidate at all, although `/a/node_modules/m/index.js` exists. -/
theorem C13_nearest_violated :
    FirstIn (fun p => (treeEnv optsBare treeDead).fs.isFile p = true)
      ([cs!"/a/b", cs!"/a", cs!"/"].flatMap (moduleCandidates (treeEnv optsBare treeDead).opts
        (treeEnv optsBare treeDead).fs cs!"m" cs!"m")) cs!"/a/node_modules/./m/./index.js" ∧
    ((resolve (treeEnv optsBare treeDead) 9 cs!"/a/b" cs!"m").freshInfo.map (·.path)) =
      some cs!"/node_modules/index.js" :=
  ⟨⟨([cs!"/a/b", cs!"/a", cs!"/"].flatMap (moduleCandidates (treeEnv optsBare treeDead).opts
        (treeEnv optsBare treeDead).fs cs!"m" cs!"m")).take 13,
    ([cs!"/a/b", cs!"/a", cs!"/"].flatMap (moduleCandidates (treeEnv optsBare treeDead).opts
        (treeEnv optsBare treeDead).fs cs!"m" cs!"m")).drop 14,
    by decide +kernel, by decide +kernel, by decide +kernel⟩, by decide +kernel⟩

/-- `/node_modules/éa/d/index.js`. -/
def treeAccented : Tree :=
  .dir [(cs!"node_modules", .dir [(cs!"éa", .dir [(cs!"d", .dir [(cs!"index.js", textFile)])])])]

/-- C13 does not hold for paths in packages whose names are not ASCII: `é/` would be cut in the middle of
a character, and of `éa/d` the code takes `é` to be the package (src/resolve.rs:51-64: positions are counted
in characters and used as bytes). So the request fails though there is a candidate. (The file itself is found: if
there is no such package, the request may name a file.) -/
theorem C13_name_violated :
    FirstIn (fun p => (treeEnv optsBare treeAccented).fs.isFile p = true)
      ([cs!"/"].flatMap (moduleCandidates (treeEnv optsBare treeAccented).opts
        (treeEnv optsBare treeAccented).fs cs!"éa" cs!"éa/d")) cs!"/node_modules/./éa/d/./index.js" ∧
    resolve (treeEnv optsBare treeAccented) 9 cs!"/" cs!"éa/d" =
      .ret (.error (.failed cs!"éa/d" cs!"/")) ∧
    ((resolve (treeEnv optsBare treeAccented) 9 cs!"/" cs!"éa/d/index.js").freshInfo.map (·.path)) =
      some cs!"/node_modules/éa/d/index.js" :=
  ⟨⟨([cs!"/"].flatMap (moduleCandidates (treeEnv optsBare treeAccented).opts
        (treeEnv optsBare treeAccented).fs cs!"éa" cs!"éa/d")).take 5,
    ([cs!"/"].flatMap (moduleCandidates (treeEnv optsBare treeAccented).opts
        (treeEnv optsBare treeAccented).fs cs!"éa" cs!"éa/d")).drop 6,
    by decide +kernel, by decide +kernel, by decide +kernel⟩, by rfl, by decide +kernel⟩

/-- `/a/node_modules/m/` (empty) and `/node_modules/m/index.js`. -/
def treeDead2 : Tree :=
  .dir [(cs!"a", .dir [(cs!"node_modules", .dir [(cs!"m", .dir [])])]),
    (cs!"node_modules", .dir [(cs!"m", .dir [(cs!"index.js", textFile)])])]

/-- C14 does not hold for the same reason: the request fails though a candidate exists. -/
theorem C14_exhaustive_violated :
    cs!"/node_modules/./m/./index.js" ∈ moduleCandidates (treeEnv optsBare treeDead2).opts
      (treeEnv optsBare treeDead2).fs cs!"m" cs!"m" cs!"/" ∧
    (treeEnv optsBare treeDead2).fs.isFile cs!"/node_modules/./m/./index.js" = true ∧
    resolve (treeEnv optsBare treeDead2) 9 cs!"/a" cs!"m" =
      .ret (.error (.failed cs!"m" cs!"/a")) := by
  refine ⟨by decide +kernel, by decide +kernel, ?_⟩
  rfl

end Verif
