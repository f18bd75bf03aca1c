import Verif.Proofs.LinkFs
import Verif.Props.Base
/-!
# Properties about symbolic links: C60
-/

namespace Verif

variable {cfg : Nat → Config} {ser : Json → Str} {fs : Fs}

/-- Absolute base paths and tsconfig paths. -/
def AbsStarts (cfg : Nat → Config) (l : List Event) : Prop :=
  ∀ e ∈ l, ∀ rid p r n, e = .start rid (.resolve p r) n →
    isAbs p = true ∧ ∀ loc, (cfg rid).opts.tsconfig = some loc → isAbs loc = true

/-- C60 with symlinks on: the path returned is that of a regular file, names the file that was found
(at the path `p`), and no symbolic link is followed on the way: all locations above it are directories.
For all histories; `t.fs` are the files that the call ran on. -/
theorem C60_real (l : List Event) (t : Task) (ht : t ∈ ((Sys.init fs).after cfg ser l).tasks)
    (habs : AbsStarts cfg l) (tree : Links) (cwd : List Str) (hroot : tree.isDir = true)
    (hfs : t.fs = linkFs tree cwd) (path request : Str) (i : Info) (hc : t.call = .resolve path request)
    (hd : t.prog = .ret (.resolve (.ok (.info i)))) (hsym : (cfg t.rid).opts.symlinks = true) :
    ∃ p loc, tree.lookup cwd p = some loc ∧ tree.lookup cwd i.path = some loc ∧ i.path = absText loc ∧
      (∃ doc m, tree.at loc = some (.file doc m)) ∧
      ∀ a b, loc = a ++ b → b ≠ [] → ∃ es, tree.at a = some (.dir es) := by
  obtain ⟨j, hj, ha, -, hp⟩ := system_absOk ht habs hc hd
  have hf := hj.file
  rw [hfs] at hf hp
  rw [hsym, if_pos rfl] at hp
  cases hl : tree.lookup cwd j.path with
  | none => simp [linkFs, Links.node, hl] at hf
  | some loc =>
    have hr := Links.lookup_real hroot ha hl
    simp only [linkFs, hl, Option.map_some, Option.some.injEq] at hp
    simp only [linkFs, Links.node, hl] at hf
    refine ⟨j.path, loc, hl, by rw [← hp]; exact Links.lookup_absText hroot hr, hp.symm, ?_, ?_⟩
    · split at hf
      · rename_i doc m e; exact ⟨doc, m, e⟩
      · cases hf
    · rintro a b rfl hb
      obtain ⟨⟨u, hu, -⟩, -⟩ := hr
      exact Links.dirAt_iff.1 (Links.dir_of_at_append hu hb)

/-- C60 with symlinks off: the path returned is the normalisation of the path `p` of a regular file,
and names the same file if there is no `..` in `p`. Missing: `..`, which may come after a symbolic link
(`C60_link_violated`). Without links it does not matter (`C08_success_is_file_tree`). -/
theorem C60_lexical_partial (l : List Event) (t : Task) (ht : t ∈ ((Sys.init fs).after cfg ser l).tasks)
    (habs : AbsStarts cfg l) (tree : Links) (cwd : List Str)
    (hfs : t.fs = linkFs tree cwd) (path request : Str) (i : Info) (hc : t.call = .resolve path request)
    (hd : t.prog = .ret (.resolve (.ok (.info i)))) (hsym : (cfg t.rid).opts.symlinks = false) :
    ∃ p, (linkFs tree cwd).isFile p = true ∧ i.path = normalizeLex p ∧
      (Comp.up ∉ comps p → tree.lookup cwd i.path = tree.lookup cwd p) := by
  obtain ⟨j, hj, ha, -, hp⟩ := system_absOk ht habs hc hd
  have hf := hj.file
  rw [hfs] at hf hp
  rw [hsym, if_neg (by decide)] at hp
  refine ⟨j.path, hf, hp, fun hup => ?_⟩
  rw [hp]
  exact Links.lookup_normalizeLex ha hf hup

/-- `/p/l` is a link to `/q/d`; there are `/q/x.js` and `/q/d/y.js`, also as `/p/z.js`. -/
def linksA : Links :=
  .dir [
    (cs!"p", .dir [(cs!"l", .link cs!"../q/d"), (cs!"z.js", .link cs!"/p/l/y.js")]),
    (cs!"q", .dir [(cs!"x.js", .file none 0), (cs!"d", .dir [(cs!"y.js", .file none 0)])])]

/-- A resolver on a tree with links. -/
def linkEnv (o : Opts) (t : Links) : Env := ⟨o.new, linkFs t [], false, 1000000000, serJson⟩

/-- C60 does not hold with symlinks off: the file found is `/q/x.js`, but the path returned is `/p/x.js`,
which does not exist; so C59 does not hold either. -/
theorem C60_link_violated :
    ((resolve (linkEnv optsA linksA) 20 cs!"/p" cs!"./l/../x").freshInfo).map (·.path) = some cs!"/p/x.js" ∧
      linksA.lookup [] cs!"/p/l/../x.js" = some [cs!"q", cs!"x.js"] ∧
      linksA.lookup [] cs!"/p/x.js" = none ∧
      (resolve (linkEnv optsA linksA) 20 cs!"/p" cs!"/p/x.js").freshErr =
        some cs!"Resolve '/p/x.js' failed in '/p'" := by
  decide +kernel

/-- File systems with links meet the hypotheses of the theorems about caches. -/
theorem static_links {t : Links} {o : Opts} (ht : t.isDir = true) (hb : o.browserField = false)
    (hts : o.tsconfig = none)
    (hi : t.allDoc (fun d => match d.json with
      | none => true
      | some j => (j.get cs!"imports").isNone) = true) :
    Static (fun _ => config o 0) serJson (linkFs t []) where
  lawful := linkFs_lawful [] ht
  debug _ := rfl
  inj _ _ := serJson_inj
  mix v t' _ h _ := by
    obtain ⟨p, doc, json, hr, hj, hv⟩ := h
    have := allDocLinks_read hi hr
    simp only [hj, hv] at this
    cases this
  desc rid rid' d d' _ h h' := by rw [h] at h'; exact Option.some.inj h'
  browser rid desc h := by cases hb.symm.trans h
  tsconfig rid l h := by cases hts.symm.trans h

/-- With symlinks on, a file system with links meets the hypothesis of C59. -/
theorem finalFiles_links {o : Opts} {tree : Links} (cwd : List Str) (hroot : tree.isDir = true)
    (hsym : o.symlinks = true) : FinalFiles o (linkFs tree cwd) := by
  intro p q ha hf hq
  cases hq with
  | lexical h => rw [hsym] at h; cases h
  | canonical _ hc =>
    cases hl : tree.lookup cwd p with
    | none => simp [linkFs, hl] at hc
    | some loc =>
      have hr := Links.lookup_real hroot ha hl
      simp only [linkFs, hl, Option.map_some, Option.some.injEq] at hc
      subst hc
      have he := Links.lookup_absText (cwd := cwd) hroot hr
      refine ⟨by rw [absText_eq, isAbs_textOf hr.2], ?_, .canonical hsym ?_⟩
      · simp only [linkFs, Links.node, hl] at hf
        simp only [linkFs, Links.node, he]
        exact hf
      · simp only [linkFs, he, Option.map_some]

-- with symlinks on, a file found through two links
example : Static (fun _ => config Opts.default 0) serJson (linkFs linksA []) ∧
    ((Sys.init (linkFs linksA [])).after (fun _ => config Opts.default 0) serJson
      (.start 0 (.resolve cs!"/p" cs!"./z") 20 :: List.replicate 40 (.step 0 0))).info 0 =
        some ⟨cs!"/q/d/y.js", ⟨[], [], [], .relative⟩⟩ :=
  ⟨static_links rfl rfl rfl (by decide +kernel), by decide +kernel⟩

-- with symlinks off, a file found through a link, without `..`
example : ((Sys.init (linkFs linksA [])).after (fun _ => config optsA 0) serJson
      (.start 0 (.resolve cs!"/p" cs!"./z") 20 :: List.replicate 40 (.step 0 0))).info 0 =
        some ⟨cs!"/p/z.js", ⟨[], [], [], .relative⟩⟩ ∧ Comp.up ∉ comps cs!"/p/./z.js" := by
  decide +kernel

end Verif
