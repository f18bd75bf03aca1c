import Verif.Props.Links
import Verif.Props.Result
/-!
# One path for a file: C81
-/

namespace Verif

variable {cfg cfg' : Nat → Config} {ser ser' : Json → Str} {fs fs' : Fs}

/-- C81 with symlinks on: two answers that name the same file are the same path, letter by letter. The answers may come
from different calls, resolvers and histories, as long as the calls ran on the same files. -/
theorem C81_links (l l' : List Event) (t t' : Task) (ht : t ∈ ((Sys.init fs).after cfg ser l).tasks)
    (ht' : t' ∈ ((Sys.init fs').after cfg' ser' l').tasks) (habs : AbsStarts cfg l) (habs' : AbsStarts cfg' l')
    (tree : Links) (cwd cwd' : List Str) (hroot : tree.isDir = true) (hfs : t.fs = linkFs tree cwd)
    (hfs' : t'.fs = linkFs tree cwd') (path path' request request' : Str) (i i' : Info)
    (hc : t.call = .resolve path request) (hc' : t'.call = .resolve path' request')
    (hd : t.prog = .ret (.resolve (.ok (.info i)))) (hd' : t'.prog = .ret (.resolve (.ok (.info i'))))
    (hsym : (cfg t.rid).opts.symlinks = true) (hsym' : (cfg' t'.rid).opts.symlinks = true)
    (hsame : tree.lookup cwd i.path = tree.lookup cwd' i'.path) : i.path = i'.path := by
  obtain ⟨p, loc, -, h1, h2, -⟩ := C60_real l t ht habs tree cwd hroot hfs path request i hc hd hsym
  obtain ⟨p', loc', -, h1', h2', -⟩ := C60_real l' t' ht' habs' tree cwd' hroot hfs' path' request' i' hc' hd' hsym'
  rw [h1, h1'] at hsame
  cases hsame
  rw [h2, h2']

/-- Without links the path returned is the location of the file. -/
theorem tree_path (l : List Event) (t : Task) (ht : t ∈ ((Sys.init fs).after cfg ser l).tasks)
    (habs : AbsStarts cfg l) (tree : Tree) (cwd : List Str) (hroot : tree.isDir = true)
    (hfs : t.fs = treeFs tree cwd) (path request : Str) (i : Info)
    (hc : t.call = .resolve path request) (hd : t.prog = .ret (.resolve (.ok (.info i)))) :
    ∃ loc, tree.lookup cwd i.path = some loc ∧ i.path = absText loc := by
  obtain ⟨j, hj, ha, -, hp⟩ := system_absOk ht habs hc hd
  have hf := hj.file
  rw [hfs] at hf hp
  cases hl : tree.lookup cwd j.path with
  | none => simp [treeFs, Tree.node, hl] at hf
  | some loc =>
    have hn := Tree.lookup_normalizeLex ha hl hroot
    obtain ⟨h1, -⟩ := Tree.lookup_abs ha hl
    have hi : i.path = normalizeLex j.path := by
      split at hp
      · simp only [treeFs, hl, Option.map_some, Option.some.injEq] at hp
        rw [← hp, h1, (normalizeLex_eq j.path).1, ha, absText_eq]
      · exact hp
    refine ⟨loc, by rw [hi]; exact hn, ?_⟩
    rw [hi, h1, (normalizeLex_eq j.path).1, ha, absText_eq]

/-- C81 without links: the option symlinks does not matter, and may differ between the two calls. Missing: links with
symlinks off (`C81_off_violated`). -/
theorem C81_tree_partial (l l' : List Event) (t t' : Task) (ht : t ∈ ((Sys.init fs).after cfg ser l).tasks)
    (ht' : t' ∈ ((Sys.init fs').after cfg' ser' l').tasks) (habs : AbsStarts cfg l) (habs' : AbsStarts cfg' l')
    (tree : Tree) (cwd cwd' : List Str) (hroot : tree.isDir = true) (hfs : t.fs = treeFs tree cwd)
    (hfs' : t'.fs = treeFs tree cwd') (path path' request request' : Str) (i i' : Info)
    (hc : t.call = .resolve path request) (hc' : t'.call = .resolve path' request')
    (hd : t.prog = .ret (.resolve (.ok (.info i)))) (hd' : t'.prog = .ret (.resolve (.ok (.info i'))))
    (hsame : tree.lookup cwd i.path = tree.lookup cwd' i'.path) : i.path = i'.path := by
  obtain ⟨loc, h1, h2⟩ := tree_path l t ht habs tree cwd hroot hfs path request i hc hd
  obtain ⟨loc', h1', h2'⟩ := tree_path l' t' ht' habs' tree cwd' hroot hfs' path' request' i' hc' hd'
  rw [h1, h1'] at hsame
  cases hsame
  rw [h2, h2']

/-- The path of the answer to a single call. -/
def onlyPath (o : Opts) (t : Links) (path request : Str) : Option Str :=
  ((Sys.init (linkFs t [])).after (fun _ => config o 0) serJson
    (.start 0 (.resolve path request) 20 :: List.replicate 60 (.step 0 0))).info 0 |>.map (·.path)

/-- C81 does not hold with symlinks off: three paths for one file. -/
theorem C81_off_violated :
    [onlyPath optsA linksA cs!"/p" cs!"./z", onlyPath optsA linksA cs!"/p" cs!"./l/y",
      onlyPath optsA linksA cs!"/q" cs!"./d/y"] =
        [some cs!"/p/z.js", some cs!"/p/l/y.js", some cs!"/q/d/y.js"] ∧
      ∀ p ∈ [cs!"/p/z.js", cs!"/p/l/y.js", cs!"/q/d/y.js"],
        linksA.lookup [] p = some [cs!"q", cs!"d", cs!"y.js"] := by
  decide +kernel

-- the same calls with symlinks on, as in the first theorem
example : [onlyPath Opts.default linksA cs!"/p" cs!"./z", onlyPath Opts.default linksA cs!"/p" cs!"./l/y",
    onlyPath Opts.default linksA cs!"/q" cs!"./d/y"] =
      [some cs!"/q/d/y.js", some cs!"/q/d/y.js", some cs!"/q/d/y.js"] := by decide +kernel

-- different ways to one file without links, as in the second
example : ([(cs!"/p", cs!"m"), (cs!"/p/", cs!"./node_modules/../node_modules//m/index.js"),
      (cs!"/", cs!"/p/./node_modules/m/")].map fun c =>
        ((resolve (treeEnv optsA treeA) 20 c.1 c.2).freshInfo).map (·.path)) =
    List.replicate 3 (some cs!"/p/node_modules/m/index.js") := by decide +kernel

end Verif
