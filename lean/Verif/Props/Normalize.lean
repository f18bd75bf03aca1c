import Verif.Proofs.TreeFs
/-!
# Properties of lexical normalisation: C05, C06, C07
-/

namespace Verif

/-- C05: no `.` or `..` component is left, and a path stays absolute or relative. -/
theorem C05_no_dots (p : Str) :
    Comp.cur ∉ comps (normalizeLex p) ∧ Comp.up ∉ comps (normalizeLex p) ∧
      isAbs (normalizeLex p) = isAbs p := by
  obtain ⟨e, hv⟩ := normalizeLex_eq p
  rw [e, comps_textOf hv, isAbs_textOf hv]
  cases isAbs p <;> simp

/-- C05 on the raw text: no piece between separators is `.` or `..`, and none is empty apart
from the start of an absolute path. -/
theorem C05_no_dots_text (p : Str) :
    ∀ s ∈ splitC '/' (normalizeLex p), s ≠ cs!"." ∧ s ≠ cs!".." ∧
      (s = [] → normalizeLex p = [] ∨ normalizeLex p = cs!"/" ∨
        ∃ r, normalizeLex p = '/' :: r ∧ [] ∉ splitC '/' r) := by
  obtain ⟨e, hv⟩ := normalizeLex_eq p
  rw [e]
  by_cases hn : normNames p = []
  · rw [hn]
    cases isAbs p <;> simp [textOf, joinC, splitC]
  · have hs := splitC_joinC hn (valid_sep hv)
    cases isAbs p with
    | false =>
      rw [show textOf false (normNames p) = joinC '/' (normNames p) from rfl, hs]
      intro s h
      exact ⟨(hv s h).2.2.1, (hv s h).2.2.2, fun e => absurd e (hv s h).1⟩
    | true =>
      rw [show textOf true (normNames p) = '/' :: joinC '/' (normNames p) from rfl,
        splitC_cons_sep, hs]
      have hnil : [] ∉ splitC '/' (joinC '/' (normNames p)) := by
        rw [hs]; exact fun h => (hv [] h).1 rfl
      intro s h
      rcases List.mem_cons.1 h with rfl | h
      · exact ⟨by simp, by simp, fun _ => .inr (.inr ⟨_, rfl, hnil⟩)⟩
      · exact ⟨(hv s h).2.2.1, (hv s h).2.2.2, fun e => absurd e (hv s h).1⟩

/-- C06: normalising twice is normalising once, character for character. -/
theorem C06_idempotent (p : Str) : normalizeLex (normalizeLex p) = normalizeLex p := by
  obtain ⟨e, hv⟩ := normalizeLex_eq p
  obtain ⟨e', -⟩ := normalizeLex_eq (normalizeLex p)
  rw [e', e, isAbs_textOf hv, normNames_textOf hv]

/-- C07: the normalised text of an absolute path is the text of the location its walk from the
root leads to; such a location exists. -/
theorem C07_walk (p : Str) (h : isAbs p = true) :
    (∃ loc, Walk [] p loc) ∧ ∀ loc, Walk [] p loc → normalizeLex p = absText loc := by
  refine ⟨walk_exists [] p, fun loc hw => ?_⟩
  rw [walk_normNames hw, (normalizeLex_eq p).1, h, absText_eq]

/-- C07, against a directory tree: whatever an absolute path names, its normalised text names
too. -/
theorem C07_tree (t : Tree) (cwd : List Str) (hroot : t.isDir = true) (p : Str)
    (h : isAbs p = true) {loc : List Str} (hl : t.lookup cwd p = some loc) :
    t.lookup cwd (normalizeLex p) = some loc :=
  Tree.lookup_normalizeLex h hl hroot

-- a path that climbs above the root, with repeated separators
example : isAbs cs!"/a//./b/../../../c/" = true := by decide
example : normalizeLex cs!"/a//./b/../../../c/" = cs!"/c" := by decide
example : Walk [] cs!"/a/../c" [cs!"c"] :=
  .sep (.step (name := cs!"a") (by decide) (by decide) (.inr ⟨_, rfl⟩)
    (.sep (.step (name := cs!"..") (by decide) (by decide) (.inr ⟨_, rfl⟩)
      (.sep (.step (name := cs!"c") (by decide) (by decide) (.inl rfl) (.done _))))))
example : (Tree.dir [(cs!"a", .dir []), (cs!"c", .file none 0)]).lookup [] cs!"/a/../c" =
    some [cs!"c"] := by decide

/-- C07 does not extend to relative paths: a leading `..` is dropped (src/normalize.rs:34 pops
an empty path), so the normalised text names another place. -/
theorem C07_relative_counterexample :
    normalizeLex cs!"../a" = cs!"a" ∧
    (Tree.dir [(cs!"a", .file none 0), (cs!"d", .dir [(cs!"a", .dir [])])]).lookup [cs!"d"]
      cs!"../a" = some [cs!"a"] ∧
    (Tree.dir [(cs!"a", .file none 0), (cs!"d", .dir [(cs!"a", .dir [])])]).lookup [cs!"d"]
      (normalizeLex cs!"../a") = some [cs!"d", cs!"a"] := by decide

end Verif
