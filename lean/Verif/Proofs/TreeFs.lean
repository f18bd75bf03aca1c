import Verif.Spec.TreeFs
import Verif.Proofs.Normalize
/-!
# Facts about the tree file system
-/

namespace Verif

theorem Tree.at_append (t : Tree) (a b : List Str) :
    t.at (a ++ b) = match t.at a with
      | some u => u.at b
      | none => none := by
  induction a generalizing t with
  | nil => rfl
  | cons n a ih =>
    simp only [List.cons_append, Tree.at]
    cases t.child n with
    | none => rfl
    | some u => exact ih u

/-- Everything above an existing location is a directory. -/
theorem Tree.dir_of_at_append {t u : Tree} {a b : List Str} (h : t.at (a ++ b) = some u)
    (hb : b ≠ []) : ∃ l, t.at a = some (.dir l) := by
  rw [Tree.at_append] at h
  cases ha : t.at a with
  | none => simp [ha] at h
  | some v =>
    cases v with
    | dir l => exact ⟨l, rfl⟩
    | file d m =>
      cases b with
      | nil => exact absurd rfl hb
      | cons x b => simp [ha, Tree.at, Tree.child] at h

theorem Tree.reach_eq {t : Tree} {l loc loc' : List Str} (h : t.reach loc l = some loc') :
    loc' = l.foldl stepSeg loc ∧ (t.at loc').isSome := by
  induction l generalizing loc with
  | nil =>
    unfold Tree.reach at h
    split at h
    · cases h; exact ⟨rfl, by assumption⟩
    · cases h
  | cons s l ih =>
    unfold Tree.reach at h
    split at h
    · exact ih h
    · cases h

/-- Walking down the names of an existing location reaches it. -/
theorem Tree.reach_names {t : Tree} {names : List Str} (hv : ∀ s ∈ names, ValidName s)
    (loc : List Str) (h : (t.at (loc ++ names)).isSome) :
    t.reach loc names = some (loc ++ names) := by
  induction names generalizing loc with
  | nil => rw [List.append_nil] at *; simp only [Tree.reach]; rw [if_pos h]
  | cons s l ih =>
    obtain ⟨u, hu⟩ := Option.isSome_iff_exists.1 h
    obtain ⟨e, he⟩ := Tree.dir_of_at_append hu (by simp)
    have hs := hv s (by simp)
    unfold Tree.reach
    rw [he]
    simp only [hs.1, if_false, enter, hs.2.2.1, hs.2.2.2]
    have := ih (fun s hs => hv s (List.mem_cons_of_mem _ hs)) (loc ++ [s]) (by simpa using h)
    rw [this]; simp

theorem Tree.lookup_abs {t : Tree} {cwd : List Str} {p : Str} {loc : List Str} (ha : isAbs p = true)
    (h : t.lookup cwd p = some loc) : loc = normNames p ∧ (t.at loc).isSome := by
  unfold Tree.lookup at h
  split at h
  · cases h
  · try rw [if_pos ha] at h
    obtain ⟨h1, h2⟩ := Tree.reach_eq h
    refine ⟨?_, h2⟩
    obtain ⟨r, rfl⟩ := (isAbs_iff p).1 ha
    rw [h1, foldl_stepSeg, splitC_cons_sep, normNames, comps_abs, segComps,
      List.filterMap_cons_none segComp_nil]; rfl

/-- The lexically normalised text of an absolute path names the same place. -/
theorem Tree.lookup_normalizeLex {t : Tree} {cwd : List Str} {p : Str} {loc : List Str}
    (ha : isAbs p = true) (h : t.lookup cwd p = some loc) (hroot : t.isDir = true) :
    t.lookup cwd (normalizeLex p) = some loc := by
  obtain ⟨h1, h2⟩ := Tree.lookup_abs ha h
  obtain ⟨e, hv⟩ := normalizeLex_eq p
  rw [e, ha]
  subst h1
  unfold Tree.lookup
  rw [isAbs_textOf hv, if_neg (by simp [textOf]), if_pos rfl]
  have hr : ∃ l, t.at [] = some (.dir l) := by
    cases t with
    | dir l => exact ⟨l, rfl⟩
    | file d m => cases hroot
  obtain ⟨l, hl⟩ := hr
  rw [show textOf true (normNames p) = '/' :: joinC '/' (normNames p) from rfl, splitC_cons_sep]
  unfold Tree.reach
  rw [hl]
  simp only [if_true]
  by_cases hn : normNames p = []
  · rw [hn]
    simp [joinC, splitC, Tree.reach, hl]
  · rw [splitC_joinC hn (valid_sep hv)]
    exact Tree.reach_names hv [] h2

theorem allDoc_alookup {P : Doc → Bool} {l : List (Str × Tree)} {n : Str} {t : Tree}
    (h : allDocList P l = true) (hl : alookup n l = some t) : t.allDoc P = true := by
  induction l with
  | nil => cases hl
  | cons kv l ih =>
    obtain ⟨k, u⟩ := kv
    simp only [allDocList, Bool.and_eq_true] at h
    simp only [alookup] at hl
    split at hl
    · cases hl; exact h.1
    · exact ih h.2 hl

theorem allDoc_at {P : Doc → Bool} {t u : Tree} {loc : List Str} (h : t.allDoc P = true)
    (hl : t.at loc = some u) : u.allDoc P = true := by
  induction loc generalizing t with
  | nil => cases hl; exact h
  | cons n loc ih =>
    simp only [Tree.at] at hl
    split at hl
    · rename_i v hv
      refine ih ?_ hl
      cases t with
      | file d m => cases hv
      | dir l => exact allDoc_alookup h hv
    · cases hl

theorem allDoc_read {P : Doc → Bool} {t : Tree} {cwd : List Str} (h : t.allDoc P = true) {p : Str}
    {d : Doc} (hr : (treeFs t cwd).read p = some d) : P d = true := by
  simp only [treeFs] at hr
  split at hr
  · rename_i doc m hn
    unfold Tree.node at hn
    split at hn
    · have := allDoc_at h hn
      subst hr
      exact this
    · cases hn
  · cases hr

/-- The last piece of a path is looked up in a directory. -/
theorem Tree.reach_snoc {t : Tree} {l loc loc' : List Str} {s : Str}
    (h : t.reach loc (l ++ [s]) = some loc') :
    ∃ loc1 e, t.at loc1 = some (.dir e) ∧ loc' = stepSeg loc1 s ∧ t.reach loc l = some loc1 := by
  induction l generalizing loc with
  | nil =>
    rw [List.nil_append, Tree.reach] at h
    split at h
    · rename_i e he
      obtain ⟨h1, h2⟩ := Tree.reach_eq h
      exact ⟨loc, e, he, h1, by rw [Tree.reach, he]; rfl⟩
    · cases h
  | cons x l ih =>
    rw [List.cons_append, Tree.reach] at h
    split at h
    · rename_i e he
      obtain ⟨loc1, e', h1, h2, h3⟩ := ih h
      exact ⟨loc1, e', h1, h2, by rw [Tree.reach, he]; exact h3⟩
    · cases h

/-- A path that ends in `..` does not name a file. -/
theorem treeFs_isFile_last {t : Tree} {cwd : List Str} {p : Str}
    (h : (treeFs t cwd).isFile p = true) : (splitC '/' p).getLast? ≠ some cs!".." := by
  intro hl
  obtain ⟨ys, hys⟩ := List.getLast?_eq_some_iff.1 hl
  simp only [treeFs] at h
  split at h
  · rename_i doc m hn
    unfold Tree.node at hn
    split at hn
    · rename_i loc hlk
      unfold Tree.lookup at hlk
      split at hlk
      · cases hlk
      · rw [hys] at hlk
        obtain ⟨loc1, e, h1, h2, -⟩ := Tree.reach_snoc hlk
        have h3 : loc = loc1.dropLast := by rw [h2]; rfl
        subst h3
        cases hl1 : loc1.getLast? with
        | none =>
          rw [List.getLast?_eq_none_iff.1 hl1] at h1 hn
          rw [show ([] : List Str).dropLast = [] from rfl, h1] at hn
          cases hn
        | some x =>
          rw [eq_dropLast_append hl1] at h1
          obtain ⟨l, he⟩ := Tree.dir_of_at_append h1 (by simp)
          rw [he] at hn
          cases hn
    · cases hn
  · cases h

/-! ## Other contents -/

theorem alookup_mapDocList (f : Doc → Doc) (n : Str) (l : List (Str × Tree)) :
    alookup n (mapDocList f l) = (alookup n l).map (Tree.mapDoc f) := by
  induction l with
  | nil => simp [mapDocList, alookup]
  | cons kv l ih =>
    obtain ⟨k, t⟩ := kv
    simp only [mapDocList, alookup]
    split
    · rfl
    · exact ih

theorem Tree.child_mapDoc (f : Doc → Doc) (t : Tree) (n : Str) :
    (t.mapDoc f).child n = (t.child n).map (Tree.mapDoc f) := by
  cases t with
  | file d m => simp [Tree.mapDoc, Tree.child]
  | dir l => simp [Tree.mapDoc, Tree.child, alookup_mapDocList]

theorem Tree.at_mapDoc (f : Doc → Doc) (t : Tree) (loc : List Str) :
    (t.mapDoc f).at loc = (t.at loc).map (Tree.mapDoc f) := by
  induction loc generalizing t with
  | nil => simp [Tree.at]
  | cons n loc ih =>
    simp only [Tree.at, Tree.child_mapDoc]
    cases t.child n with
    | none => rfl
    | some t' => exact ih t'

theorem Tree.reach_mapDoc (f : Doc → Doc) (t : Tree) (loc segs : List Str) :
    (t.mapDoc f).reach loc segs = t.reach loc segs := by
  induction segs generalizing loc with
  | nil => simp [Tree.reach, Tree.at_mapDoc]
  | cons s segs ih =>
    simp only [Tree.reach, Tree.at_mapDoc]
    cases t.at loc with
    | none => rfl
    | some t' => cases t' <;> simp [Tree.mapDoc, ih]

theorem Tree.node_mapDoc (f : Doc → Doc) (t : Tree) (cwd : List Str) (p : Str) :
    (t.mapDoc f).node cwd p = (t.node cwd p).map (Tree.mapDoc f) := by
  have : (t.mapDoc f).lookup cwd p = t.lookup cwd p := by
    simp only [Tree.lookup, Tree.reach_mapDoc]
  simp only [Tree.node, this]
  cases t.lookup cwd p with
  | none => rfl
  | some loc => exact Tree.at_mapDoc f t loc

theorem treeFs_mapDoc (f : Doc → Doc) (t : Tree) (cwd : List Str) :
    treeFs (t.mapDoc f) cwd =
      { treeFs t cwd with read := fun p => ((treeFs t cwd).read p).map f } := by
  have hl : ∀ p, (t.mapDoc f).lookup cwd p = t.lookup cwd p := by
    intro p
    simp only [Tree.lookup, Tree.reach_mapDoc]
  unfold treeFs
  simp only [Tree.node_mapDoc, hl]
  congr 1 <;>
  · funext p
    cases t.node cwd p with
    | none => rfl
    | some t' => cases t' <;> rfl

end Verif
