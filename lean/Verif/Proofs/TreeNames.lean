import Verif.Proofs.NoCycle
import Verif.Spec.Unused
/-!
# The names in a directory tree

Used to show for examples that no path names a file with some ending.
-/

namespace Verif

mutual
/-- All names in the tree. -/
def Tree.names : Tree → List Str
  | .file _ _ => []
  | .dir l => entryNames l
/-- See `Tree.names`. -/
def entryNames : List (Str × Tree) → List Str
  | [] => []
  | (n, t) :: l => n :: (t.names ++ entryNames l)
end

theorem entryNames_lookup {n : Str} {t : Tree} {l : List (Str × Tree)} (h : alookup n l = some t) :
    n ∈ entryNames l ∧ ∀ x ∈ t.names, x ∈ entryNames l := by
  induction l with
  | nil => cases h
  | cons kv l ih =>
    obtain ⟨k, u⟩ := kv
    simp only [alookup] at h
    simp only [entryNames, List.mem_cons, List.mem_append]
    split at h
    · rename_i e
      cases h
      exact ⟨.inl e.symm, fun x hx => .inr (.inl hx)⟩
    · exact ⟨.inr (.inr (ih h).1), fun x hx => .inr (.inr ((ih h).2 x hx))⟩

theorem Tree.names_at {t u : Tree} {loc : List Str} (h : t.at loc = some u) : ∀ x ∈ u.names, x ∈ t.names := by
  induction loc generalizing t with
  | nil => cases h; exact fun _ h => h
  | cons n loc ih =>
    simp only [Tree.at] at h
    cases t with
    | file d m => cases h
    | dir l =>
      simp only [Tree.child] at h
      split at h
      · rename_i t' ht'
        exact fun x hx => (entryNames_lookup ht').2 x (ih h x hx)
      · cases h

/-- The last piece of the path of a file is a name in the tree. -/
theorem treeFs_file_name {t : Tree} {cwd : List Str} {p s : Str} {l : List Str}
    (h : (treeFs t cwd).isFile p = true) (hs : splitC '/' p = l ++ [s]) : s ∈ t.names := by
  have hdd := treeFs_isFile_last h
  rw [hs, List.getLast?_concat] at hdd
  simp only [treeFs, Tree.node] at h
  cases hl : t.lookup cwd p with
  | none => simp [hl] at h
  | some loc =>
    simp only [hl] at h
    cases hu : t.at loc with
    | none => simp [hu] at h
    | some u =>
      cases u with
      | dir e => simp [hu] at h
      | file d m =>
        unfold Tree.lookup at hl
        split at hl
        · cases hl
        · rw [hs] at hl
          obtain ⟨loc1, e, h1, h2, -⟩ := Tree.reach_snoc hl
          unfold stepSeg enter at h2
          split at h2
          · rw [h2, h1] at hu; cases hu
          · split at h2
            · rw [h2, h1] at hu; cases hu
            · split at h2
              · rename_i hn
                rw [hn] at hdd
                exact (hdd rfl).elim
              · rw [h2, Tree.at_append, h1] at hu
                simp only [Tree.at, Tree.child] at hu
                cases hc : alookup s e with
                | none => simp [hc] at hu
                | some u => exact Tree.names_at h1 s (entryNames_lookup hc).1

mutual
/-- The contents of all files with the name. -/
def Tree.docs (name : Str) : Tree → List (Option Doc)
  | .file _ _ => []
  | .dir l => entryDocs name l
/-- See `Tree.docs`. -/
def entryDocs (name : Str) : List (Str × Tree) → List (Option Doc)
  | [] => []
  | (n, t) :: l =>
    (match t with
    | .file doc _ => if n = name then [doc] else []
    | .dir _ => t.docs name) ++ entryDocs name l
end

theorem entryDocs_file {name : Str} {doc : Option Doc} {m : Nat} {l : List (Str × Tree)}
    (h : alookup name l = some (.file doc m)) : doc ∈ entryDocs name l := by
  induction l with
  | nil => cases h
  | cons kv l ih =>
    obtain ⟨k, u⟩ := kv
    simp only [alookup] at h
    simp only [entryDocs, List.mem_append]
    split at h
    · rename_i e
      cases h
      exact .inl (by simp [e])
    · exact .inr (ih h)

theorem entryDocs_dir {name n : Str} {t : Tree} {l : List (Str × Tree)} (h : alookup n l = some t) :
    ∀ x ∈ t.docs name, x ∈ entryDocs name l := by
  induction l with
  | nil => cases h
  | cons kv l ih =>
    obtain ⟨k, u⟩ := kv
    simp only [alookup] at h
    simp only [entryDocs, List.mem_append]
    split at h
    · cases h
      intro x hx
      cases t with
      | file d m => cases hx
      | dir e => exact .inl hx
    · exact fun x hx => .inr (ih h x hx)

theorem Tree.docs_at {name : Str} {t u : Tree} {loc : List Str} (h : t.at loc = some u) :
    ∀ x ∈ u.docs name, x ∈ t.docs name := by
  induction loc generalizing t with
  | nil => cases h; exact fun _ h => h
  | cons n loc ih =>
    simp only [Tree.at] at h
    cases t with
    | file d m => cases h
    | dir l =>
      simp only [Tree.child] at h
      split at h
      · rename_i t' ht'
        exact fun x hx => entryDocs_dir ht' x (ih h x hx)
      · cases h

/-- A path with such a last piece that is a file has such contents. -/
theorem treeFs_file_doc {t : Tree} {cwd : List Str} {p s : Str} {l : List Str}
    (h : (treeFs t cwd).isFile p = true) (hs : splitC '/' p = l ++ [s]) :
    (treeFs t cwd).read p ∈ t.docs s ∧ ((treeFs t cwd).mtime p).isSome = true := by
  have hdd := treeFs_isFile_last h
  rw [hs, List.getLast?_concat] at hdd
  simp only [treeFs, Tree.node] at h ⊢
  cases hl : t.lookup cwd p with
  | none => simp [hl] at h
  | some loc =>
    simp only [hl] at h ⊢
    cases hu : t.at loc with
    | none => simp [hu] at h
    | some u =>
      cases u with
      | dir e => simp [hu] at h
      | file d m =>
        refine ⟨?_, rfl⟩
        unfold Tree.lookup at hl
        split at hl
        · cases hl
        · rw [hs] at hl
          obtain ⟨loc1, e, h1, h2, -⟩ := Tree.reach_snoc hl
          unfold stepSeg enter at h2
          split at h2
          · rw [h2, h1] at hu; cases hu
          · split at h2
            · rw [h2, h1] at hu; cases hu
            · split at h2
              · rename_i hn
                rw [hn] at hdd
                exact (hdd rfl).elim
              · rw [h2, Tree.at_append, h1] at hu
                simp only [Tree.at, Tree.child] at hu
                cases hc : alookup s e with
                | none => simp [hc] at hu
                | some u =>
                  simp only [hc] at hu
                  cases hu
                  exact Tree.docs_at h1 _ (entryDocs_file hc)

/-- There is no file with an ending that no name has. -/
theorem treeFs_no_ending {t : Tree} {cwd : List Str} {b : Str} (hb : '/' ∉ b)
    (h : t.names.all (fun n => !b.isSuffixOf n) = true) (p : Str) :
    (treeFs t cwd).isFile (p ++ b) = false := by
  cases hf : (treeFs t cwd).isFile (p ++ b) with
  | false => rfl
  | true =>
    obtain ⟨l, s, hs⟩ := splitC_append_last hb p
    have := List.all_eq_true.1 h _ (treeFs_file_name hf hs)
    rw [List.isSuffixOf_iff_suffix.2 ⟨s, rfl⟩] at this
    cases this

/-- There is no file for a main file that is no name, with or without extension. -/
theorem treeFs_no_main {t : Tree} {cwd : List Str} {o : Opts} {m : Str} (hm : '/' ∉ m)
    (hx : ∀ ext ∈ o.extensions, '/' ∉ ext)
    (h : t.names.all (fun n => !m.isSuffixOf n && o.extensions.all fun ext => !(m ++ ext).isSuffixOf n) = true) :
    NoMainFile o (treeFs t cwd) m := by
  intro d
  obtain ⟨a, ha⟩ : m <:+ pjoin d (cs!"./" ++ m) := pjoin_suffix ⟨cs!"./", rfl⟩
  have h := List.all_eq_true.1 h
  refine ⟨.inr ?_, fun ext he => ?_⟩
  · rw [← ha]
    refine treeFs_no_ending hm (List.all_eq_true.2 fun n hn => ?_) a
    have := h n hn
    rw [Bool.and_eq_true] at this
    exact this.1
  · rw [← ha, List.append_assoc]
    refine treeFs_no_ending (b := m ++ ext) ?_ (List.all_eq_true.2 fun n hn => ?_) a
    · intro hc
      rcases List.mem_append.1 hc with hc | hc
      · exact hm hc
      · exact hx ext he hc
    · have := h n hn
      rw [Bool.and_eq_true] at this
      exact List.all_eq_true.1 this.2 ext he

end Verif
