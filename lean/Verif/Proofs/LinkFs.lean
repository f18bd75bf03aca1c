import Verif.Spec.LinkFs
import Verif.Proofs.Lawful
/-!
# Facts about file systems with symbolic links
-/

namespace Verif

/-- What is done at a link. -/
def Links.onLink (t : Links) (n : Nat) (loc : List Str) (l : List Str) : Option (List Str) :=
  match n with
  | 0 => none
  | n + 1 => t.follow n loc l

theorem Links.follow_eq (t : Links) (n : Nat) : t.follow n = t.go (t.onLink n) := by
  cases n <;> rfl

theorem Links.go_cons (t : Links) (f : List Str → List Str → Option (List Str)) (loc : List Str) (s : Str)
    (l : List Str) : t.go f loc (s :: l) =
      if t.dirAt loc then
        match t.at (stepSeg loc s) with
        | some (.link text) =>
          if text = [] then none else f (if isAbs text then [] else loc) (splitC '/' text ++ l)
        | _ => t.go f (stepSeg loc s) l
      else none := by
  rw [Links.go]
  cases hd : t.dirAt loc with
  | false => rfl
  | true =>
    simp only [if_true]
    unfold stepSeg
    by_cases hs : s = []
    · rw [if_pos hs, if_pos hs]
      unfold Links.dirAt at hd
      split at hd
      · rename_i e; rw [e]
      · cases hd
    · rw [if_neg hs, if_neg hs]
      rfl

theorem Links.follow_cons (t : Links) (n : Nat) (loc : List Str) (s : Str) (l : List Str) :
    t.follow n loc (s :: l) =
      if t.dirAt loc then
        match t.at (stepSeg loc s) with
        | some (.link text) =>
          if text = [] then none
          else t.onLink n (if isAbs text then [] else loc) (splitC '/' text ++ l)
        | _ => t.follow n (stepSeg loc s) l
      else none := by
  rw [Links.follow_eq, Links.go_cons]

theorem Links.follow_nil (t : Links) (n : Nat) (loc : List Str) :
    t.follow n loc [] = if (t.at loc).isSome then some loc else none := by
  rw [Links.follow_eq, Links.go]

theorem Links.dirAt_iff {t : Links} {loc : List Str} : t.dirAt loc = true ↔ ∃ l, t.at loc = some (.dir l) := by
  unfold Links.dirAt
  constructor
  · intro h
    split at h
    · exact ⟨_, by assumption⟩
    · cases h
  · rintro ⟨l, h⟩
    rw [h]

theorem Links.not_dir {t : Links} {n : Nat} {loc : List Str} (h : t.dirAt loc = false) {l : List Str}
    (hl : l ≠ []) : t.follow n loc l = none := by
  cases l with
  | nil => exact absurd rfl hl
  | cons s l => rw [Links.follow_cons, h]; rfl

/-- An empty piece or a dot in front of others. -/
theorem Links.follow_skip {t : Links} {n : Nat} {loc : List Str} {s : Str} {l : List Str}
    (hs : segComp s = none) (hl : l ≠ []) : t.follow n loc (s :: l) = t.follow n loc l := by
  rw [Links.follow_cons, stepSeg_none hs]
  cases hd : t.dirAt loc with
  | false => rw [Links.not_dir hd hl]; rfl
  | true =>
    obtain ⟨e, he⟩ := Links.dirAt_iff.1 hd
    rw [he, if_pos rfl]

theorem segComp_inj {s s' : Str} {c : Comp} (h : segComp s = some c) (h' : segComp s' = some c) : s = s' := by
  unfold segComp at h h'
  split at h
  · cases h
  · split at h
    · cases h
    · split at h' 
      · cases h'
      · split at h'
        · cases h'
        · split at h
          · split at h'
            · simp_all
            · cases h; cases h'
          · split at h'
            · cases h; cases h'
            · cases h; cases h'; rfl

theorem segComps_nil_iff {l : List Str} : segComps l = [] ↔ ∀ s ∈ l, segComp s = none := by
  simp [segComps]

theorem getLast?_cons2 {α : Type} {a b : α} {l : List α} : (a :: b :: l).getLast? = (b :: l).getLast? := by
  simp [List.getLast?_cons]

theorem getLast?_cons_ne {α : Type} {a : α} {l : List α} (h : l ≠ []) : (a :: l).getLast? = l.getLast? := by
  cases l with
  | nil => exact absurd rfl h
  | cons b l => exact getLast?_cons2

/-- Pieces with the same components and the same last one lead to the same place. -/
theorem Links.follow_same {t : Links} (n : Nat) : ∀ (k : Nat) (loc l l' : List Str), l.length + l'.length ≤ k →
    segComps l = segComps l' → l.getLast? = l'.getLast? → t.follow n loc l = t.follow n loc l' := by
  induction n with
  | zero => ?_
  | succ n ihn => ?_
  all_goals
    intro k
    induction k with
    | zero =>
      intro loc l l' hk _ _
      cases l with
      | nil => cases l' with
        | nil => rfl
        | cons s' l' => simp at hk
      | cons s l => simp at hk
    | succ k ih =>
      intro loc l l' hk hc hg
      cases l with
      | nil =>
        cases l' with
        | nil => rfl
        | cons s' l' => rw [List.getLast?_cons] at hg; cases hg
      | cons s l =>
        cases l' with
        | nil => rw [List.getLast?_cons] at hg; cases hg
        | cons s' l' =>
          by_cases h1 : segComp s = none ∧ l ≠ []
          · rw [Links.follow_skip h1.1 h1.2]
            refine ih _ _ _ (by simp at hk ⊢; omega) ?_ ?_
            · rw [← hc, segComps, segComps, List.filterMap_cons_none h1.1]
            · rw [← hg, getLast?_cons_ne h1.2]
          · by_cases h2 : segComp s' = none ∧ l' ≠ []
            · rw [Links.follow_skip (l := l') h2.1 h2.2]
              refine ih _ _ _ (by simp at hk ⊢; omega) ?_ ?_
              · rw [hc, segComps, segComps, List.filterMap_cons_none h2.1]
              · rw [hg, getLast?_cons_ne h2.2]
            · cases hs : segComp s with
              | none =>
                have hl : l = [] := Classical.byContradiction fun h => h1 ⟨hs, h⟩
                subst hl
                have h3 := segComps_nil_iff.1 (hc.symm.trans (by simp [segComps, hs]))
                have hl' : l' = [] := Classical.byContradiction fun h => h2 ⟨h3 _ (by simp), h⟩
                subst hl'
                simp at hg
                rw [hg]
              | some c =>
                cases hs' : segComp s' with
                | none =>
                  have hl : l' = [] := Classical.byContradiction fun h => h2 ⟨hs', h⟩
                  subst hl
                  have h3 := segComps_nil_iff.1 (hc.trans (by simp [segComps, hs']))
                  rw [h3 s (by simp)] at hs; cases hs
                | some c' =>
                  rw [segComps, segComps, List.filterMap_cons_some hs, List.filterMap_cons_some hs'] at hc
                  obtain ⟨hcc, hc2⟩ := List.cons.inj hc
                  subst hcc
                  clear hc
                  have hc : segComps l = segComps l' := hc2
                  clear hc2
                  have := segComp_inj hs hs'
                  subst this
                  have hg' : l.getLast? = l'.getLast? := by
                    cases l with
                    | nil =>
                      cases l' with
                      | nil => rfl
                      | cons x l' =>
                        have h3 := segComps_nil_iff.1 (show segComps (x :: l') = [] from hc.symm)
                        rw [getLast?_cons2] at hg
                        have h4 : s ∈ x :: l' := List.mem_of_getLast? hg.symm
                        rw [h3 s h4] at hs; cases hs
                    | cons x l =>
                      cases l' with
                      | nil =>
                        have h3 := segComps_nil_iff.1 (show segComps (x :: l) = [] from hc)
                        rw [getLast?_cons2] at hg
                        have h4 : s ∈ x :: l := List.mem_of_getLast? hg
                        rw [h3 s h4] at hs; cases hs
                      | cons y l' =>
                        rw [getLast?_cons2, getLast?_cons2] at hg
                        exact hg
                  have hrec : ∀ loc, t.follow _ loc l = t.follow _ loc l' := fun loc =>
                    ih loc l l' (by simp at hk ⊢; omega) hc hg'
                  rw [Links.follow_cons, Links.follow_cons]
                  split
                  · split
                    · split
                      · rfl
                      · first
                        | rfl
                        | refine ihn _ _ _ _ (Nat.le_refl _) ?_ ?_
                          · rw [segComps_append, segComps_append]
                            exact congrArg _ hc
                          · rw [List.getLast?_append, List.getLast?_append, hg']
                    · exact hrec _
                  · rfl

theorem Links.lookup_sim {t : Links} {cwd : List Str} {p q : Str} (ha : isAbs p = true)
    (h : Sim p q) : t.lookup cwd p = t.lookup cwd q := by
  have ha' : isAbs q = true := by rw [← h.abs]; exact ha
  unfold Links.lookup
  rw [if_neg (abs_ne_nil ha), if_neg (abs_ne_nil ha'), if_pos ha, if_pos ha']
  have hc := h.1
  rw [comps_eq_root ha, comps_eq_root ha'] at hc
  exact Links.follow_same 40 _ _ _ _ (Nat.le_refl _) (List.cons.inj hc).2 h.2

/-! ## Directories -/

/-- The directory that the pieces lead to. -/
def Links.walk (t : Links) (n : Nat) (loc l : List Str) : Option (List Str) :=
  (t.follow n loc l).filter t.dirAt

theorem Links.walk_not {t : Links} {n : Nat} {loc : List Str} (h : t.dirAt loc = false) (l : List Str) :
    t.walk n loc l = none := by
  unfold Links.walk
  cases l with
  | nil =>
    rw [Links.follow_nil]
    split <;> simp [h]
  | cons s l => rw [Links.not_dir h (by simp)]; rfl

theorem Links.walk_nil {t : Links} {n : Nat} {loc : List Str} (h : t.dirAt loc = true) :
    t.walk n loc [] = some loc := by
  obtain ⟨e, he⟩ := Links.dirAt_iff.1 h
  simp [Links.walk, Links.follow_nil, he, h]

theorem Links.walk_cons (t : Links) (n : Nat) (loc : List Str) (s : Str) (l : List Str) :
    t.walk n loc (s :: l) =
      if t.dirAt loc then
        match t.at (stepSeg loc s) with
        | some (.link text) =>
          if text = [] then none
          else match n with
            | 0 => none
            | m + 1 => t.walk m (if isAbs text then [] else loc) (splitC '/' text ++ l)
        | _ => t.walk n (stepSeg loc s) l
      else none := by
  unfold Links.walk
  rw [Links.follow_cons]
  split
  · split
    · split
      · rfl
      · cases n <;> rfl
    · rfl
  · rfl

theorem Links.walk_skip {t : Links} {n : Nat} {loc : List Str} {s : Str} {l : List Str}
    (hs : segComp s = none) : t.walk n loc (s :: l) = t.walk n loc l := by
  cases hd : t.dirAt loc with
  | false => rw [Links.walk_not hd, Links.walk_not hd]
  | true =>
    rw [Links.walk_cons, stepSeg_none hs, if_pos hd]
    obtain ⟨e, he⟩ := Links.dirAt_iff.1 hd
    rw [he]

theorem Links.walk_comps {t : Links} (n : Nat) : ∀ (k : Nat) (loc l l' : List Str), l.length + l'.length ≤ k →
    segComps l = segComps l' → t.walk n loc l = t.walk n loc l' := by
  induction n with
  | zero => ?_
  | succ n ihn => ?_
  all_goals
    intro k
    induction k with
    | zero =>
      intro loc l l' hk _
      cases l with
      | nil => cases l' with
        | nil => rfl
        | cons s' l' => simp at hk
      | cons s l => simp at hk
    | succ k ih =>
      intro loc l l' hk hc
      by_cases h1 : ∃ s r, l = s :: r ∧ segComp s = none
      · obtain ⟨s, r, rfl, hs⟩ := h1
        rw [Links.walk_skip hs]
        refine ih _ _ _ (by simp at hk ⊢; omega) ?_
        rw [← hc, segComps, segComps, List.filterMap_cons_none hs]
      · by_cases h2 : ∃ s r, l' = s :: r ∧ segComp s = none
        · obtain ⟨s, r, rfl, hs⟩ := h2
          rw [Links.walk_skip (l := r) hs]
          refine ih _ _ _ (by simp at hk ⊢; omega) ?_
          rw [hc, segComps, segComps, List.filterMap_cons_none hs]
        · cases l with
          | nil =>
            cases l' with
            | nil => rfl
            | cons s' l' =>
              exact absurd ⟨s', l', rfl, segComps_nil_iff.1 hc.symm _ (by simp)⟩ h2
          | cons s l =>
            cases l' with
            | nil => exact absurd ⟨s, l, rfl, segComps_nil_iff.1 hc _ (by simp)⟩ h1
            | cons s' l' =>
              cases hs : segComp s with
              | none => exact absurd ⟨s, l, rfl, hs⟩ h1
              | some c =>
                cases hs' : segComp s' with
                | none => exact absurd ⟨s', l', rfl, hs'⟩ h2
                | some c' =>
                  rw [segComps, segComps, List.filterMap_cons_some hs, List.filterMap_cons_some hs'] at hc
                  obtain ⟨hcc, hc2⟩ := List.cons.inj hc
                  subst hcc
                  clear hc
                  have hc : segComps l = segComps l' := hc2
                  clear hc2
                  have := segComp_inj hs hs'
                  subst this
                  rw [Links.walk_cons, Links.walk_cons]
                  split
                  · split
                    · split
                      · rfl
                      · first
                        | rfl
                        | refine ihn _ _ _ _ (Nat.le_refl _) ?_
                          rw [segComps_append, segComps_append]
                          exact congrArg _ hc
                    · exact ih _ _ _ (by simp at hk ⊢; omega) hc
                  · rfl

theorem Links.walk_prefix {t : Links} (n : Nat) : ∀ (a b loc : List Str),
    (t.walk n loc (a ++ b)).isSome → (t.walk n loc a).isSome := by
  induction n with
  | zero => ?_
  | succ n ihn => ?_
  all_goals
    intro a b
    induction a with
    | nil =>
      intro loc h
      cases hd : t.dirAt loc with
      | false => rw [Links.walk_not hd] at h; cases h
      | true => rw [Links.walk_nil hd]; rfl
    | cons s a ih =>
      intro loc h
      rw [List.cons_append, Links.walk_cons] at h
      rw [Links.walk_cons]
      split
      · rename_i hd
        rw [if_pos hd] at h
        split
        · rename_i text he
          rw [he] at h
          split
          · rename_i ht; simp [ht] at h
          · rename_i ht
            simp only [ht, if_false] at h
            first
            | exact h
            | exact ihn _ b _ (by rw [List.append_assoc]; exact h)
        · rename_i hn
          split at h
          · rename_i text he; exact absurd he (hn text)
          · exact ih _ h
      · rename_i hd; rw [if_neg hd] at h; cases h

theorem linkFs_isDir {t : Links} {cwd : List Str} {p : Str} (ha : isAbs p = true) :
    (linkFs t cwd).isDir p = (t.walk 40 [] (splitC '/' p)).isSome := by
  have e : (linkFs t cwd).isDir p = match t.lookup cwd p with
      | some loc => t.dirAt loc
      | none => false := by
    simp only [linkFs, Links.node, Links.dirAt]
    cases t.lookup cwd p <;> rfl
  rw [e]
  unfold Links.lookup Links.walk
  rw [if_neg (abs_ne_nil ha), if_pos ha]
  cases t.follow 40 [] (splitC '/' p) with
  | none => rfl
  | some loc =>
    show t.dirAt loc = _
    cases h : t.dirAt loc <;> simp [h]

/-- A tree with links whose root is a directory is a lawful file system. -/
theorem linkFs_lawful {t : Links} (cwd : List Str) (hroot : t.isDir = true) :
    (linkFs t cwd).Lawful where
  dir p q ha h := by
    have ha' : isAbs q = true := by rw [← isAbs_of_comps h]; exact ha
    rw [linkFs_isDir ha, linkFs_isDir ha']
    rw [comps_eq_root ha, comps_eq_root ha'] at h
    rw [Links.walk_comps 40 _ _ _ _ (Nat.le_refl _) (List.cons.inj h).2]
  file p q ha h := by simp only [linkFs, Links.node, Links.lookup_sim ha h]
  pathExists p q ha h := by simp only [linkFs, Links.node, Links.lookup_sim ha h]
  read p q ha h := by simp only [linkFs, Links.node, Links.lookup_sim ha h]
  mtime p q ha h := by simp only [linkFs, Links.node, Links.lookup_sim ha h]
  canon p q ha h := by simp only [linkFs, Links.lookup_sim ha h]
  dirNotFile p _ h := by
    simp only [linkFs] at h ⊢
    split at h
    · rename_i hn; rw [hn]
    · cases h
  dirExists p _ h := by
    simp only [linkFs] at h ⊢
    split at h
    · rename_i hn; rw [hn]; rfl
    · cases h
  parent p q ha hp h := by
    have ha' : isAbs q = true := by rw [isAbs_pparent hp]; exact ha
    rw [linkFs_isDir ha] at h
    rw [linkFs_isDir ha']
    have hc := comps_pparent hp
    rw [comps_eq_root ha, comps_eq_root ha'] at hc
    -- the components of `q` are those of a prefix of the pieces of `p`
    have key : ∀ (l : List Str) (b : List Comp) (c : Comp), segComps l = b ++ [c] →
        ∃ l1 l2, l = l1 ++ l2 ∧ segComps l1 = b := by
      intro l
      induction l with
      | nil => intro b c h; simp [segComps] at h
      | cons s l ih =>
        intro b c h
        cases hs : segComp s with
        | none =>
          rw [segComps, List.filterMap_cons_none hs] at h
          obtain ⟨l1, l2, rfl, h2⟩ := ih b c h
          exact ⟨s :: l1, l2, rfl, by rw [segComps, List.filterMap_cons_none hs]; exact h2⟩
        | some d =>
          rw [segComps, List.filterMap_cons_some hs] at h
          cases b with
          | nil => exact ⟨[], s :: l, rfl, rfl⟩
          | cons d' b =>
            obtain ⟨hd, h3⟩ := List.cons.inj h
            subst hd
            obtain ⟨l1, l2, rfl, h2⟩ := ih b c h3
            exact ⟨s :: l1, l2, rfl, by rw [segComps, List.filterMap_cons_some hs]; exact congrArg _ h2⟩
    cases hl : (segComps (splitC '/' p)).getLast? with
    | none =>
      rw [List.getLast?_eq_none_iff.1 hl] at hc
      cases hc
    | some c =>
      obtain ⟨b, hb⟩ := List.getLast?_eq_some_iff.1 hl
      rw [hb, ← List.cons_append, List.dropLast_concat] at hc
      obtain ⟨l1, l2, e1, e2⟩ := key _ _ _ hb
      rw [e1] at h
      have := Links.walk_prefix 40 _ _ _ h
      rwa [Links.walk_comps 40 _ _ l1 (splitC '/' q) (Nat.le_refl _)
        (e2.trans (List.cons.inj hc).2.symm)] at this
  root := by
    rw [linkFs_isDir (by decide)]
    cases t with
    | dir l =>
      rw [show splitC '/' cs!"/" = [[], []] by decide, Links.walk_skip (by rfl), Links.walk_skip (by rfl),
        Links.walk_nil (by rfl)]
      rfl
    | _ => cases hroot

/-! ## Real locations -/

/-- Whether this is a link. -/
def Links.isLink : Links → Bool
  | .link _ => true
  | _ => false

/-- A location without links: there is something that is no link, and its names are proper ones. -/
def Links.Real (t : Links) (loc : List Str) : Prop :=
  (∃ u, t.at loc = some u ∧ u.isLink = false) ∧ ∀ s ∈ loc, ValidName s

theorem Links.at_append (t : Links) (a b : List Str) :
    t.at (a ++ b) = match t.at a with
      | some u => u.at b
      | none => none := by
  induction a generalizing t with
  | nil => rfl
  | cons n a ih =>
    simp only [List.cons_append, Links.at]
    cases t.child n with
    | none => rfl
    | some u => exact ih u

/-- Everything above an existing location is a directory. -/
theorem Links.dir_of_at_append {t u : Links} {a b : List Str} (h : t.at (a ++ b) = some u)
    (hb : b ≠ []) : t.dirAt a = true := by
  rw [Links.at_append] at h
  rw [Links.dirAt_iff]
  cases ha : t.at a with
  | none => simp [ha] at h
  | some v =>
    cases v with
    | dir l => exact ⟨l, rfl⟩
    | _ =>
      cases b with
      | nil => exact absurd rfl hb
      | cons x b => simp [ha, Links.at, Links.child] at h

theorem Links.follow_none {t : Links} {n : Nat} {loc l : List Str} (h : t.at loc = none) :
    t.follow n loc l = none := by
  cases l with
  | nil => rw [Links.follow_nil, h]; rfl
  | cons s l => exact Links.not_dir (by unfold Links.dirAt; rw [h]) (by simp)

theorem Links.Real.step {t : Links} {loc : List Str} {s : Str} (h : t.Real loc) (hs : '/' ∉ s)
    (hd : t.dirAt loc = true) {u : Links} (hu : t.at (stepSeg loc s) = some u) (hl : u.isLink = false) :
    t.Real (stepSeg loc s) := by
  refine ⟨⟨u, hu, hl⟩, ?_⟩
  unfold stepSeg
  split
  · exact h.2
  · unfold enter
    split
    · exact h.2
    · split
      · exact fun x hx => h.2 x (List.dropLast_subset _ hx)
      · intro x hx
        rcases List.mem_append.1 hx with hx | hx
        · exact h.2 x hx
        · rw [List.mem_singleton.1 hx]
          exact ⟨by assumption, hs, by assumption, by assumption⟩

theorem Links.root_real {t : Links} (h : t.isDir = true) : t.Real [] := by
  cases t with
  | dir l => exact ⟨⟨_, rfl, rfl⟩, nofun⟩
  | _ => cases h

theorem Links.follow_real {t : Links} (hroot : t.isDir = true) (n : Nat) :
    ∀ (l loc loc' : List Str), t.Real loc → (∀ s ∈ l, '/' ∉ s) → t.follow n loc l = some loc' → t.Real loc' := by
  induction n with
  | zero => ?_
  | succ n ihn => ?_
  all_goals
    intro l
    induction l with
    | nil =>
      intro loc loc' hr _ h
      rw [Links.follow_nil] at h
      split at h
      · cases h; exact hr
      · cases h
    | cons s l ih =>
      intro loc loc' hr hs h
      rw [Links.follow_cons] at h
      split at h
      · rename_i hd
        split at h
        · split at h
          · cases h
          · first
            | (cases h; done)
            | refine ihn _ _ _ ?_ ?_ h
              · split
                · exact Links.root_real hroot
                · exact hr
              · intro x hx
                rcases List.mem_append.1 hx with hx | hx
                · exact not_mem_of_mem_splitC hx
                · exact hs x (List.mem_cons_of_mem _ hx)
        · rename_i hn
          cases hu : t.at (stepSeg loc s) with
          | none => rw [Links.follow_none hu] at h; cases h
          | some u =>
            refine ih _ _ (hr.step (hs s (by simp)) hd hu ?_) (fun x hx => hs x (List.mem_cons_of_mem _ hx)) h
            cases u with
            | link text => exact absurd hu (hn text)
            | _ => rfl
      · cases h

/-- Walking down the names of a real location reaches it. -/
theorem Links.follow_names {t : Links} {n : Nat} {names : List Str} (hv : ∀ s ∈ names, ValidName s)
    (loc : List Str) (h : ∃ u, t.at (loc ++ names) = some u ∧ u.isLink = false) :
    t.follow n loc names = some (loc ++ names) := by
  induction names generalizing loc with
  | nil =>
    obtain ⟨u, hu, -⟩ := h
    rw [List.append_nil] at hu ⊢
    rw [Links.follow_nil, hu]; rfl
  | cons s l ih =>
    obtain ⟨u, hu, hl⟩ := h
    have hs := hv s (by simp)
    have hstep : stepSeg loc s = loc ++ [s] := by
      simp [stepSeg, enter, hs.1, hs.2.2.1, hs.2.2.2]
    have e : loc ++ s :: l = (loc ++ [s]) ++ l := by simp
    rw [Links.follow_cons, if_pos (Links.dir_of_at_append hu (by simp)), hstep]
    rw [e] at hu ⊢
    rw [← ih (fun s hs => hv s (List.mem_cons_of_mem _ hs)) (loc ++ [s]) ⟨u, hu, hl⟩]
    split
    · rename_i text he
      cases l with
      | nil =>
        rw [List.append_nil, he] at hu
        cases hu; cases hl
      | cons x l =>
        have := Links.dir_of_at_append hu (by simp)
        unfold Links.dirAt at this
        rw [he] at this
        cases this
    · rfl

theorem Links.lookup_real {t : Links} {cwd : List Str} {p : Str} {loc : List Str} (hroot : t.isDir = true)
    (ha : isAbs p = true) (h : t.lookup cwd p = some loc) : t.Real loc := by
  unfold Links.lookup at h
  rw [if_neg (abs_ne_nil ha), if_pos ha] at h
  exact Links.follow_real hroot 40 _ _ _ (Links.root_real hroot) (fun _ h => not_mem_of_mem_splitC h) h

/-- The text of a real location names it. -/
theorem Links.lookup_absText {t : Links} {cwd : List Str} {loc : List Str} (hroot : t.isDir = true)
    (h : t.Real loc) : t.lookup cwd (absText loc) = some loc := by
  unfold Links.lookup
  have hr : t.dirAt [] = true := by
    cases t with
    | dir l => rfl
    | _ => cases hroot
  rw [absText_eq, isAbs_textOf h.2, if_neg (by simp [textOf]), if_pos rfl,
    show textOf true loc = '/' :: joinC '/' loc from rfl, splitC_cons_sep,
    Links.follow_skip (by rfl) (splitC_ne_nil _ _)]
  by_cases hn : loc = []
  · subst hn
    rw [show joinC '/' ([] : List Str) = [] from rfl, show splitC '/' ([] : Str) = [[]] from rfl,
      Links.follow_cons, if_pos hr, stepSeg_none (by rfl)]
    obtain ⟨e, he⟩ := Links.dirAt_iff.1 hr
    rw [he]
    simp only
    rw [Links.follow_nil, he]
    rfl
  · rw [splitC_joinC hn (valid_sep h.2)]
    exact Links.follow_names h.2 [] h.1

/-- If the last piece is empty or a dot, there is a directory. -/
theorem Links.follow_last {t : Links} (n : Nat) : ∀ (l : List Str) (x : Str) (loc loc' : List Str),
    segComp x = none → t.follow n loc (l ++ [x]) = some loc' → t.dirAt loc' = true := by
  induction n with
  | zero => ?_
  | succ n ihn => ?_
  all_goals
    intro l x
    induction l with
    | nil =>
      intro loc loc' hx h
      rw [List.nil_append, Links.follow_cons, stepSeg_none hx] at h
      split at h
      · rename_i hd
        obtain ⟨e, he⟩ := Links.dirAt_iff.1 hd
        rw [he] at h
        simp only [Links.follow_nil, he, Option.isSome_some, if_true] at h
        cases h
        exact hd
      · cases h
    | cons s l ih =>
      intro loc loc' hx h
      rw [List.cons_append, Links.follow_cons] at h
      split at h
      · split at h
        · split at h
          · cases h
          · first
            | (cases h; done)
            | (rw [← List.append_assoc] at h
               exact ihn _ _ _ _ hx h)
        · exact ih _ _ hx h
      · cases h

/-- Without `..`, the lexically normalised text of the path of a file names the same file. -/
theorem Links.lookup_normalizeLex {t : Links} {cwd : List Str} {p : Str}
    (ha : isAbs p = true) (hf : (linkFs t cwd).isFile p = true) (hup : Comp.up ∉ comps p) :
    t.lookup cwd (normalizeLex p) = t.lookup cwd p := by
  obtain ⟨e, hv⟩ := normalizeLex_eq p
  rw [ha] at e
  obtain ⟨A, x, hA, hx⟩ := snoc_segs p
  have hl : segComp x ≠ none := by
    intro hn
    simp only [linkFs, Links.node] at hf
    cases hk : t.lookup cwd p with
    | none => simp [hk] at hf
    | some loc =>
      have hk' := hk
      unfold Links.lookup at hk'
      rw [if_neg (abs_ne_nil ha), if_pos ha, hA] at hk'
      obtain ⟨e, he⟩ := Links.dirAt_iff.1 (Links.follow_last 40 _ _ _ _ hn hk')
      simp [hk, he] at hf
  -- the components of `p` are names
  have hc : comps p = .root :: (normNames p).map Comp.normal := by
    obtain ⟨l, h1, h2, h3⟩ := comps_shape p
    have e1 := h2.1 ha
    have : ∃ names : List Str, l = names.map Comp.normal := by
      have hl : ∀ c ∈ l, ∃ s, c = Comp.normal s := fun c hc => by
        rcases h3 c hc with rfl | ⟨s, rfl, -⟩
        · exact absurd (e1 ▸ List.mem_cons_of_mem _ hc) hup
        · exact ⟨s, rfl⟩
      clear e1 h1 h2 h3
      induction l with
      | nil => exact ⟨[], rfl⟩
      | cons c l ih =>
        obtain ⟨s, rfl⟩ := hl c (by simp)
        obtain ⟨names, rfl⟩ := ih fun c hc => hl c (List.mem_cons_of_mem _ hc)
        exact ⟨s :: names, rfl⟩
    obtain ⟨names, rfl⟩ := this
    have : normNames p = names := by
      unfold normNames
      rw [e1, List.foldl_cons, foldl_stepComp_normal]; rfl
    rw [this, e1]
  refine (Links.lookup_sim ha ⟨?_, ?_⟩).symm
  · rw [e, comps_textOf hv, hc]; rfl
  · rw [hx, e, show textOf true (normNames p) = '/' :: joinC '/' (normNames p) from rfl]
    have hcs : segComps (A ++ [x]) = (normNames p).map Comp.normal := by
      rw [comps_eq_root ha, hA] at hc
      exact (List.cons.inj hc).2
    cases hsx : segComp x with
    | none => exact absurd hsx hl
    | some c =>
      have hne : normNames p ≠ [] := by
        intro h0
        rw [h0] at hcs
        exact hl (segComps_nil_iff.1 hcs x (by simp))
      have hlast : (normNames p).getLast? = some x := by
        rw [segComps_append] at hcs
        have h5 : ((normNames p).map Comp.normal).getLast? = some c := by
          rw [← hcs, segComps, segComps, List.filterMap_cons_some hsx]
          simp
        rw [List.getLast?_map] at h5
        cases h6 : (normNames p).getLast? with
        | none => rw [h6] at h5; cases h5
        | some y =>
          rw [h6] at h5
          cases h5
          have := segComp_valid (hv y (List.mem_of_getLast? h6))
          rw [segComp_inj this hsx]
      rw [lastSeg, splitC_cons_sep, splitC_joinC hne (valid_sep hv), getLast?_cons_ne hne, hlast]

/-! ## Contents -/

theorem allDocLinks_alookup {P : Doc → Bool} {l : List (Str × Links)} {n : Str} {t : Links}
    (h : allDocLinks P l = true) (hl : alookup n l = some t) : t.allDoc P = true := by
  induction l with
  | nil => cases hl
  | cons kv l ih =>
    obtain ⟨k, u⟩ := kv
    simp only [allDocLinks, Bool.and_eq_true] at h
    simp only [alookup] at hl
    split at hl
    · cases hl; exact h.1
    · exact ih h.2 hl

theorem allDocLinks_read {P : Doc → Bool} {t : Links} {cwd : List Str} (h : t.allDoc P = true) {p : Str}
    {d : Doc} (hr : (linkFs t cwd).read p = some d) : P d = true := by
  have key : ∀ (loc : List Str) (t u : Links), t.allDoc P = true → t.at loc = some u → u.allDoc P = true := by
    intro loc
    induction loc with
    | nil => intro t u h hl; cases hl; exact h
    | cons n loc ih =>
      intro t u h hl
      simp only [Links.at] at hl
      split at hl
      · rename_i v hv
        refine ih _ _ ?_ hl
        cases t with
        | dir l => exact allDocLinks_alookup h hv
        | _ => cases hv
      · cases hl
  simp only [linkFs] at hr
  split at hr
  · rename_i doc m hn
    unfold Links.node at hn
    split at hn
    · have := key _ _ _ h hn
      subst hr
      exact this
    · cases hn
  · cases hr

end Verif
