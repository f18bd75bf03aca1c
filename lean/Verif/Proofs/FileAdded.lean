import Verif.Spec.NewFiles
import Verif.Proofs.Lawful
import Verif.Proofs.Modules
import Verif.Proofs.Contain
import Verif.Proofs.NoCycle
/-!
# A tree with a new file
-/

namespace Verif

theorem Tree.dirAt_map (t : Tree) (l : List Str) :
    t.dirAt l = true ↔ (t.at l).map Tree.isDir = some true := by
  unfold Tree.dirAt
  cases t.at l with
  | none => simp
  | some u => cases u <;> simp [Tree.isDir]

section
variable {t t' : Tree} {loc : List Str} (h : FileAdded t t' loc)
include h

theorem FileAdded.dirAt (l : List Str) : t'.dirAt l = t.dirAt l := by
  rw [Bool.eq_iff_iff, Tree.dirAt_map, Tree.dirAt_map]
  exact h.dir l

theorem FileAdded.some_iff {l : List Str} (hl : l ≠ loc) : (t'.at l).isSome = (t.at l).isSome := by
  have h1 := h.dir l
  have h2 := fun d m => h.other l d m hl
  cases ha : t.at l with
  | none =>
    cases hb : t'.at l with
    | none => rfl
    | some u =>
      cases u with
      | dir e => rw [ha, hb] at h1; simp [Tree.isDir] at h1
      | file d m => have := (h2 d m).1 hb; rw [ha] at this; cases this
  | some u =>
    cases u with
    | dir e =>
      rw [ha] at h1
      cases hb : t'.at l with
      | none => rw [hb] at h1; simp [Tree.isDir] at h1
      | some v => rfl
    | file d m => rw [(h2 d m).2 ha]

theorem FileAdded.reach (segs s : List Str) :
    t'.reach s segs = t.reach s segs ∨ t'.reach s segs = some loc ∧ t.reach s segs = none := by
  induction segs generalizing s with
  | nil =>
    unfold Tree.reach
    by_cases hs : s = loc
    · subst hs
      obtain ⟨d, m, hf⟩ := h.file
      rw [hf, h.absent]
      exact .inr ⟨rfl, rfl⟩
    · rw [h.some_iff hs]; exact .inl rfl
  | cons x segs ih =>
    rw [Tree.reach_cons, Tree.reach_cons, h.dirAt]
    split
    · exact ih _
    · exact .inl rfl

theorem FileAdded.lookup (cwd : List Str) (p : Str) :
    t'.lookup cwd p = t.lookup cwd p ∨ t'.lookup cwd p = some loc ∧ t.lookup cwd p = none := by
  unfold Tree.lookup
  split
  · exact .inl rfl
  · exact h.reach _ _

theorem FileAdded.same {cwd : List Str} {p : Str} (hp : t'.lookup cwd p ≠ some loc) :
    t'.lookup cwd p = t.lookup cwd p := (h.lookup cwd p).resolve_right fun hh => hp hh.1

theorem FileAdded.gone {cwd : List Str} {p : Str} (hp : t'.lookup cwd p = some loc) :
    t.lookup cwd p = none := by
  rcases h.lookup cwd p with h1 | h1
  · cases hl : t.lookup cwd p with
    | none => rfl
    | some l =>
      rw [hp, hl] at h1
      cases h1
      unfold Tree.lookup at hl
      split at hl
      · cases hl
      · have := (Tree.reach_eq hl).2
        rw [h.absent] at this; cases this
  · exact h1.2

theorem FileAdded.file_iff {cwd : List Str} {p : Str} (hp : t'.lookup cwd p ≠ some loc) (d : Option Doc) (m : Nat) :
    t'.node cwd p = some (.file d m) ↔ t.node cwd p = some (.file d m) := by
  unfold Tree.node
  have := h.same hp
  rw [this]
  cases hl : t.lookup cwd p with
  | none => simp
  | some l =>
    refine h.other l d m ?_
    rintro rfl
    rw [hl] at this
    exact hp this

theorem FileAdded.dir_iff {cwd : List Str} {p : Str} :
    (treeFs t' cwd).isDir p = (treeFs t cwd).isDir p := by
  have key : ∀ u : Tree, (treeFs u cwd).isDir p = match u.lookup cwd p with
      | some l => u.dirAt l
      | none => false := by
    intro u
    show (match u.node cwd p with | some (.dir _) => true | _ => false) = _
    unfold Tree.node Tree.dirAt
    cases u.lookup cwd p <;> rfl
  rw [key, key]
  by_cases hp : t'.lookup cwd p = some loc
  · rw [hp, h.gone hp]
    dsimp only
    rw [h.dirAt]
    unfold Tree.dirAt
    rw [h.absent]
  · rw [h.same hp]
    cases t.lookup cwd p with
    | none => rfl
    | some l => exact h.dirAt l

theorem FileAdded.node_cases {cwd : List Str} {p : Str} (hp : t'.lookup cwd p ≠ some loc) :
    (t'.node cwd p = none ∧ t.node cwd p = none) ∨
    (∃ d m, t'.node cwd p = some (.file d m) ∧ t.node cwd p = some (.file d m)) ∨
    ∃ e e', t'.node cwd p = some (.dir e) ∧ t.node cwd p = some (.dir e') := by
  have h1 := fun d m => h.file_iff hp d m
  have h2 : (match t'.node cwd p with | some (.dir _) => true | _ => false) =
    (match t.node cwd p with | some (.dir _) => true | _ => false) := h.dir_iff
  cases ha : t'.node cwd p with
  | none =>
    cases hb : t.node cwd p with
    | none => exact .inl ⟨rfl, rfl⟩
    | some u =>
      cases u with
      | dir e => rw [ha, hb] at h2; cases h2
      | file d m => have := (h1 d m).2 hb; rw [ha] at this; cases this
  | some v =>
    cases v with
    | file d m => exact .inr (.inl ⟨d, m, rfl, (h1 d m).1 ha⟩)
    | dir e =>
      cases hb : t.node cwd p with
      | none => rw [ha, hb] at h2; cases h2
      | some u =>
        cases u with
        | dir e' => exact .inr (.inr ⟨e, e', rfl, rfl⟩)
        | file d m => have := (h1 d m).2 hb; rw [ha] at this; cases this

end

/-- A piece `.` more before the last pieces. -/
theorem Tree.reach_dot {t : Tree} {a b s l : List Str} (hb : b ≠ []) (h : t.reach s (a ++ b) = some l) :
    t.reach s (a ++ cs!"." :: b) = some l := by
  induction a generalizing s with
  | nil =>
    cases b with
    | nil => exact (hb rfl).elim
    | cons x b =>
      have h0 := h
      rw [List.nil_append, Tree.reach_cons] at h
      rw [List.nil_append, Tree.reach_cons]
      split at h
      · next hd =>
        rw [if_pos hd]
        exact h0
      · cases h
  | cons x a ih =>
    rw [List.cons_append, Tree.reach_cons] at h ⊢
    split at h
    · next hd => rw [if_pos hd]; exact ih h
    · cases h

theorem normal_text {t : Str} (h : getTargetKind t = .normal) : t ≠ [] ∧ isAbs t = false := by
  constructor
  · rintro rfl; cases h
  · unfold getTargetKind at h
    cases t with
    | nil => cases h
    | cons c t =>
      by_cases hc : c = '/'
      · subst hc; simp [startsWith, List.isPrefixOf] at h
      · simp [isAbs, startsWith, List.isPrefixOf, hc]
        try (intro e; exact hc e.symm)

theorem FileAdded.dot {t : Tree} {cwd loc : List Str} (d x : Str) (hx : getTargetKind x = .normal)
    (h : t.lookup cwd (pjoin d x) = some loc) : t.lookup cwd (pjoin d (cs!"./" ++ x)) = some loc := by
  obtain ⟨hne, ha⟩ := normal_text hx
  have ha' : isAbs (cs!"./" ++ x) = false := rfl
  have hsp : splitC '/' (cs!"./" ++ x) = cs!"." :: splitC '/' x := splitC_append_sep '/' cs!"." x
  cases d with
  | nil =>
    rw [pjoin_nil_left] at h ⊢
    unfold Tree.lookup at h ⊢
    rw [if_neg hne, ha] at h
    rw [if_neg (by simp), ha', hsp]
    exact Tree.reach_dot (a := []) (splitC_ne_nil _ _) h
  | cons c d =>
    have hd : c :: d ≠ [] := nofun
    have e1 := pjoin_text hd ha
    have e2 := pjoin_text hd ha'
    obtain ⟨p0, h1, h2⟩ := e1
    obtain ⟨p1, h3, h4⟩ := e2
    have : p1 = p0 := by
      rcases h1 with ⟨h1, h1'⟩ | h1 <;> rcases h3 with ⟨h3, h3'⟩ | h3
      · rw [← h1, ← h3]
      · rw [h3] at h1'; simp [endsWithC] at h1'
      · rw [h1] at h3'; simp [endsWithC] at h3'
      · exact List.append_cancel_right (h3.symm.trans h1)
    subst this
    unfold Tree.lookup at h ⊢
    rw [if_neg (pjoin_ne_nil hd ha)] at h
    rw [if_neg (pjoin_ne_nil hd ha')]
    have habs : isAbs (pjoin (c :: d) (cs!"./" ++ x)) = isAbs (pjoin (c :: d) x) := by
      rw [h2, h4]
      cases p1 <;> rfl
    rw [habs]
    rw [h2, splitC_append_sep] at h
    rw [h4, splitC_append_sep, hsp]
    rw [← h2] at h
    exact Tree.reach_dot (splitC_ne_nil _ _) h

/-- A tree with a new file is a file system with a new file. -/
theorem FileAdded.adds {t t' : Tree} {loc : List Str} (h : FileAdded t t' loc) (cwd : List Str) :
    Adds (fun p => t'.lookup cwd p = some loc) (treeFs t cwd) (treeFs t' cwd) where
  new p hp := by
    have := h.gone hp
    constructor
    · show (match t.node cwd p with | some (.file _ _) => true | _ => false) = false
      unfold Tree.node; rw [this]
    · show (match t.node cwd p with | some (.dir _) => true | _ => false) = false
      unfold Tree.node; rw [this]
  isFile p := by
    by_cases hp : t'.lookup cwd p = some loc
    · obtain ⟨d, m, hf⟩ := h.file
      refine ⟨fun _ => .inr hp, fun _ => ?_⟩
      show (match t'.node cwd p with | some (.file _ _) => true | _ => false) = true
      unfold Tree.node; rw [hp]; dsimp only; rw [hf]
    · rw [or_iff_left hp]
      show (match t'.node cwd p with | some (.file _ _) => true | _ => false) = true ↔
        (match t.node cwd p with | some (.file _ _) => true | _ => false) = true
      rcases h.node_cases hp with ⟨h1, h2⟩ | ⟨d, m, h1, h2⟩ | ⟨e, e', h1, h2⟩ <;> rw [h1, h2]
  isDir p := h.dir_iff
  pathExists p hp := by
    show (t'.node cwd p).isSome = (t.node cwd p).isSome
    rcases h.node_cases hp with ⟨h1, h2⟩ | ⟨d, m, h1, h2⟩ | ⟨e, e', h1, h2⟩ <;> simp [h1, h2]
  read p hp := by
    show (match t'.node cwd p with | some (.file doc _) => doc | _ => none) =
      (match t.node cwd p with | some (.file doc _) => doc | _ => none)
    rcases h.node_cases hp with ⟨h1, h2⟩ | ⟨d, m, h1, h2⟩ | ⟨e, e', h1, h2⟩ <;> rw [h1, h2]
  mtime p hp := by
    show (match t'.node cwd p with | some (.file _ m) => some m | some (.dir _) => some 0 | none => none) =
      (match t.node cwd p with | some (.file _ m) => some m | some (.dir _) => some 0 | none => none)
    rcases h.node_cases hp with ⟨h1, h2⟩ | ⟨d, m, h1, h2⟩ | ⟨e, e', h1, h2⟩ <;> rw [h1, h2]
  canon p hp := congrArg (Option.map absText) (h.same hp)
  dot d x hx hp := FileAdded.dot d x hx hp

/-- Where a path that goes on from `d` leads. -/
theorem Tree.lookup_pjoin {t : Tree} {cwd loc : List Str} {d x : Str} (hx : x ≠ []) (ha : isAbs x = false)
    (h : t.lookup cwd (pjoin d x) = some loc) : ∃ s A, t.reach s (A ++ splitC '/' x) = some loc := by
  unfold Tree.lookup at h
  cases d with
  | nil =>
    rw [pjoin_nil_left, if_neg hx] at h
    exact ⟨_, [], h⟩
  | cons c d =>
    obtain ⟨p0, -, h2⟩ := pjoin_text (p := c :: d) nofun ha
    rw [if_neg (pjoin_ne_nil (List.cons_ne_nil c d) ha), h2, splitC_append_sep] at h
    exact ⟨_, _, h⟩

theorem stepSeg_name {l : List Str} {s : Str} (h : ValidName s) : stepSeg l s = l ++ [s] := by
  unfold stepSeg enter
  rw [if_neg h.1, if_neg h.2.2.1, if_neg h.2.2.2]

/-- The last name of a path is the name of the place it leads to. -/
theorem Tree.lookup_name {t : Tree} {cwd loc : List Str} {d x : Str} (hx : ValidName x)
    (h : t.lookup cwd (pjoin d x) = some loc) : loc.getLast? = some x := by
  have ha : isAbs x = false := by
    cases x with
    | nil => rfl
    | cons c x =>
      have : c ≠ '/' := fun e => hx.2.1 (e ▸ .head _)
      simp [isAbs, startsWith, List.isPrefixOf, this]
      try (intro e; exact this e.symm)
  obtain ⟨s, A, hr⟩ := Tree.lookup_pjoin hx.1 ha h
  rw [splitC_of_not_mem hx.2.1] at hr
  obtain ⟨l, e, -, rfl, -⟩ := Tree.reach_snoc hr
  rw [stepSeg_name hx]
  simp

theorem file_not_dir {t : Tree} {loc : List Str} {d : Option Doc} {m : Nat} {e : List (Str × Tree)}
    (h : t.at loc = some (.file d m)) (h' : t.at loc = some (.dir e)) : False := by
  rw [h] at h'; cases h'

theorem PackageName.shape {t n : Str} (h : PackageName t n) :
    '/' ∉ n ∨ ∃ a b, cs!"@" <+: a ∧ '/' ∉ a ∧ '/' ∉ b ∧ n = a ++ '/' :: b := by
  cases h with
  | plain h1 h2 h3 => exact .inl h2
  | inScope h1 h2 h3 h4 => exact .inr ⟨_, _, h1, h2, h3, rfl⟩
  | scope h1 h2 => exact .inl h2

/-- A new file that a path of the form `…/node_modules/<name of a package>` leads to is at a place of such
a form. -/
theorem Tree.lookup_packagePlace {t : Tree} {cwd loc : List Str} {d x : Str} {doc : Option Doc} {m : Nat}
    (hx : PackageName x x) (hf : t.at loc = some (.file doc m))
    (h : t.lookup cwd (pjoin (pjoin d MODULE) x) = some loc) : PackagePlace loc := by
  replace hx := hx.shape
  have hm : ValidName MODULE := by refine ⟨?_, ?_, ?_, ?_⟩ <;> decide
  have hma : isAbs MODULE = false := by decide
  -- the pieces of the path
  have hsplit : isAbs x = false ∧ ∃ s A, t.reach s (A ++ MODULE :: splitC '/' x) = some loc := by
    have ha : isAbs x = false := by
      rcases hx with hx | ⟨a, b, ⟨r, rfl⟩, -, -, rfl⟩
      · cases x with
        | nil => rfl
        | cons c x =>
          have : c ≠ '/' := fun e => hx (e ▸ .head _)
          simp [isAbs, startsWith, List.isPrefixOf, this]
          try (intro e; exact this e.symm)
      · rfl
    refine ⟨ha, ?_⟩
    have hne : pjoin d MODULE ≠ [] := by
      cases d with
      | nil => rw [pjoin_nil_left]; decide
      | cons c d => exact pjoin_ne_nil nofun hma
    have hend : endsWithC (pjoin d MODULE) '/' = false := by
      obtain ⟨w, hw⟩ := pjoin_suffix (p := d) (List.suffix_refl MODULE)
      rw [← hw]
      simp [endsWithC, MODULE]
    have e : pjoin (pjoin d MODULE) x = pjoin d MODULE ++ '/' :: x := by
      generalize pjoin d MODULE = w at hne hend
      unfold pjoin
      simp [ha, hne, hend]
    rw [e] at h
    have e2 : pjoin d MODULE ++ '/' :: x = pjoin d (MODULE ++ '/' :: x) := by
      unfold pjoin
      rw [show isAbs (MODULE ++ '/' :: x) = isAbs MODULE from rfl, hma]
      simp only [Bool.false_eq_true, if_false]
      split <;> simp
    rw [e2] at h
    obtain ⟨s, A, hr⟩ := Tree.lookup_pjoin (by simp [MODULE]) rfl h
    rw [splitC_append_sep, splitC_of_not_mem hm.2.1] at hr
    exact ⟨s, A, hr⟩
  obtain ⟨ha, s, A, hr⟩ := hsplit
  -- the last piece
  have last : ∀ {s : List Str} {B : List Str} {y : Str} {l0 : List Str} {n : Str},
      t.reach s (B ++ [y]) = some loc → '/' ∉ y → t.reach s B = some (l0 ++ [n]) →
      (∃ e, t.at l0 = some (.dir e)) → loc = l0 ++ [n, y] := by
    intro s B y l0 n h1 h2 h3 h4
    obtain ⟨l1, e, h5, h6, h7⟩ := Tree.reach_snoc h1
    rw [h3] at h7
    cases h7
    by_cases h8 : y = [] ∨ y = cs!"."
    · have : stepSeg (l0 ++ [n]) y = l0 ++ [n] := by rcases h8 with rfl | rfl <;> rfl
      rw [this] at h6
      subst h6
      exact (file_not_dir hf h5).elim
    · rw [not_or] at h8
      by_cases h9 : y = cs!".."
      · have : stepSeg (l0 ++ [n]) y = l0 := by
          subst h9
          simp [stepSeg, enter]
        rw [this] at h6
        subst h6
        obtain ⟨e', h4⟩ := h4
        exact (file_not_dir hf h4).elim
      · rw [h6, stepSeg_name ⟨h8.1, h2, h8.2, h9⟩]
        simp
  -- one piece after `node_modules`
  have one : ∀ y, '/' ∉ y → splitC '/' x = [y] → PackagePlace loc := by
    intro y hy he
    rw [he] at hr
    have hr' : t.reach s ((A ++ [MODULE]) ++ [y]) = some loc := by simpa using hr
    obtain ⟨l1, e, -, -, h7⟩ := Tree.reach_snoc hr'
    obtain ⟨l0, e0, h8, h9, -⟩ := Tree.reach_snoc h7
    rw [stepSeg_name hm] at h9
    subst h9
    exact ⟨l0, y, .inl (last hr' hy h7 ⟨e0, h8⟩)⟩
  rcases hx with hx | ⟨a, b, h1, h2, h3, rfl⟩
  · exact one x hx (splitC_of_not_mem hx)
  · rw [splitC_append_sep, splitC_of_not_mem h2, splitC_of_not_mem h3] at hr
    have hr' : t.reach s (((A ++ [MODULE]) ++ [a]) ++ [b]) = some loc := by simpa using hr
    obtain ⟨l1, e, -, -, h7⟩ := Tree.reach_snoc hr'
    obtain ⟨l2, e2, h8, h9, h10⟩ := Tree.reach_snoc h7
    obtain ⟨l0, e0, h11, h12, -⟩ := Tree.reach_snoc h10
    have hv : ValidName a := by
      obtain ⟨r, rfl⟩ := h1
      exact ⟨nofun, h2, by simp, by simp⟩
    rw [stepSeg_name hm] at h12
    rw [stepSeg_name hv] at h9
    subst h9
    have := last hr' h3 h7 ⟨e2, h8⟩
    subst h12
    exact ⟨l0, b, .inr ⟨a, h1, by rw [this]; simp [MODULE]⟩⟩

/-- A new entry of a directory. -/
theorem FileAdded.here {t t' : Tree} {n : Str} {doc : Option Doc} {m : Nat} (hd : t.isDir = true) (hd' : t'.isDir = true)
    (hn : t.child n = none) (hn' : t'.child n = some (.file doc m)) (ho : ∀ k, k ≠ n → t'.child k = t.child k) :
    FileAdded t t' [n] where
  absent := by simp [Tree.at, hn]
  file := ⟨doc, m, by simp [Tree.at, hn']⟩
  dir l := by
    cases l with
    | nil => simp [Tree.at, hd, hd']
    | cons k l =>
      by_cases hk : k = n
      · subst hk
        cases l with
        | nil => simp [Tree.at, hn, hn', Tree.isDir]
        | cons a l =>
          have : (Tree.file doc m).child a = none := rfl
          simp [Tree.at, hn, hn', this]
      · simp [Tree.at, ho k hk]
  other l doc' m' hl := by
    cases l with
    | nil =>
      simp only [Tree.at, Option.some.injEq]
      constructor <;> (rintro rfl; simp [Tree.isDir] at hd hd')
    | cons k l =>
      by_cases hk : k = n
      · subst hk
        cases l with
        | nil => exact (hl rfl).elim
        | cons a l =>
          have : (Tree.file doc m).child a = none := rfl
          simp [Tree.at, hn, hn', this]
      · simp [Tree.at, ho k hk]

/-- A new file further down. -/
theorem FileAdded.under {t t' c c' : Tree} {n : Str} {loc : List Str} (h : FileAdded c c' loc)
    (hd : t.isDir = true) (hd' : t'.isDir = true)
    (hn : t.child n = some c) (hn' : t'.child n = some c') (ho : ∀ k, k ≠ n → t'.child k = t.child k) :
    FileAdded t t' (n :: loc) where
  absent := by simp [Tree.at, hn, h.absent]
  file := by
    obtain ⟨d, m, hf⟩ := h.file
    exact ⟨d, m, by simp [Tree.at, hn', hf]⟩
  dir l := by
    cases l with
    | nil => simp [Tree.at, hd, hd']
    | cons k l =>
      by_cases hk : k = n
      · subst hk
        simpa [Tree.at, hn, hn'] using h.dir l
      · simp [Tree.at, ho k hk]
  other l doc' m' hl := by
    cases l with
    | nil =>
      simp only [Tree.at, Option.some.injEq]
      constructor <;> (rintro rfl; simp [Tree.isDir] at hd hd')
    | cons k l =>
      by_cases hk : k = n
      · subst hk
        have : l ≠ loc := fun e => hl (e ▸ rfl)
        simpa [Tree.at, hn, hn'] using h.other l doc' m' this
      · simp [Tree.at, ho k hk]

end Verif
