import Verif.Proofs.Moved
import Verif.Proofs.TreeFs
/-!
# A directory tree in two places
-/

namespace Verif

/-! ## Requests -/

theorem NoClimb.drop_nil {l m : List Str} (h : NoClimb (l ++ [] :: m)) : NoClimb (l ++ m) := by
  intro pre hp
  rcases prefix_append_cases hp with hp | ⟨r, rfl, hr⟩
  · exact h _ (hp.trans (List.prefix_append ..))
  · have := h (l ++ [] :: r) ((List.prefix_append_right_inj _).2 (List.cons_prefix_cons.2 ⟨rfl, hr⟩))
    simpa [List.countP_append, isName] using this

theorem below_joinBelow {s t : Str} (h : Below (s ++ '/' :: t)) : Below (joinBelow s t) := by
  unfold joinBelow
  split
  · rename_i he
    rcases h with h | ⟨r, h, hr⟩
    · simp at h
    · obtain ⟨ys, hys⟩ := List.getLast?_eq_some_iff.1 (by simpa [endsWithC] using he : s.getLast? = some '/')
      subst hys
      cases ys with
      | nil =>
        obtain ⟨-, rfl⟩ := List.cons.inj h
        refine .inr ⟨t, rfl, ?_⟩
        change NoClimb (splitC '/' ('/' :: t)) at hr
        rw [splitC_cons_sep] at hr
        exact NoClimb.drop_nil (l := []) hr
      | cons y ys =>
        obtain ⟨rfl, rfl⟩ := List.cons.inj h
        refine .inr ⟨ys ++ '/' :: t, by simp, ?_⟩
        change NoClimb (splitC '/' (ys ++ '/' :: [] ++ '/' :: t)) at hr
        rw [splitC_append_sep, splitC_append_sep, List.append_assoc] at hr
        rw [splitC_append_sep]
        exact NoClimb.drop_nil hr
  · exact h

/-- A request that does not lead out of the project. -/
theorem mi_of_asks {o : Opts} {a b : List Str} (ha : IsPlace a) (hb : IsPlace b) {s request : Str} (hs : Below s)
    (h : AsksInside o s request) :
    MI o a b true ⟨absText a ++ s, parseRequest request⟩ ⟨absText b ++ s, parseRequest request⟩ := by
  obtain ⟨h0, h⟩ := h
  have hp := parse_isSplit request
  have hw : MW a b ⟨absText a ++ s, parseRequest request⟩ ⟨absText b ++ s, parseRequest request⟩ :=
    ⟨rfl, ⟨s, hs, rfl, rfl⟩, ⟨h0, tail_start hp.query_start hp.fragment_start⟩⟩
  rcases h with h | ⟨h1, h2, h3, h4⟩
  · exact .of_good hw rfl h
  · refine ⟨hw, rfl, .inr ⟨rfl, h1, ?_, ?_, ?_⟩⟩
    · have habs : isAbs (parseRequest request).target = false := by
        cases hc : isAbs (parseRequest request).target with
        | false => rfl
        | true =>
          obtain ⟨r, hr⟩ := (isAbs_iff _).1 hc
          rw [hr] at h1
          simp [getTargetKind, startsWith, List.isPrefixOf] at h1
      unfold Info.getPath
      split
      · exact hw.path
      · exact ⟨_, below_joinBelow h2, pjoin_below ha hs habs, pjoin_below hb hs habs⟩
    · intro kv hkv
      have := h3 kv hkv
      rw [← startsWith_iff] at this
      simpa using this
    · rcases h4 with h4 | h4 | h4
      · exact .inl h4
      · exact .inr (.inl ((startsWith_iff _ _).2 h4))
      · exact .inr (.inr ((startsWith_iff _ _).2 h4))

/-! ## Trees -/

/-- From below a place, path resolution that does not climb out of it is path resolution in the tree there. -/
theorem Tree.reach_below {t u : Tree} {a : List Str} (hu : t.at a = some u) (l x : List Str)
    (hl : ∀ pre, pre <+: l → pre.countP (· = cs!"..") ≤ x.length + pre.countP isName) :
    t.reach (a ++ x) l = (u.reach x l).map (a ++ ·) := by
  have hat : ∀ x, t.at (a ++ x) = u.at x := by
    intro x
    rw [Tree.at_append, hu]
  induction l generalizing x with
  | nil =>
    unfold Tree.reach
    rw [hat]
    split <;> rfl
  | cons s l ih =>
    unfold Tree.reach
    rw [hat]
    cases hx : u.at x with
    | none => rfl
    | some v =>
      cases v with
      | file _ _ => rfl
      | dir e =>
        simp only
        have hs := hl [s] (List.prefix_append [s] l)
        by_cases hn : isName s = true
        · obtain ⟨h1, h2, h3⟩ := (isName_iff s).1 hn
          have := ih (x ++ [s]) fun pre hp => by
            have := hl (s :: pre) (List.cons_prefix_cons.2 ⟨rfl, hp⟩)
            simp [hn, h3] at this ⊢
            omega
          simpa [enter, h1, h2, h3] using this
        · by_cases hu : s = cs!".."
          · subst hu
            have hx : x ≠ [] := by
              rintro rfl
              exact absurd hs (by decide)
            have := ih x.dropLast fun pre hp => by
              have := hl (cs!".." :: pre) (List.cons_prefix_cons.2 ⟨rfl, hp⟩)
              have h0 : isName cs!".." = false := by decide
              have hpos := List.length_pos_iff.2 hx
              simp [h0] at this ⊢
              omega
            simpa [enter, List.dropLast_append_of_ne_nil hx] using this
          · have := ih x fun pre hp => by
              have := hl (s :: pre) (List.cons_prefix_cons.2 ⟨rfl, hp⟩)
              simpa [hn, hu] using this
            have hc : s = [] ∨ s = cs!"." := by
              simp only [isName_iff] at hn
              grind
            rcases hc with rfl | rfl <;> simpa [enter] using this

/-- Names are entered one after the other. -/
theorem Tree.reach_enter {t : Tree} {names : List Str} (hv : ∀ s ∈ names, ValidName s) (loc l : List Str)
    (h : (t.at (loc ++ names)).isSome) : t.reach loc (names ++ l) = t.reach (loc ++ names) l := by
  induction names generalizing loc with
  | nil => rw [List.append_nil]; rfl
  | cons s names ih =>
    obtain ⟨u, hu⟩ := Option.isSome_iff_exists.1 h
    obtain ⟨e, he⟩ := Tree.dir_of_at_append hu (by simp)
    obtain ⟨h1, -, h2, h3⟩ := hv s (by simp)
    rw [List.cons_append, Tree.reach, he]
    simp only [if_neg h1, enter, if_neg h2, if_neg h3]
    have : loc ++ [s] ++ names = loc ++ s :: names := by simp
    rw [ih (fun x hx => hv x (List.mem_cons_of_mem _ hx)) _ (by rw [this]; exact h), this]

/-- Path resolution inside of the project. -/
def Tree.inside (u : Tree) : Str → Option (List Str)
  | [] => u.reach [] []
  | _ :: t => u.reach [] (splitC '/' t)

theorem Tree.lookup_place {t u : Tree} {cwd a : List Str} (ha : IsPlace a) (hu : t.at a = some u) {s : Str}
    (hs : Below s) : t.lookup cwd (absText a ++ s) = (u.inside s).map (a ++ ·) := by
  obtain ⟨e, he⟩ := Tree.dir_of_at_append (t := t) (a := []) (b := a) hu ha.1
  have hroot : ∀ l, t.reach [] ([] :: l) = t.reach [] l := by
    intro l
    rw [Tree.reach, he]
    simp
  unfold Tree.lookup
  rw [if_neg (by simp [absText]), if_pos (isAbs_place _ _)]
  rcases hs with rfl | ⟨r, rfl, hr⟩
  · have : splitC '/' (absText a ++ []) = [] :: (a ++ []) := by
      rw [List.append_nil, List.append_nil, absText_cons, splitC_cons_sep, splitC_joinC ha.1 (valid_sep ha.valid)]
    rw [this, hroot, Tree.reach_enter ha.valid _ _ (by rw [List.nil_append, hu]; rfl), List.nil_append]
    have := Tree.reach_below hu [] [] (by intro pre hp; rw [List.prefix_nil.1 hp]; simp)
    simpa [Tree.inside] using this
  · obtain ⟨h1, h2⟩ := ha.segs r
    rw [h1, splitC_cons_sep, h2, hroot, Tree.reach_enter ha.valid _ _ (by rw [List.nil_append, hu]; rfl),
      List.nil_append]
    have := Tree.reach_below hu (splitC '/' r) [] (by
      intro pre hp
      have := hr pre hp
      simpa using this)
    simpa [Tree.inside] using this

theorem Tree.node_place {t u : Tree} {cwd a : List Str} (ha : IsPlace a) (hu : t.at a = some u) {s : Str}
    (hs : Below s) : t.node cwd (absText a ++ s) = (u.inside s).bind u.at := by
  unfold Tree.node
  rw [Tree.lookup_place ha hu hs]
  cases u.inside s with
  | none => rfl
  | some y =>
    simp only [Option.map_some, Option.bind_some]
    rw [Tree.at_append, hu]

/-- The same directory in two trees is a moved project. -/
theorem movedTo_tree {t t' u : Tree} {cwd cwd' a b : List Str} (ha : IsPlace a) (hb : IsPlace b)
    (hu : t.at a = some u) (hu' : t'.at b = some u) : MovedTo a b (treeFs t cwd) (treeFs t' cwd') := by
  have hn : ∀ p q, Placed a b p q → t'.node cwd' q = t.node cwd p := by
    rintro p q ⟨s, hs, rfl, rfl⟩
    rw [Tree.node_place ha hu hs, Tree.node_place hb hu' hs]
  refine ⟨fun p q h => ?_, fun p q h => ?_, fun p q h => ?_, fun p q h => ?_, fun p q h => ?_, ?_⟩
  iterate 5 simp only [treeFs, hn p q h]
  rintro p q ⟨s, hs, rfl, rfl⟩
  simp only [treeFs, Tree.lookup_place ha hu hs, Tree.lookup_place hb hu' hs]
  cases hi : u.inside s with
  | none => exact .inl ⟨rfl, rfl⟩
  | some y =>
    refine .inr ⟨_, _, rfl, rfl, belowText y, below_belowText ?_, absText_append ha.1 y, absText_append hb.1 y⟩
    have := Tree.lookup_place (cwd := cwd) ha hu hs
    rw [hi] at this
    have := (Tree.lookup_abs (isAbs_place _ _) this).1
    intro x hx
    exact (normalizeLex_eq (absText a ++ s)).2 x (by rw [← this]; exact List.mem_append_right _ hx)

/-! ## A tree with nothing but the project -/

theorem at_mountAt (a : List Str) (u : Tree) : (mountAt a u).at a = some u := by
  induction a with
  | nil => rfl
  | cons n a ih => simp only [mountAt, Tree.at, Tree.child, alookup]; simpa using ih

theorem isDir_mountAt {a : List Str} {u : Tree} (h : u.isDir = true) : (mountAt a u).isDir = true := by
  cases a with
  | nil => exact h
  | cons n a => rfl

/-- Another way down leads nowhere, and a part of the way to a directory. -/
theorem at_mountAt_cases {a l : List Str} {u v : Tree} (h : (mountAt a u).at l = some v) :
    a <+: l ∨ l <+: a ∧ v.isDir = true := by
  induction a generalizing l with
  | nil => exact .inl (List.nil_prefix)
  | cons n a ih =>
    cases l with
    | nil => cases h; exact .inr ⟨List.nil_prefix, rfl⟩
    | cons m l =>
      simp only [mountAt, Tree.at, Tree.child, alookup] at h
      split at h
      · rename_i t' ht
        split at ht
        · rename_i hnm
          cases ht
          have hnm : n = m := by simpa using hnm
          subst hnm
          rcases ih h with h | ⟨h, h'⟩
          · exact .inl (List.cons_prefix_cons.2 ⟨rfl, h⟩)
          · exact .inr ⟨List.cons_prefix_cons.2 ⟨rfl, h⟩, h'⟩
        · cases ht
      · cases h

theorem Tree.node_names {t : Tree} {cwd l : List Str} (hv : ∀ s ∈ l, ValidName s) {v : Tree}
    (h : t.node cwd (absText l) = some v) : t.at l = some v := by
  unfold Tree.node at h
  cases hl : t.lookup cwd (absText l) with
  | none => rw [hl] at h; cases h
  | some loc =>
    rw [hl] at h
    have := (Tree.lookup_abs (by simpa using isAbs_place l []) hl).1
    rw [absText_eq, normNames_textOf hv] at this
    rwa [this] at h

theorem absText_snoc' {l : List Str} (hl : ∀ s ∈ l, ValidName s) {n : Str} (hn : ValidName n) :
    pjoin (absText l) n = absText (l ++ [n]) := by
  have ha : isAbs n = false := isAbs_false_of fun r e => hn.2.1 (by rw [e]; simp)
  by_cases h : l = []
  · subst h
    unfold pjoin
    rw [ha]
    simp [absText, endsWithC]
  · have hp : IsPlace l := ⟨h, fun s hs => by
      obtain ⟨h1, h2, h3, h4⟩ := hl s hs
      exact ⟨(isName_iff s).2 ⟨h1, h3, h4⟩, h2⟩⟩
    have := pjoin_below hp (.inl rfl) ha
    rw [List.append_nil] at this
    rw [this, absText_append h]
    simp [joinBelow, belowText, endsWithC, joinC]

/-- Nothing outside of the project has a say if there is nothing. -/
theorem alone_mountAt {o : Opts} {a cwd : List Str} {u : Tree} (ha : IsPlace a) (hu : u.isDir = true)
    (hm : cs!"node_modules" ∉ a) (hd : ∀ desc, o.descriptionFile = some desc → ValidName desc)
    (he : ∀ e ∈ o.extensions, '/' ∉ e) : OnItsOwn o (treeFs (mountAt a u) cwd) a := by
  have hl : ∀ {l : List Str} {n : Str}, l <+: a → ValidName n → ∀ s ∈ l ++ [n], ValidName s := by
    intro l n h hn s hs
    rcases List.mem_append.1 hs with hs | hs
    · exact ha.valid s (h.subset hs)
    · rw [List.mem_singleton.1 hs]; exact hn
  -- the entries of the directories above
  have key : ∀ {l : List Str} {n : Str} {v : Tree}, l <+: a → l ≠ a → ValidName n →
      (mountAt a u).node cwd (pjoin (absText l) n) = some v → v.isDir = true ∧ n ∈ a := by
    intro l n v h hne hn hv
    rw [absText_snoc' (fun s hs => ha.valid s (h.subset hs)) hn] at hv
    have hv := Tree.node_names (hl h hn) hv
    have hlen : l.length < a.length := by
      rcases Nat.lt_or_ge l.length a.length with h' | h'
      · exact h'
      · exact absurd (h.eq_of_length_le h') hne
    rcases at_mountAt_cases hv with h' | ⟨h', h''⟩
    · have : a = l ++ [n] := h'.eq_of_length_le (by simp; omega)
      subst this
      rw [at_mountAt] at hv
      cases hv
      exact ⟨hu, by simp⟩
    · exact ⟨h'', h'.subset (by simp)⟩
  refine ⟨fun l desc h hne hdesc => ?_, fun l h hne => ?_, fun e hext hne => ?_⟩
  · simp only [treeFs]
    split
    · rename_i hv
      exact absurd (key h hne (hd _ hdesc) hv).1 (by simp [Tree.isDir])
    · rfl
  · simp only [treeFs]
    split
    · rename_i hv
      exact absurd (key h hne (by unfold ValidName; decide) hv).2 hm
    · rfl
  · simp only [treeFs]
    split
    · rename_i d m hv
      obtain ⟨l, x, rfl⟩ : ∃ l x, a = l ++ [x] := by
        cases List.eq_nil_or_concat a with
        | inl h => exact absurd h ha.1
        | inr h => obtain ⟨l, x, h⟩ := h; exact ⟨l, x, by simpa using h⟩
      obtain ⟨h1, h2, h3, h4⟩ := ha.valid x (by simp)
      have hx : ValidName (x ++ e) := by
        refine ⟨by simp [h1], by simp [h2, he e hext], ?_, ?_⟩
        · intro h
          match x, e with
          | [], _ => exact h1 rfl
          | [_], [] => exact hne rfl
          | [_], _ :: _ => simp at h
          | _ :: _ :: _, _ => simp at h
        · intro h
          match x, e with
          | [], _ => exact h1 rfl
          | [c], _ => simp at h; exact h3 (by rw [h.1])
          | [_, _], [] => exact hne rfl
          | [_, _], _ :: _ => simp at h
          | _ :: _ :: _ :: _, _ => simp at h
      have heq : absText (l ++ [x]) ++ e = absText (l ++ [x ++ e]) := by
        by_cases hl' : l = []
        · subst hl'; simp [absText]
        · rw [absText_append hl', absText_append hl']
          simp [belowText, joinC]
      rw [heq] at hv
      have hv := Tree.node_names (fun s hs => by
        rcases List.mem_append.1 hs with hs | hs
        · exact ha.valid s (by simp [hs])
        · rw [List.mem_singleton.1 hs]; exact hx) hv
      rcases at_mountAt_cases hv with h | ⟨h, -⟩
      · have := h.eq_of_length_le (by simp)
        simp at this
        exact absurd this hne
      · have := h.eq_of_length_le (by simp)
        simp at this
        exact absurd this hne
    · rfl

end Verif
