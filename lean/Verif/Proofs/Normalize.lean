import Verif.Proofs.Path
import Verif.Spec.Path
/-!
# Lexical normalisation
-/

namespace Verif

/-- A file name: what a `Normal` component holds. -/
def ValidName (s : Str) : Prop := s ≠ [] ∧ '/' ∉ s ∧ s ≠ cs!"." ∧ s ≠ cs!".."

theorem segComp_valid {s : Str} (h : ValidName s) : segComp s = some (.normal s) := by
  simp [segComp, h.1, h.2.2.1, h.2.2.2]

theorem segComps_valid {l : List Str} (h : ∀ s ∈ l, ValidName s) :
    segComps l = l.map Comp.normal := by
  induction l with
  | nil => rfl
  | cons x l ih =>
    rw [segComps, List.filterMap_cons_some (segComp_valid (h x (by simp))), List.map_cons]
    congr 1
    exact ih (fun s hs => h s (List.mem_cons_of_mem _ hs))

/-- A component list as it comes out of segments. -/
theorem valid_of_mem_segComps {l : List Str} (hl : ∀ s ∈ l, '/' ∉ s) {c : Comp}
    (h : c ∈ segComps l) : c = .up ∨ ∃ s, c = .normal s ∧ ValidName s := by
  obtain ⟨s, hs, hc⟩ := List.mem_filterMap.1 h
  unfold segComp at hc
  split at hc
  · cases hc
  · split at hc
    · cases hc
    · split at hc
      · left; simpa using hc.symm
      · right
        refine ⟨s, by simpa using hc.symm, ?_, hl s hs, ?_, ?_⟩ <;> assumption

/-- A relative or absolute text for a list of names. -/
def textOf (abs : Bool) (names : List Str) : Str :=
  (if abs then cs!"/" else []) ++ joinC '/' names

theorem joinC_eq_intercalate (l : List Str) : joinC '/' l = List.intercalate ['/'] l := by
  induction l with
  | nil => rfl
  | cons x l ih =>
    cases l with
    | nil => simp [joinC, List.intercalate, List.intersperse]
    | cons y l =>
      rw [joinC_cons_cons, ih]
      simp [List.intercalate, List.intersperse]

theorem absText_eq (l : List Str) : absText l = textOf true l := by
  simp [absText, textOf, joinC_eq_intercalate]

/-- The name stack after one component. -/
def stepComp (names : List Str) (c : Comp) : List Str :=
  match c with
  | .normal s => names ++ [s]
  | .up => names.dropLast
  | _ => names

theorem valid_sep {names : List Str} (h : ∀ s ∈ names, ValidName s) : ∀ s ∈ names, '/' ∉ s :=
  fun s hs => (h s hs).2.1

theorem endsWithC_joinC {names : List Str} (h : ∀ s ∈ names, ValidName s) (hne : names ≠ []) :
    endsWithC (joinC '/' names) '/' = false ∧ joinC '/' names ≠ [] := by
  obtain ⟨x, hx⟩ : ∃ x, names.getLast? = some x := by
    cases hn : names.getLast? with
    | none => exact absurd (by simpa using hn) hne
    | some x => exact ⟨x, rfl⟩
  have e := eq_dropLast_append hx
  have hv := h x (List.mem_of_getLast? hx)
  obtain ⟨y, hy⟩ : ∃ y, x.getLast? = some y := by
    cases hn : x.getLast? with
    | none => exact absurd (by simpa using hn) hv.1
    | some x => exact ⟨x, rfl⟩
  have hy' : y ≠ '/' := by rintro rfl; exact hv.2.1 (List.mem_of_getLast? hy)
  have hlast : (joinC '/' names).getLast? = some y := by
    rw [e]
    by_cases hd : names.dropLast = []
    · simp [hd, joinC, hy]
    · rw [joinC_append hd (by simp)]
      simp [joinC, List.getLast?_append, List.getLast?_cons, hy]
  constructor
  · simp [endsWithC, hlast, hy']
  · intro hnil; rw [hnil] at hlast; simp at hlast

theorem normStep_name {abs : Bool} {names : List Str} (h : ∀ s ∈ names, ValidName s) {s : Str}
    (hs : ValidName s) : pjoin (textOf abs names) s = textOf abs (names ++ [s]) := by
  have ha : isAbs s = false := by
    apply isAbs_false_of
    rintro r rfl
    exact hs.2.1 (by simp)
  unfold pjoin
  rw [ha]
  simp only [Bool.false_eq_true, if_false]
  by_cases hn : names = []
  · subst hn
    cases abs <;> simp [textOf, joinC, endsWithC]
  · obtain ⟨h1, h2⟩ := endsWithC_joinC h hn
    rw [textOf, textOf, joinC_append hn (by simp)]
    have : endsWithC ((if abs then cs!"/" else []) ++ joinC '/' names) '/' = false := by
      unfold endsWithC at h1 ⊢
      rw [List.getLast?_append]
      cases hj : (joinC '/' names).getLast? with
      | none => simp at hj; exact absurd hj h2
      | some y => rw [hj] at h1; simpa using h1
    rw [this]
    simp [h2, joinC]

theorem trimSegs_valid {l : List Str} (h : ∀ s ∈ l, ValidName s) : trimSegs l = l := by
  unfold trimSegs
  have : l.reverse.dropWhile (fun s => (segComp s).isNone) = l.reverse := by
    cases hr : l.reverse with
    | nil => rfl
    | cons x m =>
      have hx : x ∈ l := by rw [← List.mem_reverse, hr]; simp
      rw [List.dropWhile_cons_of_neg]
      simp [segComp_valid (h x hx)]
  rw [this, List.reverse_reverse]

theorem parentSegs_valid {l : List Str} (h : ∀ s ∈ l, ValidName s) : parentSegs l = l.dropLast := by
  unfold parentSegs
  rw [trimSegs_valid h, trimSegs_valid (fun s hs => h s (List.dropLast_subset _ hs))]

theorem plainStart_valid {names : List Str} (h : ∀ s ∈ names, ValidName s) :
    plainStart (joinC '/' names) := by
  apply plainStart_joinC (valid_sep h)
  rintro hd tl rfl
  have := h hd (by simp)
  exact ⟨this.1, this.2.2.1⟩

theorem segComps_splitC_valid {names : List Str} (h : ∀ s ∈ names, ValidName s) :
    segComps (splitC '/' (joinC '/' names)) = names.map Comp.normal := by
  rw [segComps_splitC_joinC (valid_sep h), segComps_valid h]

theorem normStep_up {abs : Bool} {names : List Str} (h : ∀ s ∈ names, ValidName s) :
    ppop (textOf abs names) = textOf abs names.dropLast := by
  unfold ppop
  cases abs with
  | true =>
    have e : textOf true names = '/' :: joinC '/' names := rfl
    rw [e, pparent_abs, segComps_splitC_valid h]
    by_cases hn : names = []
    · subst hn; rfl
    · rw [if_neg (by simpa using hn), splitC_joinC hn (valid_sep h), parentSegs_valid h]
      rfl
  | false =>
    have e : textOf false names = joinC '/' names := rfl
    rw [e, pparent_plain (plainStart_valid h), segComps_splitC_valid h]
    by_cases hn : names = []
    · subst hn; rfl
    · rw [if_neg (by simpa using hn), splitC_joinC hn (valid_sep h), parentSegs_valid h]
      rfl

theorem stepComp_valid {names : List Str} (h : ∀ s ∈ names, ValidName s) {c : Comp}
    (hc : c = .up ∨ ∃ s, c = .normal s ∧ ValidName s) : ∀ s ∈ stepComp names c, ValidName s := by
  rcases hc with rfl | ⟨s, rfl, hs⟩
  · intro s hs; exact h s (List.dropLast_subset _ hs)
  · intro t ht
    rcases List.mem_append.1 ht with ht | ht
    · exact h t ht
    · rw [List.mem_singleton.1 ht]; exact hs

theorem foldl_normStep {abs : Bool} {l : List Comp}
    (hl : ∀ c ∈ l, c = .up ∨ ∃ s, c = .normal s ∧ ValidName s) {names : List Str}
    (h : ∀ s ∈ names, ValidName s) :
    l.foldl normStep (textOf abs names) = textOf abs (l.foldl stepComp names) ∧
      ∀ s ∈ l.foldl stepComp names, ValidName s := by
  induction l generalizing names with
  | nil => exact ⟨rfl, h⟩
  | cons c l ih =>
    have hc := hl c (by simp)
    have : normStep (textOf abs names) c = textOf abs (stepComp names c) := by
      rcases hc with rfl | ⟨s, rfl, hs⟩
      · exact normStep_up h
      · exact normStep_name h hs
    rw [List.foldl_cons, List.foldl_cons, this]
    exact ih (fun c hc => hl c (List.mem_cons_of_mem _ hc)) (stepComp_valid h hc)

/-- The shape of the components of a path. -/
theorem comps_shape (p : Str) :
    ∃ l : List Comp, (comps p = l ∨ comps p = .root :: l ∨ comps p = .cur :: l) ∧
      (isAbs p = true ↔ comps p = .root :: l) ∧
      ∀ c ∈ l, c = .up ∨ ∃ s, c = .normal s ∧ ValidName s := by
  have hv : ∀ (s : Str), ∀ c ∈ segComps (splitC '/' s), c = .up ∨ ∃ s, c = .normal s ∧ ValidName s :=
    fun s c hc => valid_of_mem_segComps (fun _ h => not_mem_of_mem_splitC h) hc
  rcases start_cases p with ⟨r, rfl⟩ | rfl | ⟨r, rfl⟩ | hp
  · refine ⟨_, .inr (.inl (comps_abs r)), ?_, hv r⟩
    simp [comps_abs, isAbs, startsWith, List.isPrefixOf]
  · exact ⟨[], .inr (.inr (by decide)), by decide, by simp⟩
  · refine ⟨_, .inr (.inr (comps_dotSlash r)), ?_, hv r⟩
    simp [comps_dotSlash, isAbs, startsWith, List.isPrefixOf]
  · refine ⟨_, .inl (comps_plain hp), ?_, hv p⟩
    rw [isAbs_false_of hp.1, comps_plain hp]
    simp

/-- Names left after following all components. -/
def normNames (p : Str) : List Str := (comps p).foldl stepComp []

theorem normalizeLex_eq (p : Str) :
    normalizeLex p = textOf (isAbs p) (normNames p) ∧ ∀ s ∈ normNames p, ValidName s := by
  obtain ⟨l, h1, h2, h3⟩ := comps_shape p
  unfold normalizeLex normNames
  cases ha : isAbs p with
  | true =>
    rw [h2.1 ha, List.foldl_cons, List.foldl_cons]
    exact foldl_normStep (abs := true) (names := []) h3 (by simp)
  | false =>
    have : comps p = l ∨ comps p = .cur :: l := by
      rcases h1 with h | h | h
      · exact .inl h
      · rw [h2.2 h] at ha; cases ha
      · exact .inr h
    rcases this with h | h
    · rw [h]; exact foldl_normStep (abs := false) (names := []) h3 (by simp)
    · rw [h, List.foldl_cons, List.foldl_cons]
      exact foldl_normStep (abs := false) (names := []) h3 (by simp)

theorem isAbs_textOf {abs : Bool} {names : List Str} (h : ∀ s ∈ names, ValidName s) :
    isAbs (textOf abs names) = abs := by
  cases abs with
  | true => simp [textOf, isAbs, startsWith, List.isPrefixOf]
  | false => exact isAbs_false_of (plainStart_valid h).1

theorem comps_textOf {abs : Bool} {names : List Str} (h : ∀ s ∈ names, ValidName s) :
    comps (textOf abs names) = (if abs then [.root] else []) ++ names.map Comp.normal := by
  cases abs with
  | true => rw [show textOf true names = '/' :: joinC '/' names from rfl, comps_abs,
      segComps_splitC_valid h]; rfl
  | false => rw [show textOf false names = joinC '/' names from rfl,
      comps_plain (plainStart_valid h), segComps_splitC_valid h]; rfl

theorem foldl_stepComp_normal (names acc : List Str) :
    (names.map Comp.normal).foldl stepComp acc = acc ++ names := by
  induction names generalizing acc with
  | nil => simp
  | cons x l ih => rw [List.map_cons, List.foldl_cons, ih]; simp [stepComp]

theorem normNames_textOf {abs : Bool} {names : List Str} (h : ∀ s ∈ names, ValidName s) :
    normNames (textOf abs names) = names := by
  unfold normNames
  rw [comps_textOf h, List.foldl_append]
  have : (if abs then [Comp.root] else []).foldl stepComp [] = [] := by cases abs <;> rfl
  rw [this, foldl_stepComp_normal]; rfl

/-! ## Agreement with the walk -/

/-- One segment, as the specification reads it. -/
def stepSeg (loc : List Str) (s : Str) : List Str := if s = [] then loc else enter loc s

theorem foldl_stepSeg (l : List Str) (loc : List Str) :
    l.foldl stepSeg loc = (segComps l).foldl stepComp loc := by
  induction l generalizing loc with
  | nil => rfl
  | cons s l ih =>
    rw [List.foldl_cons, ih]
    have : stepSeg loc s = ((segComp s).toList).foldl stepComp loc := by
      unfold stepSeg enter segComp
      split
      · rfl
      · split
        · rfl
        · split <;> rfl
    rw [this]
    cases hh : segComp s with
    | none => rw [segComps, segComps, List.filterMap_cons_none hh]; rfl
    | some c => rw [segComps, segComps, List.filterMap_cons_some hh]; rfl

theorem walk_exists (loc : List Str) (p : Str) : ∃ loc', Walk loc p loc' := by
  induction hn : p.length using Nat.strongRecOn generalizing loc p with
  | _ n ih =>
    subst hn
    cases p with
    | nil => exact ⟨loc, .done _⟩
    | cons x xs =>
      by_cases hx : x = '/'
      · subst hx
        obtain ⟨l, h⟩ := ih xs.length (by simp) loc xs rfl
        exact ⟨l, .sep h⟩
      · have e := List.takeWhile_append_dropWhile (p := fun c => c != '/') (l := x :: xs)
        have hne : (x :: xs).takeWhile (fun c => c != '/') ≠ [] := by
          rw [List.takeWhile_cons_of_pos (by simpa using hx)]; simp
        have hmem : '/' ∉ (x :: xs).takeWhile (fun c => c != '/') := by
          intro h
          have := List.all_takeWhile (p := fun c : Char => c != '/') (l := x :: xs)
          have := List.all_eq_true.1 this _ h
          simp at this
        have htail : (x :: xs).dropWhile (fun c => c != '/') = [] ∨
            ∃ r, (x :: xs).dropWhile (fun c => c != '/') = '/' :: r := by
          have := List.head?_dropWhile_not (fun c : Char => c != '/') (x :: xs)
          cases hd : (x :: xs).dropWhile (fun c => c != '/') with
          | nil => exact .inl rfl
          | cons y r => rw [hd] at this; right; simp at this; exact ⟨r, by rw [this]⟩
        generalize (x :: xs).takeWhile (fun c => c != '/') = a at *
        generalize (x :: xs).dropWhile (fun c => c != '/') = b at *
        obtain ⟨l, h⟩ := ih b.length (by
          rw [← e]
          have : 0 < a.length := List.length_pos_iff.2 hne
          simp; omega) (enter loc a) b rfl
        exact ⟨l, e ▸ .step hne hmem htail h⟩

theorem walk_eq_foldl {loc loc' : List Str} {p : Str} (h : Walk loc p loc') :
    loc' = (splitC '/' p).foldl stepSeg loc := by
  induction h with
  | done loc => rfl
  | sep _ ih => rw [splitC_cons_sep, List.foldl_cons, ih]; rfl
  | @step loc loc' name text hne hsep ht _ ih =>
    rcases ht with rfl | ⟨r, rfl⟩
    · rw [List.append_nil, splitC_of_not_mem hsep, ih]
      simp [splitC, stepSeg, hne]
    · rw [splitC_append_sep, splitC_of_not_mem hsep, ih, splitC_cons_sep]
      simp [stepSeg, hne]

theorem walk_normNames {p : Str} {loc : List Str} (h : Walk [] p loc) : loc = normNames p := by
  rw [walk_eq_foldl h, foldl_stepSeg, normNames]
  rcases start_cases p with ⟨r, rfl⟩ | rfl | ⟨r, rfl⟩ | hp
  · rw [splitC_cons_sep, comps_abs, segComps, List.filterMap_cons_none segComp_nil]; rfl
  · rfl
  · have := body_comps_rel (p := '.' :: '/' :: r) (by intro r e; cases e)
    rw [comps_dotSlash] at this ⊢
    rw [← this]; rfl
  · rw [comps_plain hp]

end Verif
