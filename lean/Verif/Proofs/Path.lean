import Verif.Model.Path
/-!
# Lemmas about paths
-/

namespace Verif

theorem eq_dropLast_append {α : Type} {l : List α} {x : α} (h : l.getLast? = some x) :
    l = l.dropLast ++ [x] := by
  obtain ⟨ys, rfl⟩ := List.getLast?_eq_some_iff.1 h
  simp

/-! ## Splitting and joining -/

theorem splitC_ne_nil (c : Char) (s : Str) : splitC c s ≠ [] := by
  cases s with
  | nil => simp [splitC]
  | cons x xs =>
    unfold splitC
    split
    · simp
    · split <;> simp

theorem splitC_cons_sep (c : Char) (s : Str) : splitC c (c :: s) = [] :: splitC c s := by
  simp [splitC]

theorem splitC_cons_ne {c x : Char} (s : Str) (h : x ≠ c) :
    ∃ hd tl, splitC c s = hd :: tl ∧ splitC c (x :: s) = (x :: hd) :: tl := by
  have := splitC_ne_nil c s
  match hs : splitC c s with
  | [] => exact absurd hs this
  | hd :: tl => exact ⟨hd, tl, rfl, by simp [splitC, h, hs]⟩

theorem joinC_cons_cons (c : Char) (x : Str) (y : Str) (l : List Str) :
    joinC c (x :: y :: l) = x ++ c :: joinC c (y :: l) := rfl

theorem joinC_cons_of_ne (c : Char) (x : Str) {l : List Str} (h : l ≠ []) :
    joinC c (x :: l) = x ++ c :: joinC c l := by
  cases l with
  | nil => exact absurd rfl h
  | cons y l => rfl

theorem joinC_splitC (c : Char) (s : Str) : joinC c (splitC c s) = s := by
  induction s with
  | nil => rfl
  | cons x xs ih =>
    by_cases h : x = c
    · subst h
      rw [splitC_cons_sep, joinC_cons_of_ne _ _ (splitC_ne_nil _ _), ih]; rfl
    · obtain ⟨hd, tl, h1, h2⟩ := splitC_cons_ne xs h
      rw [h2]
      rw [h1] at ih
      cases tl with
      | nil => simpa [joinC] using ih
      | cons y tl => simpa [joinC] using ih

theorem splitC_append_sep (c : Char) (a b : Str) :
    splitC c (a ++ c :: b) = splitC c a ++ splitC c b := by
  induction a with
  | nil => simp [splitC]
  | cons x xs ih =>
    by_cases h : x = c
    · subst h
      rw [List.cons_append, splitC_cons_sep, splitC_cons_sep, ih]; rfl
    · obtain ⟨hd, tl, h1, h2⟩ := splitC_cons_ne xs h
      obtain ⟨hd', tl', h1', h2'⟩ := splitC_cons_ne (xs ++ c :: b) h
      rw [List.cons_append, h2, h2']
      rw [ih, h1] at h1'
      simp at h1'
      simp [h1'.1, h1'.2]

theorem splitC_of_not_mem {c : Char} {s : Str} (h : c ∉ s) : splitC c s = [s] := by
  induction s with
  | nil => rfl
  | cons x xs ih =>
    simp at h
    have hx : x ≠ c := fun e => h.1 e.symm
    simp [splitC, hx, ih h.2]

theorem not_mem_of_mem_splitC {c : Char} {s p : Str} (h : p ∈ splitC c s) : c ∉ p := by
  induction s generalizing p with
  | nil => simp [splitC] at h; simp [h]
  | cons x xs ih =>
    by_cases hx : x = c
    · subst hx
      rw [splitC_cons_sep] at h
      rcases List.mem_cons.1 h with rfl | h
      · simp
      · exact ih h
    · obtain ⟨hd, tl, h1, h2⟩ := splitC_cons_ne xs hx
      rw [h2] at h
      rcases List.mem_cons.1 h with rfl | h
      · have := ih (p := hd) (by rw [h1]; simp)
        intro hc
        rcases List.mem_cons.1 hc with hc | hc
        · exact hx hc.symm
        · exact this hc
      · exact ih (by rw [h1]; simp [h])

theorem splitC_joinC {c : Char} {l : List Str} (hl : l ≠ []) (h : ∀ s ∈ l, c ∉ s) :
    splitC c (joinC c l) = l := by
  induction l with
  | nil => exact absurd rfl hl
  | cons x l ih =>
    cases l with
    | nil => exact splitC_of_not_mem (h x (by simp))
    | cons y l =>
      rw [joinC_cons_cons, splitC_append_sep, splitC_of_not_mem (h x (by simp)),
        ih (by simp) (fun s hs => h s (List.mem_cons_of_mem _ hs))]
      rfl

theorem splitC_inj {c : Char} {a b : Str} (h : splitC c a = splitC c b) : a = b := by
  rw [← joinC_splitC c a, ← joinC_splitC c b, h]

theorem joinC_append {c : Char} {a b : List Str} (ha : a ≠ []) (hb : b ≠ []) :
    joinC c (a ++ b) = joinC c a ++ c :: joinC c b := by
  induction a with
  | nil => exact absurd rfl ha
  | cons x a ih =>
    cases a with
    | nil => exact joinC_cons_of_ne _ _ hb
    | cons y a =>
      have : (x :: y :: a) ++ b = x :: (y :: a ++ b) := rfl
      rw [this, joinC_cons_of_ne _ _ (by simp), joinC_cons_cons, ih (by simp)]
      simp

/-! ## Components -/

/-- The components of a list of segments, away from the start of a path. -/
abbrev segComps (l : List Str) : List Comp := l.filterMap segComp

theorem segComps_append (a b : List Str) : segComps (a ++ b) = segComps a ++ segComps b :=
  List.filterMap_append

@[simp] theorem segComp_nil : segComp [] = none := rfl
@[simp] theorem segComp_dot : segComp cs!"." = none := rfl
@[simp] theorem segComp_up : segComp cs!".." = some .up := rfl

theorem comps_abs (r : Str) : comps ('/' :: r) = .root :: segComps (splitC '/' r) := rfl

theorem comps_rel {p : Str} (h : ∀ r, p ≠ '/' :: r) {hd : Str} {tl : List Str}
    (hs : splitC '/' p = hd :: tl) :
    comps p = (if hd = cs!"." then [.cur] else (segComp hd).toList) ++ segComps tl := by
  unfold comps
  split
  · exact absurd rfl (h _)
  · rw [hs]

/-- Components without the marker of a leading `.`. -/
def body (l : List Comp) : List Comp :=
  match l with
  | .cur :: t => t
  | l => l

theorem segComp_ne_cur (s : Str) : segComp s ≠ some .cur := by
  unfold segComp; repeat' split
  all_goals simp

theorem segComp_ne_root (s : Str) : segComp s ≠ some .root := by
  unfold segComp; repeat' split
  all_goals simp

theorem cur_not_mem_segComps (l : List Str) : Comp.cur ∉ segComps l := by
  simp only [List.mem_filterMap, not_exists, not_and]
  exact fun s _ => segComp_ne_cur s

theorem root_not_mem_segComps (l : List Str) : Comp.root ∉ segComps l := by
  simp only [List.mem_filterMap, not_exists, not_and]
  exact fun s _ => segComp_ne_root s

theorem body_segComps (l : List Str) : body (segComps l) = segComps l := by
  unfold body
  split
  · rename_i t h
    exact absurd (h ▸ List.mem_cons_self) (cur_not_mem_segComps l)
  · rfl

/-- For a relative path, the body of the components is that of its segments. -/
theorem body_comps_rel {p : Str} (h : ∀ r, p ≠ '/' :: r) : body (comps p) = segComps (splitC '/' p) := by
  match hs : splitC '/' p with
  | [] => exact absurd hs (splitC_ne_nil _ _)
  | hd :: tl =>
    rw [comps_rel h hs]
    by_cases hd' : hd = cs!"."
    · subst hd'; simp only [if_true, List.cons_append, List.nil_append, body]
      rw [segComps, segComps, List.filterMap_cons_none segComp_dot]
    · simp only [hd', if_false]
      have : (segComp hd).toList ++ segComps tl = segComps (hd :: tl) := by
        cases hh : segComp hd <;> simp [hh]
      rw [this, body_segComps]

theorem isAbs_iff (p : Str) : isAbs p = true ↔ ∃ r, p = '/' :: r := by
  unfold isAbs startsWith
  cases p with
  | nil => simp
  | cons x xs =>
    simp only [List.isPrefixOf, Bool.and_true, beq_iff_eq, List.cons.injEq]
    constructor
    · rintro rfl; exact ⟨xs, rfl, rfl⟩
    · rintro ⟨r, rfl, -⟩; rfl

theorem isAbs_false {p : Str} (h : isAbs p = false) : ∀ r, p ≠ '/' :: r := by
  intro r e
  have := (isAbs_iff p).2 ⟨r, e⟩
  rw [h] at this; cases this

theorem isAbs_false_of {p : Str} (h : ∀ r, p ≠ '/' :: r) : isAbs p = false := by
  cases hp : isAbs p with
  | false => rfl
  | true => obtain ⟨r, e⟩ := (isAbs_iff p).1 hp; exact absurd e (h r)

/-- Joining, as raw text: a non-empty left part, one separator, the right part. -/
theorem pjoin_text {p q : Str} (hp : p ≠ []) (hq : isAbs q = false) :
    ∃ p0, (p = p0 ∧ endsWithC p '/' = false ∨ p = p0 ++ cs!"/") ∧ pjoin p q = p0 ++ '/' :: q := by
  unfold pjoin
  rw [hq]
  cases he : endsWithC p '/' with
  | false => exact ⟨p, .inl ⟨rfl, rfl⟩, by simp [hp]⟩
  | true =>
    have hl : p.getLast? = some '/' := by simpa [endsWithC] using he
    refine ⟨p.dropLast, .inr ?_, ?_⟩
    · exact eq_dropLast_append hl
    · have : p = p.dropLast ++ cs!"/" := eq_dropLast_append hl
      rw [if_neg (by simp), if_pos (by simp)]
      conv => lhs; rw [this]
      simp

theorem comps_append_sep_of_ne {p0 q : Str} (h : p0 ≠ []) :
    comps (p0 ++ '/' :: q) = comps p0 ++ segComps (splitC '/' q) := by
  cases p0 with
  | nil => exact absurd rfl h
  | cons x xs =>
    by_cases hx : x = '/'
    · subst hx
      rw [List.cons_append, comps_abs, comps_abs, splitC_append_sep, segComps_append]; rfl
    · have h1 : ∀ r, (x :: xs) ≠ '/' :: r := by intro r e; cases e; exact hx rfl
      have h2 : ∀ r, (x :: xs) ++ '/' :: q ≠ '/' :: r := by
        intro r e; simp at e; exact hx e.1
      match hs : splitC '/' (x :: xs) with
      | [] => exact absurd hs (splitC_ne_nil _ _)
      | hd :: tl =>
        have hs' : splitC '/' ((x :: xs) ++ '/' :: q) = hd :: (tl ++ splitC '/' q) := by
          rw [splitC_append_sep, hs]; rfl
        rw [comps_rel h1 hs, comps_rel h2 hs', segComps_append, List.append_assoc]

/-- Components of a join with a relative path. -/
theorem comps_pjoin {p q : Str} (hp : p ≠ []) (hq : isAbs q = false) :
    comps (pjoin p q) = comps p ++ body (comps q) := by
  obtain ⟨p0, h1, h2⟩ := pjoin_text hp hq
  rw [h2, body_comps_rel (isAbs_false hq)]
  rcases h1 with ⟨rfl, -⟩ | rfl
  · exact comps_append_sep_of_ne hp
  · cases p0 with
    | nil => rfl
    | cons x xs =>
      rw [comps_append_sep_of_ne (by simp), show (x :: xs) ++ cs!"/" = (x :: xs) ++ '/' :: [] from rfl,
        comps_append_sep_of_ne (by simp)]
      simp [splitC]

theorem pjoin_nil_left (q : Str) : pjoin [] q = q := by
  unfold pjoin; split <;> simp

theorem pjoin_abs {p q : Str} (hq : isAbs q = true) : pjoin p q = q := by simp [pjoin, hq]

theorem pjoin_ne_nil {p q : Str} (hp : p ≠ []) (hq : isAbs q = false) : pjoin p q ≠ [] := by
  obtain ⟨p0, -, h⟩ := pjoin_text hp hq
  rw [h]; simp

theorem isAbs_pjoin_left {p : Str} (q : Str) (hp : isAbs p = true) : isAbs (pjoin p q) = true := by
  cases hq : isAbs q with
  | true => rw [pjoin_abs hq, hq]
  | false =>
    obtain ⟨r, rfl⟩ := (isAbs_iff p).1 hp
    unfold pjoin
    rw [hq]; simp only [Bool.false_eq_true, if_false]
    split <;> simp [isAbs, startsWith, List.isPrefixOf]

/-! ## Parent -/

theorem segComps_trimSegs (l : List Str) : segComps (trimSegs l) = segComps l := by
  unfold trimSegs segComps
  conv => rhs; rw [← List.reverse_reverse l]
  rw [List.filterMap_reverse, List.filterMap_reverse]
  congr 1
  generalize l.reverse = m
  induction m with
  | nil => rfl
  | cons x m ih =>
    rw [List.dropWhile_cons]
    split
    · rename_i hx
      rw [ih]
      cases hh : segComp x with
      | none => simp [hh]
      | some v => simp [hh] at hx
    · rfl

theorem trimSegs_last {l : List Str} {x : Str} (h : (trimSegs l).getLast? = some x) :
    ∃ c, segComp x = some c := by
  unfold trimSegs at h
  rw [List.getLast?_reverse] at h
  have := List.head?_dropWhile_not (fun s => (segComp s).isNone) l.reverse
  rw [h] at this
  cases hh : segComp x with
  | none => simp [hh] at this
  | some c => exact ⟨c, rfl⟩

theorem trimSegs_prefix (l : List Str) : ∃ t, l = trimSegs l ++ t := by
  unfold trimSegs
  refine ⟨(l.reverse.takeWhile fun s => (segComp s).isNone).reverse, ?_⟩
  rw [← List.reverse_append, List.takeWhile_append_dropWhile, List.reverse_reverse]

theorem trimSegs_eq_nil_iff (l : List Str) : trimSegs l = [] ↔ segComps l = [] := by
  constructor
  · intro h; rw [← segComps_trimSegs, h]; rfl
  · intro h
    cases hl : (trimSegs l).getLast? with
    | none => simpa using hl
    | some x =>
      obtain ⟨c, hc⟩ := trimSegs_last hl
      rw [← segComps_trimSegs] at h
      have hx : x ∈ trimSegs l := List.mem_of_getLast? hl
      have : c ∈ segComps (trimSegs l) := List.mem_filterMap.2 ⟨x, hx, hc⟩
      rw [h] at this; cases this

theorem segComps_dropLast_trimSegs (l : List Str) :
    segComps (trimSegs l).dropLast = (segComps l).dropLast := by
  cases hl : (trimSegs l).getLast? with
  | none =>
    have : trimSegs l = [] := by simpa using hl
    rw [this, (trimSegs_eq_nil_iff l).1 this]; rfl
  | some x =>
    obtain ⟨c, hc⟩ := trimSegs_last hl
    have e : trimSegs l = (trimSegs l).dropLast ++ [x] :=
      eq_dropLast_append hl
    rw [← segComps_trimSegs l]
    conv => rhs; rw [e, segComps_append]
    simp [hc]

theorem segComps_splitC_joinC {l : List Str} (h : ∀ s ∈ l, '/' ∉ s) :
    segComps (splitC '/' (joinC '/' l)) = segComps l := by
  cases l with
  | nil => rfl
  | cons x l => rw [splitC_joinC (by simp) h]

theorem mem_of_mem_trimSegs {l : List Str} {s : Str} (h : s ∈ trimSegs l) : s ∈ l := by
  obtain ⟨t, e⟩ := trimSegs_prefix l
  rw [e]; exact List.mem_append_left _ h

/-- The segments kept by `pparent`. -/
abbrev parentSegs (l : List Str) : List Str := trimSegs (trimSegs l).dropLast

theorem segComps_parentSegs (l : List Str) : segComps (parentSegs l) = (segComps l).dropLast := by
  rw [segComps_trimSegs, segComps_dropLast_trimSegs]

theorem mem_of_mem_parentSegs {l : List Str} {s : Str} (h : s ∈ parentSegs l) : s ∈ l :=
  mem_of_mem_trimSegs (List.dropLast_subset _ (mem_of_mem_trimSegs h))

theorem joinC_append_length (c : Char) (a b : List Str) :
    (joinC c a).length ≤ (joinC c (a ++ b)).length := by
  by_cases ha : a = []
  · subst ha; simp [joinC]
  · by_cases hb : b = []
    · subst hb; simp
    · rw [joinC_append ha hb]; simp

theorem parentSegs_length {l : List Str} (h : trimSegs l ≠ []) :
    (joinC '/' (parentSegs l)).length < (joinC '/' l).length := by
  cases hl : (trimSegs l).getLast? with
  | none => exact absurd (by simpa using hl) h
  | some x =>
    obtain ⟨c, hc⟩ := trimSegs_last hl
    have hx : x ≠ [] := by rintro rfl; simp at hc
    have e := eq_dropLast_append hl
    have h1 : (joinC '/' (parentSegs l)).length ≤ (joinC '/' (trimSegs l).dropLast).length := by
      obtain ⟨t, ht⟩ := trimSegs_prefix (trimSegs l).dropLast
      conv => rhs; rw [ht]
      exact joinC_append_length _ _ _
    have h2 : (joinC '/' (trimSegs l)).length ≤ (joinC '/' l).length := by
      obtain ⟨t, ht⟩ := trimSegs_prefix l
      conv => rhs; rw [ht]
      exact joinC_append_length _ _ _
    have h3 : (joinC '/' (trimSegs l).dropLast).length < (joinC '/' (trimSegs l)).length := by
      conv => rhs; rw [e]
      by_cases hd : (trimSegs l).dropLast = []
      · rw [hd]
        have : 0 < x.length := List.length_pos_iff.2 hx
        simpa [joinC] using this
      · rw [joinC_append hd (by simp)]
        simp
    omega

theorem pparent_abs (r : Str) :
    pparent ('/' :: r) =
      if segComps (splitC '/' r) = [] then none
      else some ('/' :: joinC '/' (parentSegs (splitC '/' r))) := by
  unfold pparent rawPrefix
  simp only
  split
  · rename_i h
    rw [if_neg (by decide), if_pos ((trimSegs_eq_nil_iff _).1 h)]
  · rename_i h
    rw [if_neg (fun e => h ((trimSegs_eq_nil_iff _).2 e))]
    rfl

theorem pparent_dot : pparent cs!"." = some [] := by decide

theorem pparent_dotSlash (r : Str) :
    pparent ('.' :: '/' :: r) =
      if segComps (splitC '/' r) = [] then some []
      else some ('.' :: joinC '/' (parentSegs ([] :: splitC '/' r))) := by
  unfold pparent rawPrefix
  simp only
  have hc : segComps (splitC '/' ('/' :: r)) = segComps (splitC '/' r) := by
    rw [splitC_cons_sep, segComps, List.filterMap_cons_none segComp_nil]
  split
  · rename_i h
    rw [if_pos trivial, if_pos (hc ▸ (trimSegs_eq_nil_iff _).1 h)]
  · rename_i h
    rw [if_neg (fun e => h ((trimSegs_eq_nil_iff _).2 (hc.trans e))), splitC_cons_sep]
    rfl

/-- Whether a raw path starts in one of the three special ways. -/
def plainStart (p : Str) : Prop :=
  (∀ r, p ≠ '/' :: r) ∧ p ≠ cs!"." ∧ ∀ r, p ≠ '.' :: '/' :: r

theorem rawPrefix_plain {p : Str} (h : plainStart p) : rawPrefix p = ([], p) := by
  obtain ⟨h1, h2, h3⟩ := h
  unfold rawPrefix
  split
  · exact absurd rfl (h1 _)
  · exact absurd rfl h2
  · exact absurd rfl (h3 _)
  · rfl

theorem pparent_plain {p : Str} (h : plainStart p) :
    pparent p =
      if segComps (splitC '/' p) = [] then none else some (joinC '/' (parentSegs (splitC '/' p))) := by
  unfold pparent
  rw [rawPrefix_plain h]
  simp only
  split
  · rename_i h
    rw [if_neg (by decide), if_pos ((trimSegs_eq_nil_iff _).1 h)]
  · rename_i h
    rw [if_neg (fun e => h ((trimSegs_eq_nil_iff _).2 e))]
    rfl

theorem start_cases (p : Str) :
    (∃ r, p = '/' :: r) ∨ p = cs!"." ∨ (∃ r, p = '.' :: '/' :: r) ∨ plainStart p := by
  by_cases h1 : ∃ r, p = '/' :: r
  · exact .inl h1
  · by_cases h2 : p = cs!"."
    · exact .inr (.inl h2)
    · by_cases h3 : ∃ r, p = '.' :: '/' :: r
      · exact .inr (.inr (.inl h3))
      · refine .inr (.inr (.inr ⟨?_, h2, ?_⟩))
        · intro r e; exact h1 ⟨r, e⟩
        · intro r e; exact h3 ⟨r, e⟩

theorem comps_dotSlash (r : Str) : comps ('.' :: '/' :: r) = .cur :: segComps (splitC '/' r) := by
  have : splitC '/' ('.' :: '/' :: r) = cs!"." :: splitC '/' r := by
    have := splitC_append_sep '/' cs!"." r
    simpa [splitC_of_not_mem (c := '/') (s := cs!".") (by decide)] using this
  rw [comps_rel (by intro r e; cases e) this]; simp

/-- First segments of a plain relative path. -/
theorem plain_split {p : Str} (h : plainStart p) :
    p = [] ∨ ∃ hd tl, splitC '/' p = hd :: tl ∧ hd ≠ [] ∧ hd ≠ cs!"." := by
  obtain ⟨h1, h2, h3⟩ := h
  cases p with
  | nil => exact .inl rfl
  | cons x xs =>
    right
    have hx : x ≠ '/' := by rintro rfl; exact h1 _ rfl
    obtain ⟨hd, tl, e1, e2⟩ := splitC_cons_ne xs hx
    refine ⟨_, _, e2, by simp, ?_⟩
    intro e
    simp at e
    obtain ⟨rfl, rfl⟩ := e
    have ej := joinC_splitC '/' xs
    rw [e1] at ej
    cases tl with
    | nil => simp [joinC] at ej; exact h2 (by rw [ej])
    | cons y tl =>
      rw [joinC_cons_cons] at ej
      exact h3 (joinC '/' (y :: tl)) (by rw [← ej]; rfl)

theorem comps_plain {p : Str} (h : plainStart p) : comps p = segComps (splitC '/' p) := by
  rcases plain_split h with rfl | ⟨hd, tl, e, h1, h2⟩
  · rfl
  · rw [comps_rel h.1 e, if_neg h2, e]
    cases hh : segComp hd <;> simp [hh]

theorem plainStart_joinC {l : List Str} (hs : ∀ s ∈ l, '/' ∉ s)
    (hh : ∀ hd tl, l = hd :: tl → hd ≠ [] ∧ hd ≠ cs!".") : plainStart (joinC '/' l) := by
  cases l with
  | nil => refine ⟨?_, by simp [joinC], ?_⟩ <;> (intro r e; simp [joinC] at e)
  | cons hd tl =>
    obtain ⟨h1, h2⟩ := hh hd tl rfl
    have e := splitC_joinC (by simp) hs
    generalize joinC '/' (hd :: tl) = p at e
    refine ⟨?_, ?_, ?_⟩
    · rintro r rfl
      rw [splitC_cons_sep] at e
      simp at e; exact h1 e.1
    · rintro rfl
      rw [splitC_of_not_mem (by decide)] at e
      simp at e; exact h2 e.1.symm
    · rintro r rfl
      have := splitC_append_sep '/' cs!"." r
      rw [splitC_of_not_mem (c := '/') (s := cs!".") (by decide)] at this
      rw [show cs!"." ++ '/' :: r = '.' :: '/' :: r from rfl, e] at this
      simp at this; exact h2 this.1

theorem trimSegs_head {l : List Str} {hd : Str} {tl : List Str} (h : trimSegs l = hd :: tl) :
    ∃ tl', l = hd :: tl' := by
  obtain ⟨t, e⟩ := trimSegs_prefix l
  rw [h] at e
  exact ⟨tl ++ t, e⟩

theorem parentSegs_head {l : List Str} {hd : Str} {tl : List Str} (h : parentSegs l = hd :: tl) :
    ∃ tl', l = hd :: tl' := by
  obtain ⟨t1, h1⟩ := trimSegs_head h
  have : ∃ t2, trimSegs l = hd :: t2 := by
    cases hl : trimSegs l with
    | nil => rw [hl] at h1; simp at h1
    | cons a b =>
      cases b with
      | nil => rw [hl] at h1; simp at h1
      | cons b c => rw [hl] at h1; simp at h1; exact ⟨_, by rw [h1.1]⟩
  obtain ⟨t2, h2⟩ := this
  exact trimSegs_head h2

/-- `parent` is `None` for the root and for paths without components. -/
theorem pparent_eq_none (p : Str) : pparent p = none ↔ comps p = [] ∨ comps p = [.root] := by
  rcases start_cases p with ⟨r, rfl⟩ | rfl | ⟨r, rfl⟩ | h
  · rw [pparent_abs, comps_abs]; split <;> simp [*]
  · decide
  · rw [pparent_dotSlash, comps_dotSlash]; split <;> simp
  · rw [pparent_plain h, comps_plain h]
    split
    · simp [*]
    · simp only [reduceCtorEq, false_iff, not_or]
      refine ⟨by assumption, fun e => ?_⟩
      exact root_not_mem_segComps _ (e ▸ List.mem_cons_self)

/-- `parent` drops the last component. -/
theorem comps_pparent {p q : Str} (h : pparent p = some q) : comps q = (comps p).dropLast := by
  have hsep : ∀ (s : Str) (t : Str), t ∈ parentSegs (splitC '/' s) → '/' ∉ t :=
    fun s t ht => not_mem_of_mem_splitC (mem_of_mem_parentSegs ht)
  rcases start_cases p with ⟨r, rfl⟩ | rfl | ⟨r, rfl⟩ | hp
  · rw [pparent_abs] at h
    split at h
    · cases h
    · rename_i hne
      cases h
      rw [comps_abs, comps_abs, segComps_splitC_joinC (hsep r), segComps_parentSegs,
        List.dropLast_cons_of_ne_nil hne]
  · rw [pparent_dot] at h; cases h; rfl
  · rw [pparent_dotSlash] at h
    split at h
    · rename_i he
      cases h; rw [comps_dotSlash, he]; rfl
    · rename_i hne
      cases h
      rw [comps_dotSlash, List.dropLast_cons_of_ne_nil hne]
      have e := segComps_parentSegs ([] :: splitC '/' r)
      rw [segComps, segComps, List.filterMap_cons_none segComp_nil] at e
      cases hps : parentSegs ([] :: splitC '/' r) with
      | nil => rw [hps] at e; rw [segComps, ← e]; rfl
      | cons a l =>
        obtain ⟨_, ha⟩ := parentSegs_head hps
        simp at ha; obtain ⟨rfl, -⟩ := ha
        have hsl : ∀ s ∈ l, '/' ∉ s := by
          intro s hs
          have := mem_of_mem_parentSegs (hps ▸ List.mem_cons_of_mem _ hs)
          rcases List.mem_cons.1 this with rfl | this
          · simp
          · exact not_mem_of_mem_splitC this
        rw [hps, List.filterMap_cons_none segComp_nil] at e
        cases l with
        | nil => rw [segComps, ← e]; rfl
        | cons b l =>
          rw [joinC_cons_cons, List.nil_append, comps_dotSlash, segComps_splitC_joinC hsl, segComps, e]
  · rw [pparent_plain hp] at h
    split at h
    · cases h
    · cases h
      have : plainStart (joinC '/' (parentSegs (splitC '/' p))) := by
        apply plainStart_joinC (hsep p)
        intro hd tl e
        obtain ⟨tl', e'⟩ := parentSegs_head e
        rcases plain_split hp with rfl | ⟨hd', tl'', e'', h1, h2⟩
        · rename_i hx; exact absurd rfl hx
        · rw [e'] at e''; cases e''; exact ⟨h1, h2⟩
      rw [comps_plain this, comps_plain hp, segComps_splitC_joinC (hsep p), segComps_parentSegs]

/-- The parent is a strictly shorter text. -/
theorem pparent_length {p q : Str} (h : pparent p = some q) : q.length < p.length := by
  rcases start_cases p with ⟨r, rfl⟩ | rfl | ⟨r, rfl⟩ | hp
  · rw [pparent_abs] at h
    split at h
    · cases h
    · rename_i hne
      cases h
      have := parentSegs_length (l := splitC '/' r) (fun e => hne ((trimSegs_eq_nil_iff _).1 e))
      rw [joinC_splitC] at this
      simpa using this
  · rw [pparent_dot] at h; cases h; decide
  · rw [pparent_dotSlash] at h
    split at h
    · cases h; simp
    · rename_i hne
      cases h
      have := parentSegs_length (l := [] :: splitC '/' r) (by
        intro e
        have := (trimSegs_eq_nil_iff _).1 e
        rw [segComps, List.filterMap_cons_none segComp_nil] at this
        exact hne this)
      rw [joinC_cons_of_ne _ _ (splitC_ne_nil _ _), joinC_splitC] at this
      simpa using this
  · rw [pparent_plain hp] at h
    split at h
    · cases h
    · rename_i hne
      cases h
      have := parentSegs_length (l := splitC '/' p) (fun e => hne ((trimSegs_eq_nil_iff _).1 e))
      rwa [joinC_splitC] at this

theorem isAbs_iff_comps (p : Str) : isAbs p = true ↔ Comp.root ∈ comps p := by
  rcases start_cases p with ⟨r, rfl⟩ | rfl | ⟨r, rfl⟩ | hp
  · simp [comps_abs, isAbs, startsWith, List.isPrefixOf]
  · decide
  · rw [comps_dotSlash]
    have : isAbs ('.' :: '/' :: r) = false := by simp [isAbs, startsWith, List.isPrefixOf]
    simp only [this, List.mem_cons, reduceCtorEq, false_or, Bool.false_eq_true, false_iff]
    exact root_not_mem_segComps _
  · rw [comps_plain hp, isAbs_false_of hp.1]
    simp only [Bool.false_eq_true, false_iff]
    exact root_not_mem_segComps _

theorem isAbs_pparent {p q : Str} (h : pparent p = some q) : isAbs q = isAbs p := by
  have hc := comps_pparent h
  have hn : ¬ (comps p = [] ∨ comps p = [.root]) := by
    intro e; rw [← pparent_eq_none, h] at e; cases e
  rw [Bool.eq_iff_iff, isAbs_iff_comps, isAbs_iff_comps, hc]
  constructor
  · exact fun h => List.dropLast_subset _ h
  · intro hr
    have ha := (isAbs_iff_comps p).2 hr
    obtain ⟨r, rfl⟩ := (isAbs_iff p).1 ha
    rw [comps_abs] at hn ⊢
    cases hs : segComps (splitC '/' r) with
    | nil => simp [hs] at hn
    | cons a l => simp

end Verif
