import Verif.Spec.Moved
import Verif.Proofs.Normalize
import Verif.Proofs.Modules
import Verif.Proofs.Sim
/-!
# Paths in a project that is moved
-/

namespace Verif

/-! ## Steps up and down -/

theorem isName_iff (s : Str) : isName s = true ↔ s ≠ [] ∧ s ≠ cs!"." ∧ s ≠ cs!".." := by
  simp [isName, and_assoc]

theorem NoClimb.nil : NoClimb [] := by
  intro pre h
  rw [List.prefix_nil.1 h]
  exact Nat.le_refl _

theorem NoClimb.of_prefix {l l' : List Str} (h : NoClimb l) (hp : l' <+: l) : NoClimb l' :=
  fun _ h' => h _ (h'.trans hp)

theorem prefix_append_cases {α : Type} {p l m : List α} (h : p <+: l ++ m) :
    p <+: l ∨ ∃ r, p = l ++ r ∧ r <+: m := by
  rcases Nat.le_total p.length l.length with hl | hl
  · exact .inl (List.prefix_of_prefix_length_le h (List.prefix_append ..) hl)
  · obtain ⟨r, rfl⟩ := List.prefix_of_prefix_length_le (List.prefix_append l m) h hl
    exact .inr ⟨r, rfl, (List.prefix_append_right_inj l).1 h⟩

theorem NoClimb.append {l l' : List Str} (h : NoClimb l) (h' : NoClimb l') : NoClimb (l ++ l') := by
  intro pre hp
  rcases prefix_append_cases hp with hp | ⟨r, rfl, hr⟩
  · exact h _ hp
  · rw [List.countP_append, List.countP_append]
    exact Nat.add_le_add (h _ (List.prefix_refl _)) (h' _ hr)

theorem noClimb_names {l : List Str} (h : ∀ s ∈ l, s ≠ cs!"..") : NoClimb l := by
  intro pre hp
  have : pre.countP (· = cs!"..") = 0 := by
    rw [List.countP_eq_zero]
    intro s hs
    simpa using h s (hp.subset hs)
  omega

theorem noClimb_single {s : Str} (h : s ≠ cs!"..") : NoClimb [s] :=
  noClimb_names fun _ hs => by rw [List.mem_singleton.1 hs]; exact h

/-- The last segment may be another one, if it is not `..`. -/
theorem NoClimb.last {l : List Str} {x y : Str} (h : NoClimb (l ++ [x])) (hy : y ≠ cs!"..") :
    NoClimb (l ++ [y]) := (h.of_prefix (List.prefix_append ..)).append (noClimb_single hy)

/-! ## Segments of texts that are put together -/

theorem splitC_glue (s t : Str) : ∃ A x y B, splitC '/' s = A ++ [x] ∧ splitC '/' t = y :: B ∧
    splitC '/' (s ++ t) = A ++ (x ++ y) :: B := by
  obtain ⟨y, B, hy⟩ := List.exists_cons_of_ne_nil (splitC_ne_nil '/' t)
  suffices ∃ A x, splitC '/' s = A ++ [x] ∧ splitC '/' (s ++ t) = A ++ (x ++ y) :: B by
    obtain ⟨A, x, h1, h2⟩ := this
    exact ⟨A, x, y, B, h1, hy, h2⟩
  induction s with
  | nil => exact ⟨[], [], rfl, hy⟩
  | cons c s ih =>
    obtain ⟨A, x, h1, h2⟩ := ih
    by_cases hc : c = '/'
    · subst hc
      refine ⟨[] :: A, x, ?_, ?_⟩
      · rw [splitC_cons_sep, h1]; rfl
      · rw [List.cons_append, splitC_cons_sep, h2]; rfl
    · obtain ⟨hd, tl, h3, h4⟩ := splitC_cons_ne (c := '/') s hc
      obtain ⟨hd', tl', h5, h6⟩ := splitC_cons_ne (c := '/') (s ++ t) hc
      rw [h1] at h3
      rw [h2] at h5
      rw [List.cons_append, h4, h6]
      cases A with
      | nil =>
        simp only [List.nil_append, List.cons.injEq] at h3 h5
        obtain ⟨rfl, rfl⟩ := h3
        obtain ⟨rfl, rfl⟩ := h5
        exact ⟨[], c :: x, rfl, rfl⟩
      | cons z A =>
        simp only [List.cons_append, List.cons.injEq] at h3 h5
        obtain ⟨rfl, rfl⟩ := h3
        obtain ⟨rfl, rfl⟩ := h5
        exact ⟨(c :: z) :: A, x, rfl, rfl⟩

theorem noUp_append {s t : Str} : NoUp (s ++ '/' :: t) ↔ NoUp s ∧ NoUp t := by
  unfold NoUp
  rw [splitC_append_sep]
  simp only [List.mem_append]
  exact ⟨fun h => ⟨fun x hx => h x (.inl hx), fun x hx => h x (.inr hx)⟩,
    fun h x hx => hx.elim (h.1 x) (h.2 x)⟩

theorem noUp_nil : NoUp [] := by
  intro s hs
  cases List.mem_singleton.1 hs
  decide

theorem noUp_dot : NoUp cs!"." := by
  intro s hs
  cases List.mem_singleton.1 hs
  decide

theorem noUp_glue {s t : Str} {c : Char} (hs : NoUp s) (ht : NoUp (c :: t)) (h1 : c ≠ '.') (h2 : c ≠ '/') :
    NoUp (s ++ c :: t) := by
  obtain ⟨A, x, y, B, h3, h4, h5⟩ := splitC_glue s (c :: t)
  intro u hu
  rw [h5] at hu
  rcases List.mem_append.1 hu with hu | hu
  · exact hs u (by rw [h3]; exact List.mem_append_left _ hu)
  · rcases List.mem_cons.1 hu with rfl | hu
    · intro he
      obtain ⟨hd, tl, -, h6⟩ := splitC_cons_ne (c := '/') t h2
      rw [h6] at h4
      obtain ⟨rfl, -⟩ := List.cons.inj h4
      have hm : c ∈ cs!".." := by rw [← he]; simp
      simp at hm
      exact h1 hm
    · exact ht u (by rw [h4]; exact List.mem_cons_of_mem _ hu)

theorem stays_nil : StaysIn [] := ⟨rfl, noClimb_single (by decide)⟩

theorem StaysIn.dotSlash {t : Str} (h : StaysIn t) : StaysIn (cs!"./" ++ t) := by
  refine ⟨rfl, ?_⟩
  have : splitC '/' (cs!"./" ++ t) = [cs!"."] ++ splitC '/' t := by
    rw [show cs!"./" ++ t = cs!"." ++ '/' :: t from rfl, splitC_append_sep]
    rfl
  rw [this]
  exact (noClimb_single (by decide)).append h.2

theorem stays_module : StaysIn MODULE := by
  refine ⟨by decide, ?_⟩
  rw [show splitC '/' MODULE = [MODULE] by decide]
  exact noClimb_single (by decide)

/-! ## Places -/

theorem IsPlace.valid {a : List Str} (h : IsPlace a) : ∀ s ∈ a, ValidName s := by
  intro s hs
  obtain ⟨h1, h2⟩ := h.2 s hs
  obtain ⟨h3, h4, h5⟩ := (isName_iff s).1 h1
  exact ⟨h3, h2, h4, h5⟩

theorem absText_cons (l : List Str) : absText l = '/' :: joinC '/' l := by
  rw [absText_eq]; rfl

theorem IsPlace.noSlash {a : List Str} (h : IsPlace a) : endsWithC (absText a) '/' = false := by
  obtain ⟨h1, h2⟩ := endsWithC_joinC h.valid h.1
  unfold endsWithC at h1 ⊢
  rw [absText_cons]
  rw [show '/' :: joinC '/' a = ['/'] ++ joinC '/' a from rfl, List.getLast?_append]
  cases hj : (joinC '/' a).getLast? with
  | none => simp at hj; exact absurd hj h2
  | some y => rw [hj] at h1; simpa using h1

/-- The segments of the text of a path in the project. -/
theorem IsPlace.segs {a : List Str} (h : IsPlace a) (t : Str) :
    absText a ++ '/' :: t = '/' :: (joinC '/' a ++ '/' :: t) ∧
      splitC '/' (joinC '/' a ++ '/' :: t) = a ++ splitC '/' t := by
  refine ⟨by rw [absText_cons]; rfl, ?_⟩
  rw [splitC_append_sep, splitC_joinC h.1 (valid_sep h.valid)]

theorem IsPlace.comps {a : List Str} (_ : IsPlace a) (t : Str) :
    comps (absText a ++ '/' :: t) = comps (absText a) ++ segComps (splitC '/' t) :=
  comps_append_sep_of_ne (by simp [absText])

theorem isAbs_place (a : List Str) (s : Str) : isAbs (absText a ++ s) = true := by
  simp [absText, isAbs, startsWith, List.isPrefixOf]

theorem endsWithC_append_cons (p t : Str) (c : Char) :
    endsWithC (p ++ c :: t) '/' = endsWithC (c :: t) '/' := by
  unfold endsWithC
  rw [List.getLast?_append]
  cases h : (c :: t).getLast? with
  | none => simp at h
  | some y => rfl

/-- What follows the place of the project in a path joined with a relative one. -/
def joinBelow (s t : Str) : Str := if endsWithC s '/' then s ++ t else s ++ '/' :: t

theorem pjoin_below {a : List Str} (ha : IsPlace a) {s t : Str} (hs : Below s) (ht : isAbs t = false) :
    pjoin (absText a ++ s) t = absText a ++ joinBelow s t := by
  unfold pjoin joinBelow
  rw [ht]
  have hne : absText a ++ s ≠ [] := by simp [absText]
  have he : endsWithC (absText a ++ s) '/' = endsWithC s '/' := by
    rcases hs with rfl | ⟨r, rfl, -⟩
    · rw [List.append_nil, ha.noSlash]; rfl
    · exact endsWithC_append_cons _ _ _
  simp only [Bool.false_eq_true, if_false, he, hne, decide_false, Bool.false_or]
  split <;> simp

theorem below_join {s t : Str} (hs : Below s) (ht : NoClimb (splitC '/' t)) : Below (joinBelow s t) := by
  unfold joinBelow
  rcases hs with rfl | ⟨r, rfl, hr⟩
  · exact .inr ⟨t, rfl, ht⟩
  · split
    · rename_i he
      have hl : ('/' :: r).getLast? = some '/' := by simpa [endsWithC] using he
      cases r with
      | nil => exact .inr ⟨t, rfl, ht⟩
      | cons c r =>
        have hl : (c :: r).getLast? = some '/' := by simpa using hl
        have e := eq_dropLast_append hl
        refine .inr ⟨(c :: r) ++ t, rfl, ?_⟩
        have e1 : (c :: r) ++ t = (c :: r).dropLast ++ '/' :: t := by
          conv => lhs; rw [e]
          simp
        have e2 : splitC '/' (c :: r) = splitC '/' (c :: r).dropLast ++ [[]] := by
          conv => lhs; rw [e]
          rw [splitC_append_sep]; rfl
        rw [e1, splitC_append_sep]
        exact (hr.of_prefix (by rw [e2]; exact List.prefix_append ..)).append ht
    · refine .inr ⟨r ++ '/' :: t, rfl, ?_⟩
      rw [splitC_append_sep]
      exact hr.append ht

theorem Below.append {s e : Str} (h : Below s) (hs : s ≠ []) (he : '/' ∉ e) (hd : e = [] ∨ ∃ c ∈ e, c ≠ '.') :
    Below (s ++ e) := by
  rcases h with rfl | ⟨r, rfl, hr⟩
  · exact absurd rfl hs
  · obtain ⟨A, x, -, h1, h2⟩ := abs_segs (p := '/' :: r) rfl
    refine .inr ⟨r ++ e, rfl, ?_⟩
    rcases hd with rfl | ⟨c, hc, hcd⟩
    · rwa [List.append_nil]
    · have hx : '/' ∉ x := not_mem_of_mem_splitC (s := '/' :: r) (by rw [h1]; simp)
      have h2 := h2 e
      rw [splitC_of_not_mem (s := x ++ e) (by simp [hx, he])] at h2
      rw [List.cons_append, splitC_cons_sep] at h2
      rw [splitC_cons_sep] at h1
      have hne : x ++ e ≠ cs!".." := by
        intro h
        have : c ∈ cs!".." := by rw [← h]; exact List.mem_append_right _ hc
        simp at this
        exact hcd this
      cases A with
      | nil =>
        simp only [List.nil_append, List.cons.injEq] at h2
        exact absurd h2.2 (splitC_ne_nil _ _)
      | cons y A =>
        simp only [List.cons_append, List.cons.injEq] at h1 h2
        rw [h2.2]
        exact (h1.2 ▸ hr).last hne

section
variable {a b : List Str} (ha : IsPlace a) (hb : IsPlace b) {p q : Str}
include ha hb

theorem Placed.pjoin (h : Placed a b p q) {t : Str} (ht : StaysIn t) :
    Placed a b (pjoin p t) (pjoin q t) := by
  obtain ⟨s, hs, rfl, rfl⟩ := h
  exact ⟨joinBelow s t, below_join hs ht.2, pjoin_below ha hs ht.1, pjoin_below hb hs ht.1⟩

omit ha hb in
theorem Placed.append (h : Placed a b p q) {e : Str} (he : '/' ∉ e) (hd : e = [] ∨ ∃ c ∈ e, c ≠ '.') :
    Placed a b (p ++ e) (q ++ e) ∨ p = absText a ∧ q = absText b ∧ e ≠ [] := by
  obtain ⟨s, hs, rfl, rfl⟩ := h
  by_cases hs' : s = []
  · subst hs'
    by_cases he' : e = []
    · subst he'
      exact .inl ⟨[], .inl rfl, by simp, by simp⟩
    · exact .inr ⟨by simp, by simp, he'⟩
  · exact .inl ⟨s ++ e, hs.append hs' he hd, by simp, by simp⟩

omit ha hb in
theorem Placed.abs (h : Placed a b p q) : isAbs p = true ∧ isAbs q = true := by
  obtain ⟨s, hs, rfl, rfl⟩ := h
  exact ⟨isAbs_place _ _, isAbs_place _ _⟩

omit ha hb in
theorem trimSegs_append {l m : List Str} (h : ∀ s ∈ l, ValidName s) :
    trimSegs (l ++ m) = l ++ trimSegs m := by
  have := trimSegs_valid h
  unfold trimSegs at this ⊢
  rw [List.reverse_append, List.dropWhile_append]
  split
  · rename_i he
    rw [List.isEmpty_iff.1 he, this]; simp
  · simp

/-- The parent of a path in the project; `none`: it is the project itself. -/
def parentBelow (s : Str) : Option Str :=
  match s with
  | [] => none
  | _ :: t =>
    if segComps (splitC '/' t) = [] then none
    else if parentSegs (splitC '/' t) = [] then some []
    else some ('/' :: joinC '/' (parentSegs (splitC '/' t)))

omit hb in
theorem pparent_below {s : Str} (hs : Below s) :
    pparent (absText a ++ s) = match parentBelow s with
      | some s' => some (absText a ++ s')
      | none => some (absText a.dropLast) := by
  have hv := ha.valid
  have hne : segComps a ≠ [] := by
    rw [segComps_valid hv]; simpa using ha.1
  rcases hs with rfl | ⟨t, rfl, -⟩
  · rw [List.append_nil, absText_cons, pparent_abs, splitC_joinC ha.1 (valid_sep hv), if_neg hne,
      parentSegs_valid hv]
    simp only [parentBelow, absText_cons]
  · obtain ⟨e1, e2⟩ := ha.segs t
    rw [e1, pparent_abs, e2, segComps_append, if_neg (by simp [hne])]
    unfold parentBelow
    simp only
    split
    · rename_i he
      split at he
      · cases he
      · split at he
        · cases he
          rename_i h1 h2
          have : parentSegs (a ++ splitC '/' t) = a := by
            unfold parentSegs at h2 ⊢
            rw [trimSegs_append hv, List.dropLast_append_of_ne_nil
              (fun h => h1 ((trimSegs_eq_nil_iff _).1 h)), trimSegs_append hv, h2, List.append_nil]
          rw [this, List.append_nil, absText_cons]
        · cases he
          rename_i h1 h2
          have : parentSegs (a ++ splitC '/' t) = a ++ parentSegs (splitC '/' t) := by
            unfold parentSegs
            rw [trimSegs_append hv, List.dropLast_append_of_ne_nil
              (fun h => h1 ((trimSegs_eq_nil_iff _).1 h)), trimSegs_append hv]
          rw [this, joinC_append ha.1 h2, absText_cons]
          rfl
    · rename_i he
      split at he
      · rename_i h1
        have : parentSegs (a ++ splitC '/' t) = a.dropLast := by
          unfold parentSegs
          rw [trimSegs_append hv, (trimSegs_eq_nil_iff _).2 h1, List.append_nil,
            trimSegs_valid fun s hs => hv s (List.dropLast_subset _ hs)]
        rw [this, absText_cons]
      · split at he <;> cases he

omit ha hb in
theorem below_parent {s s' : Str} (hs : Below s) (h : parentBelow s = some s') : Below s' := by
  rcases hs with rfl | ⟨t, rfl, ht⟩
  · cases h
  · unfold parentBelow at h
    simp only at h
    split at h
    · cases h
    · split at h
      · cases h; exact .inl rfl
      · cases h
        rename_i h1 h2
        refine .inr ⟨_, rfl, ?_⟩
        rw [splitC_joinC h2 fun s hs => not_mem_of_mem_splitC (mem_of_mem_parentSegs hs)]
        refine ht.of_prefix ?_
        unfold parentSegs
        obtain ⟨x, hx⟩ := trimSegs_prefix (trimSegs (splitC '/' t)).dropLast
        obtain ⟨y, hy⟩ := trimSegs_prefix (splitC '/' t)
        refine List.IsPrefix.trans ⟨x, hx.symm⟩ ((List.dropLast_prefix _).trans ⟨y, hy.symm⟩)

/-- The directories above. -/
theorem Placed.parent (h : Placed a b p q) :
    (∃ p' q', pparent p = some p' ∧ pparent q = some q' ∧ Placed a b p' q') ∨
      pparent p = some (absText a.dropLast) ∧ pparent q = some (absText b.dropLast) := by
  obtain ⟨s, hs, rfl, rfl⟩ := h
  rw [pparent_below ha hs, pparent_below hb hs]
  cases hp : parentBelow s with
  | none => exact .inr ⟨rfl, rfl⟩
  | some s' => exact .inl ⟨_, _, rfl, rfl, s', below_parent hs hp, rfl, rfl⟩

/-! ## Equal paths -/

theorem comps_below_eq (h : Placed a b p q) {p' q' : Str} (h' : Placed a b p' q') :
    comps p = comps p' ↔ comps q = comps q' := by
  obtain ⟨s, hs, rfl, rfl⟩ := h
  obtain ⟨s', hs', rfl, rfl⟩ := h'
  rcases hs with rfl | ⟨t, rfl, -⟩ <;> rcases hs' with rfl | ⟨t', rfl, -⟩ <;>
    simp [ha.comps, hb.comps]

end

theorem comps_place {a : List Str} (h : IsPlace a) : comps (absText a) = .root :: a.map Comp.normal := by
  rw [absText_eq, comps_textOf h.valid]; rfl

/-- Joining with any relative path. -/
theorem comps_pjoin_below {a : List Str} (ha : IsPlace a) {s t : Str} (hs : Below s) (ht : isAbs t = false) :
    comps (pjoin (absText a ++ s) t) = comps (absText a) ++
      (segComps (splitC '/' (s.drop 1)) ++ segComps (splitC '/' t)) := by
  rw [comps_pjoin (by simp [absText]) ht, body_comps_rel (isAbs_false ht)]
  rcases hs with rfl | ⟨r, rfl, -⟩
  · rw [List.append_nil]; rfl
  · rw [ha.comps, List.append_assoc]; rfl

theorem comps_below {a : List Str} (ha : IsPlace a) {s : Str} (hs : Below s) :
    comps (absText a ++ s) = comps (absText a) ++ segComps (splitC '/' (s.drop 1)) := by
  rcases hs with rfl | ⟨r, rfl, -⟩
  · rw [List.append_nil]; simp [splitC, segComps, segComp]
  · rw [ha.comps]; rfl

/-- The name of the project with an extension is not in the project. -/
theorem comps_next {a : List Str} (ha : IsPlace a) {e : Str} (he : '/' ∉ e) (hne : e ≠ []) (l : List Comp) :
    comps (absText a ++ e) ≠ comps (absText a) ++ l := by
  have hv := ha.valid
  obtain ⟨x, hx⟩ : ∃ x, a.getLast? = some x := by
    cases hn : a.getLast? with
    | none => exact absurd (by simpa using hn) ha.1
    | some x => exact ⟨x, rfl⟩
  have e1 := eq_dropLast_append hx
  have hxv := hv x (List.mem_of_getLast? hx)
  have hjoin : joinC '/' a ++ e = joinC '/' (a.dropLast ++ [x ++ e]) := by
    conv => lhs; rw [e1]
    by_cases hd : a.dropLast = []
    · rw [hd]; rfl
    · rw [joinC_append hd (by simp), joinC_append hd (by simp)]
      simp [joinC]
  have hval : ∀ s ∈ a.dropLast ++ [x ++ e], '/' ∉ s := by
    intro s hs
    rcases List.mem_append.1 hs with hs | hs
    · exact (hv s (List.dropLast_subset _ hs)).2.1
    · rw [List.mem_singleton.1 hs]; simp [hxv.2.1, he]
  rw [comps_place ha, absText_cons, List.cons_append, comps_abs, hjoin, splitC_joinC (by simp) hval,
    segComps_append, segComps_valid (fun s hs => hv s (List.dropLast_subset _ hs))]
  intro h
  have h := (List.cons.inj h).2
  have e2 : a.map Comp.normal = a.dropLast.map Comp.normal ++ [.normal x] := by
    conv => lhs; rw [e1]
    simp
  change _ = a.map Comp.normal ++ l at h
  rw [e2, List.append_assoc] at h
  have h := List.append_cancel_left h
  have h2 : segComps [x ++ e] = [.normal (x ++ e)] ∨ segComps [x ++ e] = [.up] ∨ segComps [x ++ e] = [] := by
    have : segComp (x ++ e) = some (.normal (x ++ e)) ∨ segComp (x ++ e) = some .up ∨ segComp (x ++ e) = none := by
      unfold segComp
      grind
    rcases this with h | h | h <;> simp [segComps, h]
  rcases h2 with h2 | h2 | h2
  · rw [h2] at h
    have := (List.cons.inj h).1
    injection this with this
    simp [hne] at this
  · rw [h2] at h; simp at h
  · rw [h2] at h; simp at h

/-! ## Names of packages -/

theorem utf8Len_ge (s : Str) : s.length ≤ utf8Len s := by
  induction s with
  | nil => exact Nat.le_refl _
  | cons c s ih =>
    have : 0 < c.utf8Size := Char.utf8Size_pos c
    simp only [utf8Len, List.length_cons]
    omega

theorem cut_prefix {x y n b : Str} (h : x ++ y = n ++ b) (hn : utf8Len n ≤ x.length) : n <+: x := by
  have h1 : n <+: x ++ y := ⟨b, h.symm⟩
  have h2 : x <+: x ++ y := List.prefix_append ..
  exact List.prefix_of_prefix_length_le h1 h2 (Nat.le_trans (utf8Len_ge n) hn)

theorem splitFirst_cut {s x y : Str} (h : splitFirst '/' s = some (x, y)) :
    ∃ y', y = '/' :: y' ∧ s = x ++ '/' :: y' ∧ '/' ∉ x := by
  obtain ⟨h1, h2, h3⟩ := splitFirst_some h
  cases y with
  | nil => cases h3
  | cons c y => cases h3; exact ⟨y, rfl, h1, h2⟩

theorem stays_noSlash {n : Str} (h : '/' ∉ n) (hd : n ≠ cs!"..") : StaysIn n := by
  refine ⟨isAbs_false_of fun r e => h (by rw [e]; simp), ?_⟩
  rw [splitC_of_not_mem h]
  exact noClimb_single hd

theorem stays_scope {x y : Str} (hx : '/' ∉ x) (hxn : isName x = true) (hy : '/' ∉ y) :
    StaysIn (x ++ '/' :: y) := by
  refine ⟨isAbs_false_of fun r e => ?_, ?_⟩
  · cases x with
    | nil => cases hxn
    | cons c x => cases e; simp at hx
  · rw [splitC_append_sep, splitC_of_not_mem hx, splitC_of_not_mem hy]
    intro pre hp
    have : pre = [] ∨ pre = [x] ∨ pre = [x, y] := by
      have := List.prefix_iff_eq_take.1 hp
      have hl := hp.length_le
      match hk : pre.length with
      | 0 => exact .inl (List.length_eq_zero_iff.1 hk)
      | 1 => rw [hk] at this; exact .inr (.inl this)
      | 2 => rw [hk] at this; exact .inr (.inr this)
      | n + 3 => rw [hk] at hl; simp at hl
    have hx2 := ((isName_iff x).1 hxn).2.2
    rcases this with rfl | rfl | rfl
    · exact Nat.le_refl _
    · simp [hxn, hx2]
    · by_cases hy2 : y = cs!".."
      · subst hy2; simp [List.countP_cons, hxn, hx2]
      · simp [List.countP_cons, hxn, hx2, hy2]

/-- The name of a package does not lead out of `node_modules`. -/
theorem moduleName_stays {t n : Str} (ht : StaysIn t) (h : moduleName t = some n) : StaysIn n := by
  unfold moduleName slashIndex at h
  by_cases hat : startsWith t cs!"@" = true
  · rw [if_pos hat] at h
    obtain ⟨r, hr⟩ := (startsWith_iff t cs!"@").1 hat
    cases hf : splitFirst '/' t with
    | none =>
      have : '/' ∉ t := splitFirst_none.1 hf
      rw [slashes_none _ this] at h
      cases h; exact ht
    | some xy =>
      obtain ⟨x, y⟩ := xy
      obtain ⟨y', hy', ht', hx⟩ := splitFirst_cut hf
      subst hy'
      have hxa : ∃ r', x = '@' :: r' := by
        cases x with
        | nil => rw [ht'] at hr; cases hr
        | cons c x => rw [ht'] at hr; cases hr; exact ⟨_, rfl⟩
      obtain ⟨r', rfl⟩ := hxa
      rw [ht', slashes_at _ _ hx] at h
      cases hf2 : splitFirst '/' y' with
      | none =>
        rw [slashes_none _ (splitFirst_none.1 hf2)] at h
        cases h; rw [← ht']; exact ht
      | some uv =>
        obtain ⟨u, v⟩ := uv
        obtain ⟨v', hv', hy'', hu⟩ := splitFirst_cut hf2
        subst hv'
        rw [hy'', slashes_at _ _ hu] at h
        simp only [List.getElem?_cons_succ, List.getElem?_cons_zero] at h
        obtain ⟨w, hw, hlen⟩ := takeBytes_some h
        have hpre : n <+: ('@' :: r') ++ '/' :: u := by
          refine cut_prefix (y := '/' :: v') (b := w) ?_ ?_
          · rw [← hw]; simp
          · rw [hlen]; simp; omega
        rcases prefix_append_cases hpre with hpre | ⟨z, rfl, hz⟩
        · refine stays_noSlash (fun hn => hx (hpre.subset hn)) ?_
          rintro rfl
          obtain ⟨_, h⟩ := hpre
          cases h
        · cases z with
          | nil =>
            rw [List.append_nil]
            exact stays_noSlash hx (by simp)
          | cons c z =>
            obtain ⟨rfl, hz'⟩ := List.cons_prefix_cons.1 hz
            exact stays_scope hx (by simp [isName]) fun hm => hu (hz'.subset hm)
  · rw [if_neg hat] at h
    cases hf : splitFirst '/' t with
    | none =>
      rw [slashes_none _ (splitFirst_none.1 hf)] at h
      cases h; exact ht
    | some xy =>
      obtain ⟨x, y⟩ := xy
      obtain ⟨y', hy', ht', hx⟩ := splitFirst_cut hf
      subst hy'
      rw [ht', slashes_at _ _ hx] at h
      simp only [List.getElem?_cons_zero] at h
      obtain ⟨w, hw, hlen⟩ := takeBytes_some h
      have hpre : n <+: x := cut_prefix hw (by rw [hlen]; omega)
      refine stays_noSlash (fun hn => hx (hpre.subset hn)) ?_
      rintro rfl
      have hl : x.length = 2 := by
        have : utf8Len cs!".." = 2 := by decide
        omega
      have hxe : x = cs!".." := (hpre.eq_of_length (by rw [hl]; rfl)).symm
      have := ht.2 [x] (by rw [ht', splitC_append_sep, splitC_of_not_mem hx]; exact List.prefix_append ..)
      rw [hxe] at this
      exact absurd this (by decide)

/-! ## Normalized paths -/

theorem foldl_stepSeg_below (l : List Str) (x : List Str)
    (hl : ∀ pre, pre <+: l → pre.countP (· = cs!"..") ≤ x.length + pre.countP isName) :
    ∃ y, ∀ a : List Str, l.foldl stepSeg (a ++ x) = a ++ y := by
  induction l generalizing x with
  | nil => exact ⟨x, fun _ => rfl⟩
  | cons s l ih =>
    have hs := hl [s] (List.prefix_append [s] l)
    by_cases hn : isName s = true
    · obtain ⟨h1, h2, h3⟩ := (isName_iff s).1 hn
      obtain ⟨y, hy⟩ := ih (x ++ [s]) fun pre hp => by
        have := hl (s :: pre) (List.cons_prefix_cons.2 ⟨rfl, hp⟩)
        simp [hn, h3] at this ⊢
        omega
      refine ⟨y, fun a => ?_⟩
      rw [List.foldl_cons, ← hy a]
      simp [stepSeg, enter, h1, h2, h3]
    · by_cases hu : s = cs!".."
      · subst hu
        have hx : x ≠ [] := by
          rintro rfl
          exact absurd hs (by decide)
        obtain ⟨y, hy⟩ := ih x.dropLast fun pre hp => by
          have := hl (cs!".." :: pre) (List.cons_prefix_cons.2 ⟨rfl, hp⟩)
          have h0 : isName cs!".." = false := by decide
          have hpos := List.length_pos_iff.2 hx
          simp [h0] at this ⊢
          omega
        refine ⟨y, fun a => ?_⟩
        rw [List.foldl_cons, ← hy a]
        simp [stepSeg, enter, List.dropLast_append_of_ne_nil hx]
      · obtain ⟨y, hy⟩ := ih x fun pre hp => by
          have := hl (s :: pre) (List.cons_prefix_cons.2 ⟨rfl, hp⟩)
          simpa [hn, hu] using this
        refine ⟨y, fun a => ?_⟩
        rw [List.foldl_cons, ← hy a]
        have : s = [] ∨ s = cs!"." := by
          simp only [isName_iff] at hn
          grind
        rcases this with rfl | rfl <;> simp [stepSeg, enter]

/-- The text of the names below the place of a project. -/
def belowText (y : List Str) : Str := if y = [] then [] else '/' :: joinC '/' y

theorem below_belowText {y : List Str} (h : ∀ s ∈ y, ValidName s) : Below (belowText y) := by
  unfold belowText
  split
  · exact .inl rfl
  · rename_i hy
    refine .inr ⟨_, rfl, ?_⟩
    rw [splitC_joinC hy (valid_sep h)]
    exact noClimb_names fun s hs => (h s hs).2.2.2

theorem absText_append {a : List Str} (ha : a ≠ []) (y : List Str) :
    absText (a ++ y) = absText a ++ belowText y := by
  unfold belowText
  split
  · rename_i h; simp [h]
  · rename_i h; rw [absText_cons, absText_cons, joinC_append ha h]; rfl

theorem normalizeLex_below {s : Str} (hs : Below s) :
    ∃ s', Below s' ∧ ∀ a, IsPlace a → normalizeLex (absText a ++ s) = absText a ++ s' := by
  have key : ∃ y, ∀ a, IsPlace a → normNames (absText a ++ s) = a ++ y := by
    rcases hs with rfl | ⟨t, rfl, ht⟩
    · refine ⟨[], fun a ha => ?_⟩
      rw [List.append_nil, absText_eq, normNames_textOf ha.valid, List.append_nil]
    · obtain ⟨y, hy⟩ := foldl_stepSeg_below (splitC '/' t) [] (fun pre hp => by
        have := ht pre hp; simpa using this)
      refine ⟨y, fun a ha => ?_⟩
      unfold normNames
      rw [ha.comps, comps_place ha, List.foldl_append, List.foldl_cons, foldl_stepComp_normal,
        ← foldl_stepSeg, ← hy a]
      simp [stepComp]
  obtain ⟨y, hy⟩ := key
  have hone : IsPlace [cs!"x"] := ⟨by simp, by simp [isName]⟩
  have hv : ∀ x ∈ y, ValidName x := fun x hx =>
    (normalizeLex_eq (absText [cs!"x"] ++ s)).2 x (by rw [hy _ hone]; exact List.mem_append_right _ hx)
  refine ⟨belowText y, below_belowText hv, fun a ha => ?_⟩
  rw [(normalizeLex_eq _).1, isAbs_place, hy a ha, ← absText_eq, absText_append ha.1]

theorem Placed.normalize {a b : List Str} (ha : IsPlace a) (hb : IsPlace b) {p q : Str}
    (h : Placed a b p q) : Placed a b (normalizeLex p) (normalizeLex q) := by
  obtain ⟨s, hs, rfl, rfl⟩ := h
  obtain ⟨s', hs', h⟩ := normalizeLex_below hs
  exact ⟨s', hs', h a ha, h b hb⟩

end Verif
