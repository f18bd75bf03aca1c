import Verif.Spec.Static
import Verif.Proofs.Loader
/-!
# Texts of the same path
-/

namespace Verif

theorem comps_eq_root {p : Str} (h : isAbs p = true) :
    comps p = .root :: segComps (splitC '/' p) := by
  obtain ⟨r, rfl⟩ := (isAbs_iff p).1 h
  rw [comps_abs, splitC_cons_sep, segComps, segComps, List.filterMap_cons_none segComp_nil]

theorem Sim.refl (p : Str) : Sim p p := ⟨rfl, rfl⟩

theorem Sim.symm {p q : Str} (h : Sim p q) : Sim q p := ⟨h.1.symm, h.2.symm⟩

theorem Sim.trans {p q r : Str} (h : Sim p q) (h' : Sim q r) : Sim p r :=
  ⟨h.1.trans h'.1, h.2.trans h'.2⟩

theorem Sim.abs {p q : Str} (h : Sim p q) : isAbs p = isAbs q := isAbs_of_comps h.1

theorem abs_ne_nil {p : Str} (h : isAbs p = true) : p ≠ [] := by
  rintro rfl; cases h

theorem lastSeg_pjoin {p t : Str} (hp : p ≠ []) (ht : isAbs t = false) :
    lastSeg (pjoin p t) = lastSeg t := by
  obtain ⟨p0, -, h⟩ := pjoin_text hp ht
  unfold lastSeg
  rw [h, splitC_append_sep, List.getLast?_append]
  cases hl : (splitC '/' t).getLast? with
  | none => exact absurd (List.getLast?_eq_none_iff.1 hl) (splitC_ne_nil _ _)
  | some x => rfl

theorem sim_pjoin {p q : Str} (ha : isAbs p = true) (h : comps p = comps q) (t : Str) :
    Sim (pjoin p t) (pjoin q t) := by
  have ha' : isAbs q = true := by rw [← isAbs_of_comps h]; exact ha
  cases ht : isAbs t with
  | true => rw [pjoin_abs ht, pjoin_abs ht]; exact .refl t
  | false =>
    exact ⟨by rw [comps_pjoin (abs_ne_nil ha) ht, comps_pjoin (abs_ne_nil ha') ht, h],
      by rw [lastSeg_pjoin (abs_ne_nil ha) ht, lastSeg_pjoin (abs_ne_nil ha') ht]⟩

/-- The pieces of an absolute path, with the last one apart. -/
theorem abs_segs {p : Str} (h : isAbs p = true) :
    ∃ A x, A ≠ [] ∧ splitC '/' p = A ++ [x] ∧ ∀ e, splitC '/' (p ++ e) = A ++ splitC '/' (x ++ e) := by
  obtain ⟨r, rfl⟩ := (isAbs_iff p).1 h
  cases hl : (splitC '/' r).getLast? with
  | none => exact absurd (List.getLast?_eq_none_iff.1 hl) (splitC_ne_nil _ _)
  | some x =>
    have e1 := eq_dropLast_append hl
    have hsplit : splitC '/' ('/' :: r) = ([] :: (splitC '/' r).dropLast) ++ [x] := by
      rw [splitC_cons_sep]; conv => lhs; rw [e1]
      rfl
    refine ⟨[] :: (splitC '/' r).dropLast, x, by simp, hsplit, fun e => ?_⟩
    have hA : ∀ s ∈ ([] :: (splitC '/' r).dropLast : List Str), '/' ∉ s := by
      intro s hs
      refine not_mem_of_mem_splitC (s := '/' :: r) ?_
      rw [hsplit]
      exact List.mem_append_left _ hs
    have : '/' :: r = joinC '/' ([] :: (splitC '/' r).dropLast) ++ '/' :: x := by
      rw [← joinC_splitC '/' ('/' :: r), hsplit, joinC_append (by simp) (by simp)]
      rfl
    rw [this, List.append_assoc, List.cons_append, splitC_append_sep,
      splitC_joinC (by simp) hA]

theorem lastSeg_eq {p : Str} {A : List Str} {x : Str} (h : splitC '/' p = A ++ [x]) :
    lastSeg p = some x := by
  unfold lastSeg; rw [h]; simp

theorem sim_append {p q : Str} (ha : isAbs p = true) (h : Sim p q) (e : Str) :
    Sim (p ++ e) (q ++ e) := by
  have ha' : isAbs q = true := by rw [← h.abs]; exact ha
  obtain ⟨A, x, -, hs, he⟩ := abs_segs ha
  obtain ⟨B, y, -, hs', he'⟩ := abs_segs ha'
  have hxy : x = y := by
    have := h.2
    rw [lastSeg_eq hs, lastSeg_eq hs'] at this
    exact Option.some.inj this
  subst hxy
  have hAB : segComps A = segComps B := by
    have := h.1
    rw [comps_eq_root ha, comps_eq_root ha', hs, hs', segComps_append, segComps_append] at this
    injection this with _ this
    exact List.append_cancel_right this
  have habs : ∀ p : Str, isAbs p = true → isAbs (p ++ e) = true := by
    intro p hp
    obtain ⟨r, rfl⟩ := (isAbs_iff p).1 hp
    exact (isAbs_iff _).2 ⟨r ++ e, rfl⟩
  refine ⟨?_, ?_⟩
  · rw [comps_eq_root (habs p ha), comps_eq_root (habs q ha'), he, he', segComps_append,
      segComps_append, hAB]
  · unfold lastSeg
    rw [he, he', List.getLast?_append, List.getLast?_append]
    cases hl : (splitC '/' (x ++ e)).getLast? with
    | none => exact absurd (List.getLast?_eq_none_iff.1 hl) (splitC_ne_nil _ _)
    | some y => rfl

theorem isAbs_append {p : Str} (h : isAbs p = true) (e : Str) : isAbs (p ++ e) = true := by
  obtain ⟨r, rfl⟩ := (isAbs_iff p).1 h
  exact (isAbs_iff _).2 ⟨r ++ e, rfl⟩

/-- The parent of an absolute path ends with the last component left. -/
theorem lastSeg_pparent {p q : Str} (ha : isAbs p = true) (h : pparent p = some q) :
    lastSeg q = match (comps q).getLast? with
      | some (.normal s) => some s
      | some .up => some cs!".."
      | _ => some [] := by
  obtain ⟨r, rfl⟩ := (isAbs_iff p).1 ha
  rw [pparent_abs] at h
  split at h
  · cases h
  · injection h with h
    subst h
    have hsep : ∀ s ∈ parentSegs (splitC '/' r), '/' ∉ s :=
      fun s hs => not_mem_of_mem_splitC (mem_of_mem_parentSegs hs)
    have hq : isAbs ('/' :: joinC '/' (parentSegs (splitC '/' r))) = true := rfl
    rw [comps_abs, segComps_splitC_joinC hsep]
    unfold lastSeg
    rw [splitC_cons_sep]
    cases hl : (parentSegs (splitC '/' r)).getLast? with
    | none =>
      rw [List.getLast?_eq_none_iff.1 hl]
      rfl
    | some x =>
      have hne : parentSegs (splitC '/' r) ≠ [] := by
        intro e; rw [e] at hl; cases hl
      rw [splitC_joinC hne hsep, List.getLast?_cons, hl]
      obtain ⟨c, hc⟩ := trimSegs_last hl
      have hlast : (Comp.root :: segComps (parentSegs (splitC '/' r))).getLast? = some c := by
        rw [eq_dropLast_append hl, segComps_append]
        simp [segComps, hc, List.getLast?_cons]
      rw [hlast]
      unfold segComp at hc
      split at hc
      · cases hc
      · split at hc
        · cases hc
        · split at hc
          · rename_i hx
            cases hc
            simp [hx]
          · cases hc
            simp

theorem sim_pparent {p q : Str} (ha : isAbs p = true) (h : comps p = comps q) :
    (pparent p = none ∧ pparent q = none) ∨
      ∃ p' q', pparent p = some p' ∧ pparent q = some q' ∧ Sim p' q' ∧ isAbs p' = true := by
  have ha' : isAbs q = true := by rw [← isAbs_of_comps h]; exact ha
  cases hp : pparent p with
  | none =>
    left
    refine ⟨rfl, ?_⟩
    rw [pparent_eq_none] at hp ⊢
    rwa [← h]
  | some p' =>
    right
    cases hq : pparent q with
    | none =>
      rw [pparent_eq_none, ← h, ← pparent_eq_none, hp] at hq
      cases hq
    | some q' =>
      have hc : comps p' = comps q' := by rw [comps_pparent hp, comps_pparent hq, h]
      exact ⟨p', q', rfl, rfl, ⟨hc, by rw [lastSeg_pparent ha hp, lastSeg_pparent ha' hq, hc]⟩,
        by rw [isAbs_pparent hp, ha]⟩

theorem normalizeLex_comps {p q : Str} (h : comps p = comps q) : normalizeLex p = normalizeLex q := by
  unfold normalizeLex; rw [h]

/-! ## Containing a name -/

theorem containsStr_iff (s sub : Str) : containsStr s sub = true ↔ sub <:+: s := by
  induction s with
  | nil => simp [containsStr]
  | cons c s ih => rw [containsStr, Bool.or_eq_true, ih, List.infix_cons_iff]; simp

theorem infix_append_sep {a b sub : Str} {c : Char} (hc : c ∉ sub) :
    sub <:+: a ++ c :: b ↔ sub <:+: a ∨ sub <:+: b := by
  constructor
  · induction a with
    | nil =>
      intro h
      rw [List.nil_append, List.infix_cons_iff] at h
      rcases h with h | h
      · cases sub with
        | nil => exact .inl (List.nil_infix)
        | cons x sub =>
          obtain ⟨t, ht⟩ := h
          injection ht with h1 h2
          exact (hc (by simp [h1])).elim
      · exact .inr h
    | cons x a ih =>
      intro h
      rw [List.cons_append, List.infix_cons_iff] at h
      rcases h with h | h
      · left
        have : ∀ (sub : Str) (a : Str), c ∉ sub → sub <+: a ++ c :: b → sub <+: a := by
          intro sub
          induction sub with
          | nil => intro a _ _; exact List.nil_prefix
          | cons y sub ih =>
            intro a hc h
            cases a with
            | nil =>
              obtain ⟨t, ht⟩ := h
              injection ht with h1 h2
              exact (hc (by simp [h1])).elim
            | cons z a =>
              rw [List.cons_append, List.cons_prefix_cons] at h
              rw [List.cons_prefix_cons]
              exact ⟨h.1, ih a (fun hx => hc (List.mem_cons_of_mem _ hx)) h.2⟩
        exact (this sub (x :: a) hc h).isInfix
      · rcases ih h with h | h
        · exact .inl (h.trans (List.infix_cons (List.infix_rfl)))
        · exact .inr h
  · rintro (h | h)
    · exact h.trans (List.prefix_append _ _).isInfix
    · exact h.trans ((List.suffix_cons _ _).trans (List.suffix_append _ _)).isInfix

theorem infix_iff_seg {s sub : Str} (h : '/' ∉ sub) (hne : sub ≠ []) :
    sub <:+: s ↔ ∃ x ∈ splitC '/' s, sub <:+: x := by
  have key : ∀ l : List Str, l ≠ [] → (sub <:+: joinC '/' l ↔ ∃ x ∈ l, sub <:+: x) := by
    intro l
    induction l with
    | nil => intro h; exact absurd rfl h
    | cons x l ih =>
      intro _
      cases l with
      | nil => simp [joinC]
      | cons y l =>
        rw [joinC_cons_cons, infix_append_sep h, ih (by simp)]
        simp
  conv => lhs; rw [← joinC_splitC '/' s]
  exact key _ (splitC_ne_nil _ _)

theorem contains_module_iff {p : Str} (ha : isAbs p = true) :
    containsStr p MODULE = true ↔ ∃ s, Comp.normal s ∈ comps p ∧ MODULE <:+: s := by
  rw [containsStr_iff, infix_iff_seg (by decide) (by decide), comps_eq_root ha]
  constructor
  · rintro ⟨x, hx, hm⟩
    refine ⟨x, List.mem_cons_of_mem _ (List.mem_filterMap.2 ⟨x, hx, ?_⟩), hm⟩
    have h : ∀ y : Str, y.length < 12 → x ≠ y := by
      rintro y hy rfl
      have := hm.length_le
      have : MODULE.length = 12 := rfl
      omega
    unfold segComp
    rw [if_neg (h [] (by decide)), if_neg (h cs!"." (by decide)), if_neg (h cs!".." (by decide))]
  · rintro ⟨s, hs, hm⟩
    rcases List.mem_cons.1 hs with hs | hs
    · cases hs
    · obtain ⟨x, hx, hc⟩ := List.mem_filterMap.1 hs
      refine ⟨x, hx, ?_⟩
      unfold segComp at hc
      split at hc
      · cases hc
      · split at hc
        · cases hc
        · split at hc
          · cases hc
          · cases hc
            exact hm

theorem contains_module_comps {p q : Str} (ha : isAbs p = true) (h : comps p = comps q) :
    containsStr p MODULE = containsStr q MODULE := by
  have ha' : isAbs q = true := by rw [← isAbs_of_comps h]; exact ha
  rw [Bool.eq_iff_iff, contains_module_iff ha, contains_module_iff ha', h]

end Verif
