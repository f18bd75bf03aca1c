import Verif.Model.Parse
import Verif.Spec.Request
/-! Lemmas about `getTargetKind`. -/

namespace Verif

theorem mem_driveLetters (c : Char) : c ∈ driveLetters ↔ IsLetter c := by
  constructor
  · intro h
    have hall : ∀ c ∈ driveLetters, (('a' ≤ c ∧ c ≤ 'z') ∨ ('A' ≤ c ∧ c ≤ 'Z')) := by decide
    exact hall c h
  · intro h
    have key : ∀ n : Fin 128, (97 ≤ n.val ∧ n.val ≤ 122) ∨ (65 ≤ n.val ∧ n.val ≤ 90) →
        Char.ofNat n.val ∈ driveLetters := by decide
    have hc : (97 ≤ c.toNat ∧ c.toNat ≤ 122) ∨ (65 ≤ c.toNat ∧ c.toNat ≤ 90) := by
      rcases h with ⟨h1, h2⟩ | ⟨h1, h2⟩
      · left; exact ⟨h1, h2⟩
      · right; exact ⟨h1, h2⟩
    have hlt : c.toNat < 128 := by omega
    have := key ⟨c.toNat, hlt⟩ hc
    simpa using this

theorem startsWith_iff (s p : Str) : startsWith s p = true ↔ p <+: s := by
  simp [startsWith]

theorem mem_winTwo (t : Str) :
    t ∈ winPatternsTwo ↔ ∃ c, IsLetter c ∧ t = [c, ':'] := by
  simp only [winPatternsTwo, List.mem_map, mem_driveLetters, eq_comm]

theorem mem_winRest (p : Str) :
    p ∈ winPatternsRest ↔ ∃ c, IsLetter c ∧ (p = [c, ':', '/'] ∨ p = [c, ':', '\\']) := by
  simp only [winPatternsRest, List.mem_append, List.mem_map, mem_driveLetters]
  constructor
  · rintro (⟨c, h, rfl⟩ | ⟨c, h, rfl⟩)
    · exact ⟨c, h, Or.inr rfl⟩
    · exact ⟨c, h, Or.inl rfl⟩
  · rintro ⟨c, h, rfl | rfl⟩
    · exact Or.inr ⟨c, h, rfl⟩
    · exact Or.inl ⟨c, h, rfl⟩

theorem leftmostFind_zero (pats : List Str) (t : Str) :
    (∃ p, leftmostFind pats t = some (0, p)) ↔ ∃ p ∈ pats, p <+: t := by
  cases t with
  | nil =>
    simp only [leftmostFind, Option.map_eq_some_iff, Prod.mk.injEq, true_and]
    constructor
    · rintro ⟨p, q, h, rfl⟩
      exact ⟨q, List.mem_of_find?_eq_some h, by simpa using List.find?_some h⟩
    · rintro ⟨p, hp, h⟩
      cases hf : pats.find? (fun p => p.isPrefixOf []) with
      | none => rw [List.find?_eq_none] at hf; exact absurd (by simpa using h) (hf p hp)
      | some q => exact ⟨q, q, rfl, rfl⟩
  | cons c s =>
    simp only [leftmostFind]
    cases hf : pats.find? (fun p => p.isPrefixOf (c :: s)) with
    | none =>
      rw [List.find?_eq_none] at hf
      constructor
      · rintro ⟨p, h⟩
        cases hl : leftmostFind pats s <;> simp [hl] at h
      · rintro ⟨p, hp, h⟩
        exact absurd (by simpa using h) (hf p hp)
    | some q =>
      have h1 := List.mem_of_find?_eq_some hf
      have h2 := List.find?_some hf
      constructor
      · intro _; exact ⟨q, h1, by simpa using h2⟩
      · intro _; exact ⟨q, rfl⟩

theorem winRest_iff (t : Str) : (∃ p, leftmostFind winPatternsRest t = some (0, p)) ↔
    ∃ c, IsLetter c ∧ ([c, ':', '/'] <+: t ∨ [c, ':', '\\'] <+: t) := by
  rw [leftmostFind_zero]
  constructor
  · rintro ⟨p, hp, h⟩
    obtain ⟨c, hc, rfl | rfl⟩ := (mem_winRest p).1 hp
    · exact ⟨c, hc, Or.inl h⟩
    · exact ⟨c, hc, Or.inr h⟩
  · rintro ⟨c, hc, h | h⟩
    · exact ⟨_, (mem_winRest _).2 ⟨c, hc, Or.inl rfl⟩, h⟩
    · exact ⟨_, (mem_winRest _).2 ⟨c, hc, Or.inr rfl⟩, h⟩

theorem utf8Size_letter {c : Char} (h : IsLetter c) : c.utf8Size = 1 := by
  have : c.toNat ≤ 127 := by
    rcases h with ⟨_, h⟩ | ⟨_, h⟩
    · have : c.toNat ≤ 'z'.toNat := h
      have h2 : 'z'.toNat = 122 := by decide
      omega
    · have : c.toNat ≤ 'Z'.toNat := h
      have h2 : 'Z'.toNat = 90 := by decide
      omega
  unfold Char.utf8Size
  have h3 : c.val ≤ 127 := by
    show c.val.toNat ≤ (127 : UInt32).toNat
    exact this
  simp [h3]

theorem specWin_iff (t : Str) : SpecWin t ↔
    (utf8Len t = 2 ∧ t ∈ winPatternsTwo) ∨ ∃ p, leftmostFind winPatternsRest t = some (0, p) := by
  rw [winRest_iff, mem_winTwo]
  constructor
  · rintro ⟨c, hc, h | h | h⟩
    · left; subst h
      refine ⟨?_, c, hc, rfl⟩
      simp [utf8Len, utf8Size_letter hc]; decide
    · exact Or.inr ⟨c, hc, Or.inl h⟩
    · exact Or.inr ⟨c, hc, Or.inr h⟩
  · rintro (⟨_, c, hc, h⟩ | ⟨c, hc, h | h⟩)
    · exact ⟨c, hc, Or.inl h⟩
    · exact ⟨c, hc, Or.inr (Or.inl h)⟩
    · exact ⟨c, hc, Or.inr (Or.inr h)⟩

theorem letter_first {c : Char} (h : IsLetter c) : c ≠ '#' ∧ c ≠ '/' ∧ c ≠ '.' := by
  have := (mem_driveLetters c).2 h
  have hall : ∀ c ∈ driveLetters, c ≠ '#' ∧ c ≠ '/' ∧ c ≠ '.' := by decide
  exact hall c this

theorem specWin_cons {t : Str} (h : SpecWin t) : ∃ c r, t = c :: ':' :: r ∧ IsLetter c := by
  obtain ⟨c, hc, h | ⟨r, h⟩ | ⟨r, h⟩⟩ := h
  · exact ⟨c, [], h, hc⟩
  · exact ⟨c, '/' :: r, by simp [← h], hc⟩
  · exact ⟨c, '\\' :: r, by simp [← h], hc⟩

theorem getTargetKind_spec (t : Str) :
    (getTargetKind t = .relative ∧ SpecRelative t) ∨
    (getTargetKind t = .internal ∧ SpecInternal t) ∨
    (getTargetKind t = .absolutePosix ∧ SpecPosix t) ∨
    (getTargetKind t = .absoluteWin ∧ SpecWin t) ∨
    (getTargetKind t = .normal ∧ ¬ SpecRelative t ∧ ¬ SpecInternal t ∧ ¬ SpecPosix t ∧
      ¬ SpecWin t) := by
  unfold getTargetKind
  split
  · left; exact ⟨rfl, Or.inl ‹_›⟩
  · split
    · right; left; exact ⟨rfl, (startsWith_iff _ _).1 ‹_›⟩
    · split
      · right; right; left; exact ⟨rfl, (startsWith_iff _ _).1 ‹_›⟩
      · split
        · left
          refine ⟨rfl, ?_⟩
          rename_i h
          simp only [Bool.or_eq_true, decide_eq_true_eq, startsWith_iff] at h
          unfold SpecRelative
          grind
        · rename_i h1 h2 h3 h4
          simp only [Bool.or_eq_true, decide_eq_true_eq, startsWith_iff] at h4
          simp only [startsWith_iff] at h2 h3
          split
          · rename_i h5
            simp only [Bool.and_eq_true, decide_eq_true_eq, List.contains_iff_mem] at h5
            right; right; right; left
            exact ⟨rfl, (specWin_iff t).2 (Or.inl h5)⟩
          · rename_i h5
            simp only [Bool.and_eq_true, decide_eq_true_eq, List.contains_iff_mem] at h5
            split
            · right; right; right; left
              exact ⟨rfl, (specWin_iff t).2 (Or.inr ⟨_, ‹_›⟩)⟩
            · rename_i h6
              right; right; right; right
              refine ⟨rfl, ?_, h2, h3, ?_⟩
              · unfold SpecRelative; grind
              · rw [specWin_iff]
                rintro (h | ⟨p, h⟩)
                · exact h5 h
                · exact h6 p h

theorem spec_disjoint (t : Str) :
    (SpecRelative t → ¬ SpecInternal t ∧ ¬ SpecPosix t ∧ ¬ SpecWin t) ∧
    (SpecInternal t → ¬ SpecPosix t ∧ ¬ SpecWin t) ∧ (SpecPosix t → ¬ SpecWin t) := by
  refine ⟨?_, ?_, ?_⟩
  · intro h
    have h0 : t = [] ∨ ∃ r, t = '.' :: r := by
      rcases h with h | h | h | ⟨r, h⟩ | ⟨r, h⟩
      · exact Or.inl h
      · exact Or.inr ⟨_, h⟩
      · exact Or.inr ⟨_, h⟩
      · exact Or.inr ⟨_, h.symm⟩
      · exact Or.inr ⟨_, h.symm⟩
    refine ⟨?_, ?_, ?_⟩
    · rintro ⟨r, rfl⟩; rcases h0 with h0 | ⟨_, h0⟩ <;> simp at h0
    · rintro ⟨r, rfl⟩; rcases h0 with h0 | ⟨_, h0⟩ <;> simp at h0
    · intro hw
      obtain ⟨c, r, rfl, hc⟩ := specWin_cons hw
      rcases h0 with h0 | ⟨_, h0⟩
      · simp at h0
      · simp only [List.cons.injEq] at h0; exact (letter_first hc).2.2 h0.1
  · rintro ⟨r, rfl⟩
    refine ⟨?_, ?_⟩
    · rintro ⟨r', h⟩; simp at h
    · intro hw
      obtain ⟨c, r', h, hc⟩ := specWin_cons hw
      simp only [List.cons_append, List.cons.injEq] at h; exact (letter_first hc).1 h.1.symm
  · rintro ⟨r, rfl⟩ hw
    obtain ⟨c, r', h, hc⟩ := specWin_cons hw
    simp only [List.cons_append, List.cons.injEq] at h; exact (letter_first hc).2.1 h.1.symm

end Verif
