import Verif.Model.Parse
import Verif.Spec.Request
/-! Lemmas about `parseIdentifier` and `getTargetKind`. -/

namespace Verif

theorem parseNext_ne_start (c : Char) (st : ParseStats) : parseNext c st ≠ .start := by
  unfold parseNext; split
  · cases st <;> simp
  · split <;> cases st <;> simp

theorem fold_fragment (s t q f : Str) :
    s.foldl parseStep (.fragment, t, q, f) = (.fragment, t, q, f ++ s) := by
  induction s generalizing f with
  | nil => simp
  | cons c s ih =>
    have : parseStep (.fragment, t, q, f) c = (.fragment, t, q, f ++ [c]) := by
      have h : parseNext c .fragment = .fragment := by
        unfold parseNext; split <;> simp
      simp [parseStep, h]
    rw [List.foldl_cons, this, ih]; simp

theorem fold_query (a b t q f : Str) (ha : '#' ∉ a) (hb : b = [] ∨ b.head? = some '#') :
    ((a ++ b).foldl parseStep (.query, t, q, f)).2 = (t, q ++ a, f ++ b) := by
  induction a generalizing q with
  | nil =>
    rcases hb with rfl | hb
    · simp
    · cases b with
      | nil => simp at hb
      | cons c b =>
        simp at hb; subst hb
        have : parseStep (.query, t, q, f) '#' = (.fragment, t, q, f ++ ['#']) := by
          simp [parseStep, parseNext]
        rw [List.nil_append, List.foldl_cons, this, fold_fragment]; simp
  | cons c a ih =>
    simp only [List.mem_cons, not_or] at ha
    have h : parseNext c .query = .query := by
      unfold parseNext; rw [if_neg (by simpa [eq_comm] using ha.1)]; split <;> rfl
    have : parseStep (.query, t, q, f) c = (.query, t, q ++ [c], f) := by
      simp [parseStep, h]
    rw [List.cons_append, List.foldl_cons, this, ih _ ha.2]; simp

theorem fold_request (a b c t q f : Str) (ha : '#' ∉ a) (ha' : '?' ∉ a)
    (hb : b = [] ∨ b.head? = some '?') (hb' : '#' ∉ b) (hc : c = [] ∨ c.head? = some '#') :
    ((a ++ b ++ c).foldl parseStep (.request, t, q, f)).2 = (t ++ a, q ++ b, f ++ c) := by
  induction a generalizing t with
  | nil =>
    cases b with
    | nil =>
      cases c with
      | nil => simp
      | cons x c =>
        simp at hc; subst hc
        have : parseStep (.request, t, q, f) '#' = (.fragment, t, q, f ++ ['#']) := by
          simp [parseStep, parseNext]
        simp only [List.nil_append, List.foldl_cons]
        rw [this, fold_fragment]; simp
    | cons x b =>
      simp at hb; subst hb
      have : parseStep (.request, t, q, f) '?' = (.query, t, q ++ ['?'], f) := by
        simp [parseStep, parseNext]
      simp only [List.nil_append, List.cons_append, List.foldl_cons]
      simp only [List.mem_cons, not_or] at hb'
      rw [this, fold_query _ _ _ _ _ hb'.2 hc]; simp
  | cons x a ih =>
    simp only [List.mem_cons, not_or] at ha ha'
    have h : parseNext x .request = .request := by
      unfold parseNext
      rw [if_neg (by simpa [eq_comm] using ha.1), if_neg (by simpa [eq_comm] using ha'.1)]
    have : parseStep (.request, t, q, f) x = (.request, t ++ [x], q, f) := by
      simp [parseStep, h]
    rw [List.cons_append, List.cons_append, List.foldl_cons, this, ih _ ha.2 ha'.2]; simp

/-- The parser returns any split of the specified shape. -/
theorem parse_of_isSplit {s t q f : Str} (h : IsSplit s t q f) :
    parseIdentifier s = (t, q, f) := by
  obtain ⟨rfl, h1, h2, h3, h4, h5, h6⟩ := h
  unfold parseIdentifier
  cases t with
  | nil =>
    cases q with
    | nil => simp [h6 rfl rfl]
    | cons x q =>
      simp at h3; subst h3
      have : parseStep (.start, [], [], []) '?' = (.query, [], ['?'], []) := by
        simp [parseStep, parseNext]
      simp only [List.nil_append, List.cons_append, List.foldl_cons]
      simp only [List.mem_cons, not_or] at h4
      rw [this, fold_query _ _ _ _ _ h4.2 h5]; simp
  | cons x t =>
    simp only [List.tail_cons] at h2
    simp only [List.mem_cons, not_or] at h1
    have h : parseNext x .start = .request := by
      unfold parseNext
      split
      · rfl
      · rw [if_neg (by simpa [eq_comm] using h1.1)]
    have : parseStep (.start, [], [], []) x = (.request, [x], [], []) := by
      simp [parseStep, h]
    simp only [List.cons_append, List.foldl_cons]
    rw [this, fold_request _ _ _ _ _ _ h2 h1.2 h3 h4 h5]; simp

theorem span_split (p : Char → Bool) (s : Str) :
    ∃ a b, s = a ++ b ∧ (∀ c ∈ a, p c = false) ∧ (b = [] ∨ ∃ c r, b = c :: r ∧ p c = true) := by
  induction s with
  | nil => exact ⟨[], [], by simp⟩
  | cons c s ih =>
    by_cases h : p c = true
    · exact ⟨[], c :: s, by simp, by simp, Or.inr ⟨c, s, rfl, h⟩⟩
    · obtain ⟨a, b, rfl, h1, h2⟩ := ih
      refine ⟨c :: a, b, by simp, ?_, h2⟩
      intro x hx; rcases List.mem_cons.1 hx with rfl | hx
      · simpa using h
      · exact h1 x hx

/-- Every string without a leading-`#` problem has a split. -/
theorem split_tail (s : Str) : ∃ a b c, s = a ++ b ++ c ∧ '#' ∉ a ∧ '?' ∉ a ∧
    (b = [] ∨ b.head? = some '?') ∧ '#' ∉ b ∧ (c = [] ∨ c.head? = some '#') := by
  obtain ⟨a, r, rfl, h1, h2⟩ := span_split (fun c => c = '#' || c = '?') s
  obtain ⟨b, c, rfl, h3, h4⟩ := span_split (fun c => c = '#') r
  refine ⟨a, b, c, by simp, ?_, ?_, ?_, ?_, ?_⟩
  · intro h; simpa using h1 _ h
  · intro h; simpa using h1 _ h
  · cases b with
    | nil => simp
    | cons x b =>
      right
      rcases h2 with h2 | ⟨y, z, h2, h5⟩
      · simp at h2
      · simp only [List.cons_append, List.cons.injEq] at h2
        obtain ⟨rfl, -⟩ := h2
        have := h3 x (by simp)
        simp at this h5
        rcases h5 with h5 | h5
        · exact absurd h5 this
        · simp [h5]
  · intro h; simpa using h3 _ h
  · rcases h4 with h4 | ⟨y, z, rfl, h5⟩
    · simp [h4]
    · right; simpa using h5

theorem isSplit_exists (s : Str) : ∃ t q f, IsSplit s t q f := by
  cases s with
  | nil => exact ⟨[], [], [], by constructor <;> simp⟩
  | cons x s =>
    obtain ⟨a, b, c, rfl, h1, h2, h3, h4, h5⟩ := split_tail s
    by_cases hx : x = '?'
    · subst hx
      obtain ⟨a', c', h, h6, h7⟩ := span_split (fun c => c = '#') (a ++ b ++ c)
      refine ⟨[], '?' :: a', c', ?_⟩
      constructor
      · simp [h]
      · simp
      · simp
      · simp
      · simp only [List.mem_cons, not_or]
        exact ⟨by decide, fun h => by simpa using h6 _ h⟩
      · rcases h7 with h7 | ⟨y, z, rfl, h8⟩
        · simp [h7]
        · right; simpa using h8
      · simp
    · refine ⟨x :: a, b, c, ?_⟩
      constructor
      · simp
      · simp only [List.mem_cons, not_or]; exact ⟨fun h => hx h.symm, h2⟩
      · simpa using h1
      · exact h3
      · exact h4
      · exact h5
      · simp

theorem parse_isSplit (s : Str) :
    IsSplit s (parseIdentifier s).1 (parseIdentifier s).2.1 (parseIdentifier s).2.2 := by
  obtain ⟨t, q, f, h⟩ := isSplit_exists s
  rw [parse_of_isSplit h]; exact h

end Verif
