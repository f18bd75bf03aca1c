import Verif.Model.Basic
/-!
# Byte lengths and byte slices
-/

namespace Verif

theorem utf8Size_pos (c : Char) : 0 < c.utf8Size := Char.utf8Size_pos c

theorem utf8Len_append (a b : Str) : utf8Len (a ++ b) = utf8Len a + utf8Len b := by
  induction a with
  | nil => simp [utf8Len]
  | cons c a ih => simp only [List.cons_append, utf8Len, ih]; omega

theorem utf8Len_eq_zero {s : Str} : utf8Len s = 0 ↔ s = [] := by
  cases s with
  | nil => simp [utf8Len]
  | cons c s => have := utf8Size_pos c; simp [utf8Len]; omega

theorem takeBytes_append (a b : Str) : takeBytes (a ++ b) (utf8Len a) = some a := by
  induction a with
  | nil => cases b <;> rfl
  | cons c a ih =>
    have := utf8Size_pos c
    simp only [List.cons_append, utf8Len]
    obtain ⟨m, hm⟩ : ∃ m, c.utf8Size + utf8Len a = m + 1 := ⟨c.utf8Size + utf8Len a - 1, by omega⟩
    rw [hm]
    unfold takeBytes
    rw [if_pos (by omega), show m + 1 - c.utf8Size = utf8Len a by omega, ih]
    rfl

theorem dropBytes_append (a b : Str) : dropBytes (a ++ b) (utf8Len a) = some b := by
  induction a with
  | nil => cases b <;> rfl
  | cons c a ih =>
    have := utf8Size_pos c
    simp only [List.cons_append, utf8Len]
    obtain ⟨m, hm⟩ : ∃ m, c.utf8Size + utf8Len a = m + 1 := ⟨c.utf8Size + utf8Len a - 1, by omega⟩
    rw [hm]
    unfold dropBytes
    rw [if_pos (by omega), show m + 1 - c.utf8Size = utf8Len a by omega, ih]

theorem takeBytes_some {s a : Str} {n : Nat} (h : takeBytes s n = some a) :
    ∃ b, s = a ++ b ∧ utf8Len a = n := by
  induction s generalizing n a with
  | nil =>
    cases n with
    | zero => simp only [takeBytes, Option.some.injEq] at h; subst h; exact ⟨[], rfl, rfl⟩
    | succ n => cases h
  | cons c s ih =>
    cases n with
    | zero => simp only [takeBytes, Option.some.injEq] at h; subst h; exact ⟨_, rfl, rfl⟩
    | succ n =>
      unfold takeBytes at h
      split at h
      · rename_i hle
        cases ht : takeBytes s (n + 1 - c.utf8Size) with
        | none => rw [ht] at h; cases h
        | some a' =>
          rw [ht] at h
          simp only [Option.map_some, Option.some.injEq] at h
          subst h
          obtain ⟨b, rfl, hl⟩ := ih ht
          exact ⟨b, rfl, by simp only [utf8Len]; omega⟩
      · cases h

theorem dropBytes_some {s b : Str} {n : Nat} (h : dropBytes s n = some b) :
    ∃ a, s = a ++ b ∧ utf8Len a = n := by
  induction s generalizing n with
  | nil =>
    cases n with
    | zero => simp only [dropBytes, Option.some.injEq] at h; subst h; exact ⟨[], rfl, rfl⟩
    | succ n => cases h
  | cons c s ih =>
    cases n with
    | zero => simp only [dropBytes, Option.some.injEq] at h; subst h; exact ⟨[], rfl, rfl⟩
    | succ n =>
      unfold dropBytes at h
      split at h
      · rename_i hle
        obtain ⟨a, rfl, hl⟩ := ih h
        exact ⟨c :: a, rfl, by simp only [utf8Len]; omega⟩
      · cases h

/-- Two decompositions at the same byte position agree. -/
theorem append_bytes_inj {a b a' b' : Str} (h : a ++ b = a' ++ b') (hl : utf8Len a = utf8Len a') :
    a = a' ∧ b = b' := by
  have h1 := takeBytes_append a b
  have h2 := takeBytes_append a' b'
  rw [h, hl, h2] at h1
  have h3 : a' = a := by simpa using h1
  subst h3
  exact ⟨rfl, List.append_cancel_left h⟩

/-- Strings of one-byte characters: every position is a boundary. -/
def AsciiStr (s : Str) : Prop := ∀ c ∈ s, c.utf8Size = 1

instance (s : Str) : Decidable (AsciiStr s) :=
  inferInstanceAs (Decidable (∀ c ∈ s, c.utf8Size = 1))

theorem utf8Len_ascii {s : Str} (h : AsciiStr s) : utf8Len s = s.length := by
  induction s with
  | nil => rfl
  | cons c s ih =>
    simp only [utf8Len, List.length_cons, h c (List.mem_cons_self ..),
      ih fun x hx => h x (List.mem_cons_of_mem _ hx)]
    omega

theorem takeBytes_ascii {s : Str} (h : AsciiStr s) {n : Nat} (hn : n ≤ s.length) :
    takeBytes s n = some (s.take n) := by
  have h1 := takeBytes_append (s.take n) (s.drop n)
  rw [List.take_append_drop, utf8Len_ascii (fun c hc => h c (List.mem_of_mem_take hc)),
    List.length_take, Nat.min_eq_left hn] at h1
  exact h1

theorem dropBytes_ascii {s : Str} (h : AsciiStr s) {n : Nat} (hn : n ≤ s.length) :
    dropBytes s n = some (s.drop n) := by
  have h1 := dropBytes_append (s.take n) (s.drop n)
  rw [List.take_append_drop, utf8Len_ascii (fun c hc => h c (List.mem_of_mem_take hc)),
    List.length_take, Nat.min_eq_left hn] at h1
  exact h1

theorem splitFirst_some {c : Char} {s a b : Str} (h : splitFirst c s = some (a, b)) :
    s = a ++ b ∧ c ∉ a ∧ b.head? = some c := by
  induction s generalizing a with
  | nil => cases h
  | cons x s ih =>
    unfold splitFirst at h
    split at h
    · rename_i hx
      cases h
      exact ⟨rfl, List.not_mem_nil, by rw [List.head?_cons, hx]⟩
    · rename_i hx
      cases hs : splitFirst c s with
      | none => rw [hs] at h; cases h
      | some ab =>
        obtain ⟨a', b'⟩ := ab
        rw [hs] at h
        simp only [Option.map_some, Option.some.injEq, Prod.mk.injEq] at h
        obtain ⟨rfl, rfl⟩ := h
        obtain ⟨rfl, h2, h3⟩ := ih hs
        exact ⟨rfl, by simp [h2, Ne.symm hx], h3⟩

theorem splitFirst_append {c : Char} {a b : Str} (h : c ∉ a) :
    splitFirst c (a ++ c :: b) = some (a, c :: b) := by
  induction a with
  | nil => simp [splitFirst]
  | cons x a ih =>
    simp only [List.mem_cons, not_or] at h
    simp only [List.cons_append, splitFirst, if_neg (Ne.symm h.1), ih h.2, Option.map_some]

theorem splitFirst_none {c : Char} {s : Str} : splitFirst c s = none ↔ c ∉ s := by
  induction s with
  | nil => simp [splitFirst]
  | cons x s ih =>
    unfold splitFirst
    split
    · rename_i hx; simp [hx]
    · rename_i hx
      rw [Option.map_eq_none_iff, ih]
      simp [Ne.symm hx]

end Verif
