import Verif.Proofs.Require
import Verif.Proofs.Imports
/-!
# Lemmas on the comparison of `#` requests with Node.js
-/

namespace Verif

variable {o : Opts} {fs : Fs}

theorem takeWhile_name {a r : Str} (ha : '/' ∉ a) (hr : r = [] ∨ ['/'] <+: r) :
    (a ++ r).takeWhile (· ≠ '/') = a ∧ (a ++ r).dropWhile (· ≠ '/') = r := by
  induction a with
  | nil => rcases hr with rfl | ⟨t, rfl⟩ <;> exact ⟨rfl, rfl⟩
  | cons c a ih =>
    have hc : c ≠ '/' := fun e => ha (by rw [e]; exact List.mem_cons_self ..)
    obtain ⟨h1, h2⟩ := ih fun h => ha (List.mem_cons_of_mem _ h)
    rw [List.cons_append, List.takeWhile_cons_of_pos (by simpa using hc),
      List.dropWhile_cons_of_pos (by simpa using hc), h1, h2]
    exact ⟨rfl, rfl⟩

theorem packageNameOf_eq {t n : Str} (h : PackageName t n) : packageNameOf t = n := by
  unfold packageNameOf
  cases h with
  | plain h1 h2 h3 =>
    rw [if_neg h1]
    exact (takeWhile_name h2 h3).1
  | @inScope a b rest h1 h2 h3 h4 =>
    obtain ⟨e1, e2⟩ := takeWhile_name (a := a) (r := '/' :: (b ++ rest)) h2 (.inr ⟨_, rfl⟩)
    rw [if_pos (h1.trans (List.prefix_append ..)), e1, e2]
    show a ++ ['/'] ++ (b ++ rest).takeWhile _ = _
    rw [(takeWhile_name h3 h4).1, List.append_assoc]
    rfl
  | scope h1 h2 =>
    obtain ⟨e1, e2⟩ := takeWhile_name (r := []) h2 (.inl rfl)
    rw [List.append_nil] at e1 e2
    rw [if_pos h1, e1, e2]
    simp

theorem upParts_head (p : List Str) : ∃ l, upParts p = p :: l := by
  by_cases h : p = []
  · subst h; exact ⟨[], rfl⟩
  · rw [(List.dropLast_concat_getLast h).symm, upParts_snoc]; exact ⟨_, rfl⟩

theorem packageScope_mem {parts p : List Str} {j : Json} (h : packageScope fs parts = some (p, j)) :
    p ∈ upParts parts ∧ packageJson fs (absText p) = some j := by
  unfold packageScope at h
  obtain ⟨q, h1, h2⟩ := List.exists_of_findSome?_eq_some h
  obtain ⟨j', h3, h4⟩ := Option.map_eq_some_iff.1 h2
  cases h4
  exact ⟨(List.takeWhile_sublist _).subset h1, h3⟩

theorem nodeImports_cases (names : List Str) (x : Str) (j : Json) :
    (∃ t, nodeImports names x j = .found t) ∨ ∃ e, nodeImports names x j = .throws e := by
  have key : ∀ r : NodeOut, (∃ t, r.orThrow = .found t) ∨ ∃ e, r.orThrow = .throws e := by
    intro r
    cases r with
    | found t => exact .inl ⟨t, rfl⟩
    | throws e => exact .inr ⟨e, rfl⟩
    | undefined => exact .inr ⟨_, rfl⟩
    | null => exact .inr ⟨_, rfl⟩
  unfold nodeImports
  split
  · exact .inr ⟨_, rfl⟩
  · split
    · exact key _
    · exact .inr ⟨_, rfl⟩

theorem parseRequest_hash {s : Str} (h : cs!"#" <+: s) (hq : '?' ∉ s) (hf : '#' ∉ s.tail) :
    parseRequest s = ⟨s, [], [], getTargetKind s⟩ := by
  have h : IsSplit s s [] [] := ⟨by simp, hq, hf, .inl rfl, nofun, .inl rfl, fun _ _ => rfl⟩
  unfold parseRequest
  rw [parse_of_isSplit h]

end Verif
