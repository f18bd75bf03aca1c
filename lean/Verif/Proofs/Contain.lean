import Verif.Proofs.Fields
import Verif.Proofs.Normalize
import Verif.Model.Resolve
/-!
# Containment of mapped targets
-/

namespace Verif

/-- `check_target` on path segments. -/
def checkSegs : List Str → Int → Bool
  | s :: t :: l, cd =>
    if cs!".." <+: s then (if cd - 1 < 0 then false else checkSegs (t :: l) (cd - 1))
    else if cs!"." <+: s then checkSegs (t :: l) cd
    else checkSegs (t :: l) (cd + 1)
  | _, _ => true

theorem checkTargetLoop_segs (path : Str) (n i : Nat) (cd : Int) (hi : i ≤ path.length)
    (hn : path.length - i < n) :
    checkTargetLoop path (nextList path '/') n i cd = checkSegs (splitC '/' (path.drop i)) cd := by
  induction n generalizing i cd with
  | zero => omega
  | succ n ih =>
    unfold checkTargetLoop
    rcases nextList_cases path i hi with ⟨a, b, h1, h2, h3, h4, h5, h6⟩ | ⟨h1, h2, h3⟩
    · rw [h3, h6]
      have hrec := fun cd => ih (i + a.length + 1) cd h4 (by omega)
      rw [h5] at hrec
      have hg : ∀ j, path[i + j]? = (a ++ '/' :: b)[j]? := by
        intro j; rw [← h1, List.getElem?_drop]
      have hg0 := hg 0
      have hg1 := hg 1
      rw [Nat.add_zero] at hg0
      obtain ⟨t, l, hb⟩ : ∃ t l, splitC '/' b = t :: l := by
        cases h : splitC '/' b with
        | nil => exact (splitC_ne_nil _ _ h).elim
        | cons t l => exact ⟨t, l, rfl⟩
      rw [hb] at hrec ⊢
      simp only
      rw [checkSegs, hg0, hg1, hrec, hrec, hrec]
      have e2 : ((a ++ '/' :: b)[0]? = some '.' ∧ (a ++ '/' :: b)[1]? = some '.') ↔ cs!".." <+: a := by
        cases a with
        | nil => simp
        | cons x a =>
          cases a with
          | nil => simp
          | cons y a => simp [eq_comm]
      have e1 : (a ++ '/' :: b)[0]? = some '.' ↔ cs!"." <+: a := by
        cases a with
        | nil => simp
        | cons x a => simp [eq_comm]
      simp only [e2]
      simp only [e1]
    · rw [h3]
      split
      · rename_i k hk; exact (h2 k hk).elim
      · rfl

theorem checkTarget_segs (path : Str) : checkTarget path = checkSegs (splitC '/' path) 0 :=
  checkTargetLoop_segs path _ 0 0 (Nat.zero_le _) (by omega)

/-- The slice accesses of `check_target` are in bounds: after a separator at `slash` both `i` and
`i + 1` are positions of the path, unless the segment is empty at the very end. -/
theorem checkTarget_in_bounds (path : Str) (i slash : Nat) (hi : i ≤ path.length)
    (h : (nextList path '/')[i]? = some (some slash)) :
    i < path.length ∧ i ≤ slash ∧ slash < path.length := by
  rcases nextList_cases path i hi with ⟨a, b, -, -, h3, h4, -⟩ | ⟨-, h2, -⟩
  · rw [h3] at h
    injection h with h
    injection h with h
    omega
  · exact (h2 _ h).elim

/-- Walking a checked target from below `base` stays below `base`. -/
theorem checkSegs_walk {base extra : List Str} {segs : List Str} {cd : Int}
    (h : checkSegs segs cd = true) (hcd : cd ≤ extra.length)
    (hne : ∀ s ∈ segs.dropLast, s ≠ []) (hlast : segs.getLast? ≠ some cs!"..") :
    ∃ extra', segs.foldl stepSeg (base ++ extra) = base ++ extra' := by
  induction segs generalizing extra cd with
  | nil => exact ⟨extra, rfl⟩
  | cons s segs ih =>
    rw [List.foldl_cons]
    cases segs with
    | nil =>
      simp only [List.getLast?_singleton, ne_eq, Option.some.injEq] at hlast
      rw [List.foldl_nil]
      unfold stepSeg enter
      split
      · exact ⟨extra, rfl⟩
      split
      · exact ⟨extra, rfl⟩
      · exact ⟨extra ++ [s], by simp⟩
    | cons t l =>
      have hs : s ≠ [] := hne s (by simp)
      have hne' : ∀ s ∈ (t :: l).dropLast, s ≠ [] := fun x hx => hne x (by
        rw [List.dropLast_cons_of_ne_nil (by simp)]; exact List.mem_cons_of_mem _ hx)
      have hlast' : (t :: l).getLast? ≠ some cs!".." := by
        rwa [List.getLast?_cons_cons] at hlast
      rw [checkSegs] at h
      unfold stepSeg enter
      rw [if_neg hs]
      by_cases hd : s = cs!"."
      · rw [if_pos hd]
        subst hd
        rw [if_neg (by decide), if_pos (List.prefix_refl _)] at h
        exact ih h hcd hne' hlast'
      · rw [if_neg hd]
        by_cases hdd : s = cs!".."
        · rw [if_pos hdd]
          subst hdd
          rw [if_pos (List.prefix_refl _)] at h
          split at h
          · cases h
          · rename_i hlt
            have hex : extra ≠ [] := by rintro rfl; simp at hcd; omega
            have : (base ++ extra).dropLast = base ++ extra.dropLast :=
              List.dropLast_append_of_ne_nil hex
            rw [this]
            refine ih h ?_ hne' hlast'
            rw [List.length_dropLast]
            have := List.length_pos_iff.2 hex
            omega
        · rw [if_neg hdd, List.append_assoc]
          have hlen : (extra ++ [s]).length = extra.length + 1 := by simp
          split at h
          · split at h
            · cases h
            · exact ih h (by rw [hlen]; omega) hne' hlast'
          · split at h
            · exact ih h (by rw [hlen]; omega) hne' hlast'
            · exact ih h (by rw [hlen]; omega) hne' hlast'

theorem walk_pjoin {dir t : Str} (hd : isAbs dir = true) (ht : isAbs t = false) {loc0 loc : List Str}
    (h0 : Walk [] dir loc0) (h : Walk [] (pjoin dir t) loc) :
    loc = (splitC '/' t).foldl stepSeg loc0 := by
  have hne : dir ≠ [] := by rintro rfl; cases hd
  rw [walk_eq_foldl h, walk_eq_foldl h0]
  obtain ⟨p0, h1, h2⟩ := pjoin_text hne ht
  rw [h2, splitC_append_sep, List.foldl_append]
  rcases h1 with ⟨rfl, -⟩ | rfl
  · rfl
  · congr 1
    rw [show p0 ++ cs!"/" = p0 ++ '/' :: [] from rfl, splitC_append_sep, List.foldl_append]
    rfl

/-- A checked relative target leads to a place at or below the directory. -/
theorem checkTarget_inside {dir t : Str} (hd : isAbs dir = true) (ht : isAbs t = false)
    (hc : checkTarget t = true) (hne : ∀ s ∈ (splitC '/' t).dropLast, s ≠ [])
    (hlast : (splitC '/' t).getLast? ≠ some cs!"..") {loc0 loc : List Str}
    (h0 : Walk [] dir loc0) (h : Walk [] (pjoin dir t) loc) : loc0 <+: loc := by
  rw [walk_pjoin hd ht h0 h]
  rw [checkTarget_segs] at hc
  obtain ⟨extra, he⟩ := checkSegs_walk (base := loc0) (extra := []) hc (by simp) hne hlast
  rw [List.append_nil] at he
  exact ⟨extra, he.symm⟩


theorem splitC_pjoin_last {dir t : Str} (hd : dir ≠ []) (ht : isAbs t = false) :
    (splitC '/' (pjoin dir t)).getLast? = (splitC '/' t).getLast? := by
  obtain ⟨p0, -, h2⟩ := pjoin_text hd ht
  rw [h2, splitC_append_sep, List.getLast?_append]
  cases h : (splitC '/' t).getLast? with
  | none => exact (splitC_ne_nil _ _ (List.getLast?_eq_none_iff.1 h)).elim
  | some x => rfl

/-- A file that passed the check lies at or below the directory. -/
theorem inside_of_checked {fs : Fs} {dir : Str} {r : Request} (hd : isAbs dir = true)
    (hrel : isAbs r.target = false) (hf : fs.isFile (Info.mk dir r).getPath = true)
    (hc : checkTarget r.target = true)
    (hfs : ∀ p, fs.isFile p = true → (splitC '/' p).getLast? ≠ some cs!"..")
    (hne : ∀ s ∈ (splitC '/' r.target).dropLast, s ≠ []) {loc0 loc : List Str}
    (h0 : Walk [] dir loc0) (hw : Walk [] (Info.mk dir r).getPath loc) : loc0 <+: loc := by
  have hdn : dir ≠ [] := by rintro rfl; cases hd
  unfold Info.getPath at hf hw
  simp only at hf hw
  split at hw
  · rw [walk_eq_foldl hw, ← walk_eq_foldl h0]
    exact List.prefix_refl _
  · rename_i hsame
    rw [if_neg hsame] at hf
    refine checkTarget_inside hd hrel hc hne ?_ h0 hw
    have := hfs _ hf
    rwa [splitC_pjoin_last hdn hrel] at this

end Verif
