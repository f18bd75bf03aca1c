import Verif.Spec.Cond
import Verif.Proofs.Tsconfig
/-!
# The stack machine of `conditional_mapping` against the depth-first scan
-/

namespace Verif

theorem condSize_pos_cons (k : Str) (v : MV) (l : List (Str × MV)) :
    condSize ((k, v) :: l) = 1 + v.size + condSize l := rfl

theorem not_enters_default {cond : Str → Prop} {rest : List (Str × MV)} (hne : rest ≠ []) :
    ¬ Enters cond cs!"default" rest := fun h =>
  h.elim (fun h => hne h.2) fun h => h.1 rfl

theorem not_enters {cond : Str → Prop} {k : Str} (h1 : k ≠ cs!"default") (h2 : ¬ cond k)
    (rest : List (Str × MV)) : ¬ Enters cond k rest := fun h =>
  h.elim (fun h => h1 h.1) fun h => h2 h.2

theorem scan_det {cond : Str → Prop} {l : List (Str × MV)} {r r' : CondResult}
    (h : Scan cond l r) (h' : Scan cond l r') : r = r' := by
  induction h generalizing r' with
  | nil => cases h'; rfl
  | bad hne =>
    cases h' with
    | bad _ => rfl
    | skip h1 => exact (h1 rfl).elim
    | leaf h1 => exact (not_enters_default hne h1).elim
    | into h1 => exact (not_enters_default hne h1).elim
    | back h1 => exact (not_enters_default hne h1).elim
  | skip h1 h2 _ ih =>
    have hno := not_enters h1 h2
    cases h' with
    | bad _ => exact (h1 rfl).elim
    | skip _ _ h3 => exact ih h3
    | leaf h3 => exact (hno _ h3).elim
    | into h3 => exact (hno _ h3).elim
    | back h3 => exact (hno _ h3).elim
  | leaf h1 h2 =>
    cases h' with
    | bad hne => exact (not_enters_default hne h1).elim
    | skip h3 h4 => exact (not_enters h3 h4 _ h1).elim
    | leaf => rfl
    | into => exact (h2 _ rfl).elim
    | back => exact (h2 _ rfl).elim
  | into h1 _ hr ih =>
    cases h' with
    | bad hne => exact (not_enters_default hne h1).elim
    | skip h3 h4 => exact (not_enters h3 h4 _ h1).elim
    | leaf _ h3 => exact (h3 _ rfl).elim
    | into _ h3 _ => exact ih h3
    | back _ h3 _ => exact (hr (ih h3)).elim
  | back h1 _ _ ih ih' =>
    cases h' with
    | bad hne => exact (not_enters_default hne h1).elim
    | skip h3 h4 => exact (not_enters h3 h4 _ h1).elim
    | leaf _ h3 => exact (h3 _ rfl).elim
    | into _ h3 hr => exact (hr (ih h3).symm).elim
    | back _ _ h3 => exact ih' h3

/-- The scan is total. -/
theorem scan_total (cond : Str → Prop) (l : List (Str × MV)) : ∃ r, Scan cond l r := by
  classical
  suffices ∀ n (l : List (Str × MV)), condSize l ≤ n → ∃ r, Scan cond l r from this _ l (Nat.le_refl _)
  intro n
  induction n with
  | zero =>
    intro l hl
    cases l with
    | nil => exact ⟨_, .nil⟩
    | cons x l => obtain ⟨k, v⟩ := x; rw [condSize_pos_cons] at hl; omega
  | succ n ih =>
    intro l hl
    cases l with
    | nil => exact ⟨_, .nil⟩
    | cons x l =>
      obtain ⟨k, v⟩ := x
      rw [condSize_pos_cons] at hl
      obtain ⟨r, hr⟩ := ih l (by omega)
      by_cases hk : k = cs!"default" ∧ l ≠ []
      · obtain ⟨rfl, hne⟩ := hk
        exact ⟨_, .bad hne⟩
      · by_cases he : Enters cond k l
        · cases v with
          | cond inner =>
            have : condSize inner ≤ n := by
              have : (MV.cond inner).size = 1 + condSize inner := rfl
              omega
            obtain ⟨r', hr'⟩ := ih inner this
            by_cases hn : r' = .noMatch
            · subst hn; exact ⟨_, .back he hr' hr⟩
            · exact ⟨_, .into he hr' hn⟩
          | direct t => exact ⟨_, .leaf he nofun⟩
          | arr a => exact ⟨_, .leaf he nofun⟩
        · have h1 : k ≠ cs!"default" := fun h =>
            he (.inl ⟨h, Decidable.not_not.1 fun hne => hk ⟨h, hne⟩⟩)
          exact ⟨_, .skip h1 (fun h => he (.inr ⟨h1, h⟩)) hr⟩

/-- What is done with the value of a key that is entered. -/
def MV.event (i : Nat) : MV → CondEvent
  | .cond inner => .push i inner
  | v => .found v

/-- One round of the inner loop, by the first key. -/
theorem condScan_cons {pre rest : List (Str × MV)} {k : Str} {v : MV} {names : List Str}
    (hn : ((pre ++ (k, v) :: rest).map Prod.fst).Nodup) :
    condScan (pre ++ (k, v) :: rest) (pre ++ (k, v) :: rest).length names pre.length
      (k :: rest.map Prod.fst) =
    if k = cs!"default" ∧ rest ≠ [] then .bad
    else if k = cs!"default" ∨ k ∈ names then
      v.event pre.length
    else condScan (pre ++ (k, v) :: rest) (pre ++ (k, v) :: rest).length names (pre.length + 1)
      (rest.map Prod.fst) := by
  have hl : alookup k (pre ++ (k, v) :: rest) = some v :=
    alookup_of_mem hn (List.mem_append_right _ (List.mem_cons_self ..))
  have hlast : (pre.length ≠ (pre ++ (k, v) :: rest).length - 1) ↔ rest ≠ [] := by
    cases rest <;> simp <;> omega
  rw [condScan]
  simp only [hlast]
  by_cases hd : k = cs!"default"
  · by_cases hr : rest = []
    · simp only [hr, ne_eq, not_true_eq_false, false_and, if_false, and_false, hd, true_or, if_true]
      rw [hr, hd] at hl
      rw [hl]
      cases v <;> rfl
    · rw [if_pos ⟨hr, hd⟩, if_pos ⟨hd, hr⟩]
  · simp only [hd, and_false, false_and, if_false, hl, List.contains_iff_mem, false_or]
    split
    · cases v <;> rfl
    · rfl

/-- One round of the outer loop. -/
def CondEvent.go (names : List Str) (n : Nat) (mapping : List (Str × MV)) (keys : List Str)
    (stack : List (List (Str × MV) × List Str × Nat)) :
    CondEvent → Option (Except Err (Option MV))
  | .bad => some (.error .defaultNotLast)
  | .found v => some (.ok (some v))
  | .push i inner =>
    condLoop names n ((inner, inner.map Prod.fst, 0) :: (mapping, keys, i + 1) :: stack)
  | .exhausted => condLoop names n stack

theorem condLoop_succ (names : List Str) (n : Nat) (mapping : List (Str × MV)) (keys : List Str)
    (j : Nat) (stack : List (List (Str × MV) × List Str × Nat)) :
    condLoop names (n + 1) ((mapping, keys, j) :: stack) =
      (condScan mapping keys.length names j (keys.drop j)).go names n mapping keys stack := by
  rw [condLoop]
  cases condScan mapping keys.length names j (keys.drop j) <;> rfl

/-- What the machine does with a result of the top entry. -/
def CondResult.continue (r : CondResult) (next : Option (Except Err (Option MV))) :
    Option (Except Err (Option MV)) :=
  match r with
  | .noMatch => next
  | .found v => some (.ok (some v))
  | .badDefault => some (.error .defaultNotLast)

theorem wfConds_iff {l : List (Str × MV)} : wfConds l = true ↔ ∀ kv ∈ l, kv.2.wf = true := by
  induction l with
  | nil => simp [wfConds]
  | cons x l ih => obtain ⟨k, v⟩ := x; simp [wfConds, ih]

theorem wf_cond {l : List (Str × MV)} (h : (MV.cond l).wf = true) :
    (l.map Prod.fst).Nodup ∧ ∀ kv ∈ l, kv.2.wf = true := by
  unfold MV.wf at h
  simp only [Bool.and_eq_true, decide_eq_true_eq] at h
  exact ⟨h.1, wfConds_iff.1 h.2⟩

/-- The inner loop from the middle of an object: it skips to the first key that matters. -/
theorem condLoop_entry (names : List Str) : ∀ (size : Nat) (pre rest : List (Str × MV)),
    condSize rest ≤ size → ((pre ++ rest).map Prod.fst).Nodup →
    (∀ kv ∈ rest, kv.2.wf = true) → ∀ r, Scan (· ∈ names) rest r →
    ∀ fuel stack, 2 * condSize rest + 1 ≤ fuel → ∃ fuel', fuel ≤ fuel' + 2 * condSize rest + 1 ∧
      condLoop names fuel ((pre ++ rest, (pre ++ rest).map Prod.fst, pre.length) :: stack) =
        r.continue (condLoop names fuel' stack) := by
  intro size
  induction size with
  | zero =>
    intro pre rest hs hn hw r hr fuel stack hf
    cases rest with
    | cons x l => obtain ⟨k, v⟩ := x; rw [condSize_pos_cons] at hs; omega
    | nil =>
      cases hr
      obtain ⟨f, rfl⟩ : ∃ f, fuel = f + 1 := ⟨fuel - 1, by omega⟩
      refine ⟨f, by simp [condSize], ?_⟩
      rw [condLoop_succ, List.append_nil, List.drop_of_length_le (by simp)]
      rfl
  | succ size ih =>
    intro pre rest hs hn hw r hr fuel stack hf
    cases rest with
    | nil =>
      cases hr
      obtain ⟨f, rfl⟩ : ∃ f, fuel = f + 1 := ⟨fuel - 1, by omega⟩
      refine ⟨f, by simp [condSize], ?_⟩
      rw [condLoop_succ, List.append_nil, List.drop_of_length_le (by simp)]
      rfl
    | cons x rest =>
      obtain ⟨k, v⟩ := x
      rw [condSize_pos_cons] at hs hf
      rw [condSize_pos_cons]
      obtain ⟨f, rfl⟩ : ∃ f, fuel = f + 1 := ⟨fuel - 1, by omega⟩
      have hdrop : ((pre ++ (k, v) :: rest).map Prod.fst).drop pre.length = k :: rest.map Prod.fst := by
        rw [List.map_append, List.drop_append_of_le_length (by simp)]
        simp
      have hassoc : pre ++ (k, v) :: rest = (pre ++ [(k, v)]) ++ rest := by simp
      have hlen : (pre ++ [(k, v)]).length = pre.length + 1 := by simp
      have hstep : condLoop names (f + 1)
          ((pre ++ (k, v) :: rest, (pre ++ (k, v) :: rest).map Prod.fst, pre.length) :: stack) =
          (condScan (pre ++ (k, v) :: rest) (pre ++ (k, v) :: rest).length names pre.length
            (k :: rest.map Prod.fst)).go names f (pre ++ (k, v) :: rest)
            ((pre ++ (k, v) :: rest).map Prod.fst) stack := by
        rw [condLoop_succ, hdrop, List.length_map]
      rw [hstep, condScan_cons hn]
      have hdef : ∀ {rest' : List (Str × MV)}, Enters (· ∈ names) k rest' →
          ¬ (k = cs!"default" ∧ rest' ≠ []) ∧ (k = cs!"default" ∨ k ∈ names) := by
        intro rest' h
        rcases h with ⟨h1, h2⟩ | ⟨h1, h2⟩
        · exact ⟨fun h => h.2 h2, .inl h1⟩
        · exact ⟨fun h => h1 h.1, .inr h2⟩
      -- entering a nested object
      have hinto : ∀ inner r', v = .cond inner → Enters (· ∈ names) k rest →
          Scan (· ∈ names) inner r' → ∃ fuel', f ≤ fuel' + 2 * condSize inner + 1 ∧
          condLoop names f ((inner, inner.map Prod.fst, 0) ::
              (pre ++ (k, v) :: rest, (pre ++ (k, v) :: rest).map Prod.fst, pre.length + 1) :: stack) =
            r'.continue (condLoop names fuel'
              ((pre ++ (k, v) :: rest, (pre ++ (k, v) :: rest).map Prod.fst, pre.length + 1) ::
                stack)) := by
        intro inner r' hv _ hr'
        have hwi := wf_cond (hv ▸ hw (k, v) (List.mem_cons_self ..))
        have hsz : v.size = 1 + condSize inner := by rw [hv]; rfl
        have := ih [] inner (by omega) (by simpa using hwi.1) hwi.2 r' hr' f
          ((pre ++ (k, v) :: rest, (pre ++ (k, v) :: rest).map Prod.fst, pre.length + 1) :: stack)
          (by omega)
        simpa using this
      cases hr with
      | bad hne =>
        rw [if_pos ⟨rfl, hne⟩]
        exact ⟨f, by omega, rfl⟩
      | leaf he hv =>
        rw [if_neg (hdef he).1, if_pos (hdef he).2]
        refine ⟨f, by omega, ?_⟩
        cases v with
        | cond m => exact (hv m rfl).elim
        | direct t => rfl
        | arr a => rfl
      | into he hi hne =>
        rename_i inner
        rw [if_neg (hdef he).1, if_pos (hdef he).2]
        obtain ⟨fuel', h1, h2⟩ := hinto inner r rfl he hi
        have hsz : (MV.cond inner).size = 1 + condSize inner := rfl
        refine ⟨fuel', by omega, ?_⟩
        simp only [MV.event, CondEvent.go]
        rw [h2]
        cases r with
        | noMatch => exact (hne rfl).elim
        | found _ => rfl
        | badDefault => rfl
      | back he hi hrest =>
        rename_i inner
        rw [if_neg (hdef he).1, if_pos (hdef he).2]
        obtain ⟨fuel', h1, h2⟩ := hinto inner _ rfl he hi
        have hsz : (MV.cond inner).size = 1 + condSize inner := rfl
        simp only [MV.event, CondEvent.go]
        rw [h2]
        simp only [CondResult.continue]
        have := ih (pre ++ [(k, .cond inner)]) rest (by omega) (by rw [← hassoc]; exact hn)
          (fun kv h => hw kv (List.mem_cons_of_mem _ h)) r hrest fuel' stack (by omega)
        rw [← hassoc, hlen] at this
        obtain ⟨fuel'', h3, h4⟩ := this
        exact ⟨fuel'', by omega, h4⟩
      | skip h1 h2 hrest =>
        rw [if_neg (fun h => h1 h.1), if_neg (fun h => h.elim h1 h2)]
        have := ih (pre ++ [(k, v)]) rest (by omega) (by rw [← hassoc]; exact hn)
          (fun kv h => hw kv (List.mem_cons_of_mem _ h)) r hrest (f + 1) stack (by omega)
        rw [← hassoc, hlen] at this
        obtain ⟨fuel'', h3, h4⟩ := this
        refine ⟨fuel'', by omega, ?_⟩
        rw [← h4, condLoop_succ]
        have hdrop' : ((pre ++ (k, v) :: rest).map Prod.fst).drop (pre.length + 1) =
            rest.map Prod.fst := by
          rw [← List.drop_drop, hdrop]; rfl
        rw [hdrop', List.length_map]

/-- `conditional_mapping` is the depth-first scan; fuel suffices. -/
theorem condMapping_scan {map : List (Str × MV)} (hw : (MV.cond map).wf = true) (names : List Str)
    {r : CondResult} (hr : Scan (· ∈ names) map r) :
    condMapping map names = some (match r with
      | .noMatch => .ok none
      | .found v => .ok (some v)
      | .badDefault => .error .defaultNotLast) := by
  unfold condMapping
  obtain ⟨h1, h2⟩ := wf_cond hw
  obtain ⟨fuel', h3, h4⟩ := condLoop_entry names _ [] map (Nat.le_refl _) (by simpa using h1) h2 r hr
    (2 * condSize map + 2) [] (by omega)
  simp only [List.nil_append, List.length_nil] at h4
  rw [show (fun x : Str × MV => x.1) = Prod.fst from rfl, h4]
  cases r with
  | noMatch =>
    simp only [CondResult.continue]
    obtain ⟨f, rfl⟩ : ∃ f, fuel' = f + 1 := ⟨fuel' - 1, by omega⟩
    rw [condLoop]
  | found v => rfl
  | badDefault => rfl

theorem condMapping_isSome {map : List (Str × MV)} (hw : (MV.cond map).wf = true)
    (names : List Str) : (condMapping map names).isSome = true := by
  obtain ⟨r, hr⟩ := scan_total (· ∈ names) map
  rw [condMapping_scan hw names hr]
  rfl

end Verif
