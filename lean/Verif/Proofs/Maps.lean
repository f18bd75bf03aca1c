import Verif.Spec.Maps
import Verif.Proofs.Trie
/-!
# Values of exports and imports: shape and meaning
-/

namespace Verif

/-! ## `from_json` builds well-formed values -/

theorem wfItems_iff {l : List MV} :
    wfItems l = true ↔ ∀ v ∈ l, v.wf = true ∧ ∀ a, v ≠ .arr a := by
  induction l with
  | nil => simp [wfItems]
  | cons v l ih =>
    cases v with
    | arr a =>
      simp only [wfItems, Bool.false_eq_true, false_iff]
      intro h
      exact (h _ (List.mem_cons_self ..)).2 a rfl
    | direct t => simp [wfItems, ih]
    | cond m => simp [wfItems, ih]

mutual
theorem fromJson_wf : ∀ (j : Json) (v : MV), fromJson j = some v → v.wf = true
  | .null, v, h => by simp [fromJson] at h
  | .bool _, v, h => by simp [fromJson] at h
  | .num _, v, h => by simp [fromJson] at h
  | .str s, v, h => by simp [fromJson] at h; subst h; rfl
  | .arr l, v, h => by
    simp only [fromJson, Option.map_eq_some_iff] at h
    obtain ⟨r, h1, rfl⟩ := h
    exact fromJsonArr_wf l r h1
  | .obj l, v, h => by
    simp only [fromJson, Option.map_eq_some_iff] at h
    obtain ⟨r, h1, rfl⟩ := h
    have := fromJsonObj_wf l [] r (by simp) (by simp) h1
    unfold MV.wf
    simp only [Bool.and_eq_true, decide_eq_true_eq]
    exact ⟨this.1, wfConds_iff.2 this.2⟩
theorem fromJsonArr_wf : ∀ (l : List Json) (r : List MV), fromJsonArr l = some r → wfItems r = true
  | [], r, h => by simp [fromJsonArr] at h; subst h; rfl
  | j :: l, r, h => by
    unfold fromJsonArr at h
    cases hj : fromJson j with
    | none => rw [hj] at h; cases h
    | some v =>
      rw [hj] at h
      have hv := fromJson_wf j v hj
      have hna : ∀ a, v ≠ .arr a := by
        intro a ha
        subst ha
        cases h
      have : (fromJsonArr l).map (v :: ·) = some r := by
        cases v with
        | arr a => exact (hna a rfl).elim
        | direct _ => exact h
        | cond _ => exact h
      rw [Option.map_eq_some_iff] at this
      obtain ⟨r', h1, rfl⟩ := this
      rw [wfItems_iff]
      intro x hx
      rcases List.mem_cons.1 hx with rfl | hx
      · exact ⟨hv, hna⟩
      · exact wfItems_iff.1 (fromJsonArr_wf l r' h1) x hx
theorem fromJsonObj_wf : ∀ (l : List (Str × Json)) (acc r : List (Str × MV)),
    (acc.map Prod.fst).Nodup → (∀ kv ∈ acc, kv.2.wf = true) → fromJsonObj l acc = some r →
    (r.map Prod.fst).Nodup ∧ ∀ kv ∈ r, kv.2.wf = true
  | [], acc, r, h1, h2, h => by simp [fromJsonObj] at h; subst h; exact ⟨h1, h2⟩
  | (k, j) :: l, acc, r, h1, h2, h => by
    unfold fromJsonObj at h
    cases hj : fromJson j with
    | none => rw [hj] at h; cases h
    | some v =>
      rw [hj] at h
      refine fromJsonObj_wf l _ r (ainsert_keys h1).1 ?_ h
      intro kv hkv
      have hl := alookup_of_mem (ainsert_keys h1).1 (k := kv.1) (v := kv.2) hkv
      rw [alookup_ainsert] at hl
      split at hl
      · injection hl with hl; rw [← hl]; exact fromJson_wf j v hj
      · exact h2 kv (alookup_mem hl)
end

/-! ## `mapping` -/

theorem scan_found {cond : Str → Prop} {m : List (Str × MV)} {v : MV} (h : Scan cond m (.found v))
    (hw : ∀ kv ∈ m, kv.2.wf = true) : v.size < condSize m ∧ v.wf = true := by
  generalize hr : CondResult.found v = r at h
  induction h with
  | nil => cases hr
  | bad => cases hr
  | skip _ _ _ ih =>
    have := ih (fun kv h => hw kv (List.mem_cons_of_mem _ h)) hr
    rw [condSize_pos_cons]
    exact ⟨by omega, this.2⟩
  | leaf _ _ =>
    cases hr
    rw [condSize_pos_cons]
    exact ⟨by omega, hw _ (List.mem_cons_self ..)⟩
  | into _ _ _ ih =>
    have h0 := hw _ (List.mem_cons_self ..)
    have := ih (wf_cond h0).2 hr
    rw [condSize_pos_cons]
    simp only [MV.size]
    exact ⟨by omega, this.2⟩
  | back _ _ _ _ ih =>
    have := ih (fun kv h => hw kv (List.mem_cons_of_mem _ h)) hr
    rw [condSize_pos_cons]
    exact ⟨by omega, this.2⟩

/-- `mapping` computes the targets; fuel suffices. -/
theorem mapping_spec (k : FieldKind) (remaining : Option Str) (subpath : Bool) (names : List Str)
    (fuel : Nat) :
    (∀ v : MV, v.wf = true → v.size < fuel → ∃ r, mapping k remaining subpath names fuel v = some r ∧
      Outputs (· ∈ names) (targetMapping k remaining subpath) v r) ∧
    ∀ l : List MV, wfItems l = true → arrSize l < fuel →
      ∃ r, mappingArr k remaining subpath names fuel l = some r ∧
        Outputs (· ∈ names) (targetMapping k remaining subpath) (.arr l) r := by
  induction fuel with
  | zero => exact ⟨fun v _ h => by omega, fun l _ h => by omega⟩
  | succ fuel ih =>
    constructor
    · intro v hw hs
      cases v with
      | direct t =>
        rw [mapping]
        cases ht : targetMapping k remaining subpath t with
        | error e => exact ⟨_, rfl, .directErr ht⟩
        | ok s => exact ⟨_, rfl, .direct ht⟩
      | arr l =>
        rw [mapping]
        exact ih.2 l hw (by simp only [MV.size] at hs; omega)
      | cond m =>
        rw [mapping]
        obtain ⟨r, hr⟩ := scan_total (· ∈ names) m
        rw [condMapping_scan hw names hr]
        cases r with
        | noMatch => exact ⟨_, rfl, .noMatch hr⟩
        | badDefault => exact ⟨_, rfl, .badDefault hr⟩
        | found v =>
          obtain ⟨h1, h2⟩ := scan_found hr (wf_cond hw).2
          simp only [MV.size] at hs
          obtain ⟨r, h3, h4⟩ := ih.1 v h2 (by omega)
          exact ⟨r, h3, .found hr h4⟩
    · intro l hw hs
      cases l with
      | nil => exact ⟨_, rfl, .nil⟩
      | cons v l =>
        rw [wfItems_iff] at hw
        have hv := hw v (List.mem_cons_self ..)
        have hsz : arrSize (v :: l) = 1 + v.size + arrSize l := rfl
        obtain ⟨r1, h1, h2⟩ := ih.1 v hv.1 (by omega)
        obtain ⟨r2, h3, h4⟩ := ih.2 l (wfItems_iff.2 fun x hx => hw x (List.mem_cons_of_mem _ hx))
          (by omega)
        rw [mappingArr, h1]
        cases r1 with
        | error e => exact ⟨_, rfl, .err h2⟩
        | ok a =>
          simp only
          rw [h3]
          cases r2 with
          | error e => exact ⟨_, rfl, .errTail h2 h4⟩
          | ok b => exact ⟨_, rfl, .cons h2 h4⟩

theorem mapping_isSome (k : FieldKind) (remaining : Option Str) (subpath : Bool) (names : List Str)
    (v : MV) (hw : v.wf = true) :
    (mapping k remaining subpath names (v.size + 1) v).isSome = true := by
  obtain ⟨r, h, -⟩ := (mapping_spec k remaining subpath names (v.size + 1)).1 v hw (by omega)
  rw [h]
  rfl

/-- The specification determines the result. -/
theorem outputs_det {cond : Str → Prop} {f : Str → Except Err Str} {v : MV}
    {r r' : Except Err (List Str)} (h : Outputs cond f v r) (h' : Outputs cond f v r') : r = r' := by
  induction h generalizing r' with
  | direct h =>
    cases h' with
    | direct h2 => rw [h] at h2; cases h2; rfl
    | directErr h2 => rw [h] at h2; cases h2
  | directErr h =>
    cases h' with
    | direct h2 => rw [h] at h2; cases h2
    | directErr h2 => rw [h] at h2; cases h2; rfl
  | noMatch h =>
    cases h' with
    | noMatch _ => rfl
    | badDefault h2 => cases scan_det h h2
    | found h2 => cases scan_det h h2
  | badDefault h =>
    cases h' with
    | noMatch h2 => cases scan_det h h2
    | badDefault _ => rfl
    | found h2 => cases scan_det h h2
  | found h _ ih =>
    cases h' with
    | noMatch h2 => cases scan_det h h2
    | badDefault h2 => cases scan_det h h2
    | found h2 h3 => cases scan_det h h2; exact ih h3
  | nil => cases h'; rfl
  | cons _ _ ih1 ih2 =>
    cases h' with
    | cons h2 h3 => cases ih1 h2; cases ih2 h3; rfl
    | err h2 => cases ih1 h2
    | errTail h2 h3 => cases ih2 h3
  | err _ ih =>
    cases h' with
    | cons h2 _ => cases ih h2
    | err h2 => cases ih h2; rfl
    | errTail h2 _ => cases ih h2
  | errTail _ _ ih1 ih2 =>
    cases h' with
    | cons _ h3 => cases ih2 h3
    | err h2 => cases ih1 h2
    | errTail _ h3 => cases ih2 h3; rfl

/-! ## Targets -/

theorem endsWithC_iff (s : Str) (c : Char) : endsWithC s c = true ↔ s.getLast? = some c := by
  simp [endsWithC]

theorem endsWithC_false (s : Str) (c : Char) : endsWithC s c = false ↔ s.getLast? ≠ some c := by
  rw [Ne, ← endsWithC_iff]; simp

theorem assertTarget_spec (k : FieldKind) (t : Str) :
    (BadTarget k t ∧ assertTarget k t true = .error (.exportTarget t)) ∨
    (¬ BadTarget k t ∧ assertTarget k t true = .ok (endsWithC t '/')) := by
  unfold assertTarget BadTarget
  cases k with
  | imports =>
    right
    refine ⟨by simp, ?_⟩
    cases endsWithC t '/' <;> rfl
  | exports =>
    simp only [true_and]
    rw [← startsWith_iff t cs!"/", ← startsWith_iff t cs!".", ← startsWith_iff t cs!"./"]
    split
    · rename_i h
      left
      simp only [Bool.or_eq_true, decide_eq_true_eq, Bool.and_eq_true, Bool.not_eq_true'] at h
      refine ⟨?_, rfl⟩
      rcases h with (h | h) | ⟨h1, h2⟩
      · exact .inl h
      · exact .inr (.inl h)
      · exact .inr (.inr ⟨h1, by simp [h2]⟩)
    · rename_i h
      right
      simp only [Bool.or_eq_true, decide_eq_true_eq, Bool.and_eq_true, Bool.not_eq_true',
        not_or, not_and] at h
      refine ⟨?_, ?_⟩
      · rintro (h1 | h1 | ⟨h1, h2⟩)
        · exact h.1.1 h1
        · exact h.1.2 h1
        · exact h.2 h1 (by simpa using h2)
      · cases endsWithC t '/' <;> rfl

theorem replaceChar_of_not_mem {s : Str} {c : Char} (h : c ∉ s) (to : Str) : replaceChar s c to = s := by
  unfold replaceChar
  induction s with
  | nil => rfl
  | cons x s ih =>
    simp only [List.mem_cons, not_or] at h
    rw [List.flatMap_cons, ih h.2, if_neg (Ne.symm h.1)]
    rfl

/-- How `target_mapping` is called for each way of matching. -/
inductive CalledFor : How → Option Str → Bool → Prop where
  | exact (o) : CalledFor .exact o false
  | star (c) : CalledFor (.star c) (some c) false
  | folder (r) : CalledFor (.folder r) (some r) true

theorem targetMapping_subst {k : FieldKind} {how : How} {remaining : Option Str} {subpath : Bool}
    (h : CalledFor how remaining subpath) {t : Str} (hp : PlainFor how t) :
    Subst k how t (targetMapping k remaining subpath t).toOption := by
  unfold targetMapping
  rcases assertTarget_spec k t with ⟨h1, h2⟩ | ⟨h1, h2⟩
  · rw [h2]; exact .bad h1
  · rw [h2]
    simp only
    cases h with
    | exact o =>
      have hr := replaceChar_of_not_mem (show '*' ∉ t from hp)
      cases he : endsWithC t '/' with
      | true =>
        rw [endsWithC_iff] at he
        cases remaining <;> exact .exactFolder h1 he
      | false =>
        rw [endsWithC_false] at he
        cases remaining with
        | none => exact .exact h1 he
        | some r => simp only; rw [hr]; exact .exact h1 he
    | star c =>
      cases he : endsWithC t '/' with
      | true => rw [endsWithC_iff] at he; exact .starFolder h1 he
      | false =>
        rw [endsWithC_false] at he
        have : replaceChar t '*' (replaceChar c '$' cs!"$$") =
            t.flatMap fun x => if x = '*' then c else [x] := by
          rcases (show '$' ∉ c ∨ '*' ∉ t from hp) with h | h
          · rw [replaceChar_of_not_mem h]; rfl
          · rw [replaceChar_of_not_mem h, ← replaceChar_of_not_mem (s := t) h c]
            rw [replaceChar_of_not_mem h]
            exact (replaceChar_of_not_mem h c).symm
        simp only
        rw [this]
        exact .star h1 he
    | folder r =>
      cases he : endsWithC t '/' with
      | true => rw [endsWithC_iff] at he; exact .folder h1 he
      | false => rw [endsWithC_false] at he; exact .folderFile h1 he

theorem targetMapping_star (k : FieldKind) (t c : Str) :
    Subst k (.star (twice c)) t (targetMapping k (some c) false t).toOption := by
  unfold targetMapping
  rcases assertTarget_spec k t with ⟨h1, h2⟩ | ⟨h1, h2⟩
  · rw [h2]; exact .bad h1
  · rw [h2]
    simp only
    cases he : endsWithC t '/' with
    | true => rw [endsWithC_iff] at he; exact .starFolder h1 he
    | false => rw [endsWithC_false] at he; exact .star h1 he

theorem subst_det {k : FieldKind} {how : How} {t : Str} {r r' : Option Str}
    (h : Subst k how t r) (h' : Subst k how t r') : r = r' := by
  cases h <;> cases h' <;> first | rfl | (exfalso; contradiction)

end Verif
