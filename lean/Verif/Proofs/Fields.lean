import Verif.Proofs.Keys
/-!
# Which entry of exports and imports is used
-/

namespace Verif

/-! ## The tree holds the entries -/

theorem exportsKey_cases {k : Str} (h : ExportsKey k) :
    k = cs!"." ∨ ∃ x, k = cs!"./" ++ x := by
  rcases h with h | ⟨x, rfl⟩
  · exact .inl h
  · exact .inr ⟨x, rfl⟩

theorem buildExports_represents (l : List (Str × MV)) (node : Node) (f : Str → Option MV)
    (dot : Option MV) (h : Represents node f dot) (hk : ∀ kv ∈ l, ExportsKey kv.1)
    (hn : (l.map Prod.fst).Nodup) :
    ∃ root, buildExportsLoop l node = .ok root ∧
      Represents root (fun x => (alookup (cs!"./" ++ x) l).or (f x)) ((alookup cs!"." l).or dot) := by
  induction l generalizing node f dot with
  | nil => exact ⟨node, rfl, by simpa [alookup] using h⟩
  | cons kv l ih =>
    obtain ⟨k, v⟩ := kv
    simp only [List.map_cons, List.nodup_cons] at hn
    have hk' := fun kv hm => hk kv (List.mem_cons_of_mem _ hm)
    have hnone : alookup k l = none := alookup_none.2 fun v hm => hn.1 (List.mem_map.2 ⟨_, hm, rfl⟩)
    rw [buildExportsLoop]
    rcases exportsKey_cases (hk _ (List.mem_cons_self ..)) with h1 | ⟨x, h1⟩
    · simp only at h1
      subst h1
      rw [if_pos (show utf8Len cs!"." = 1 from rfl)]
      obtain ⟨root, h2, h3⟩ := ih _ _ _ (h.setDot v) hk' hn.2
      refine ⟨root, h2, ?_⟩
      have e1 : ∀ y, alookup (cs!"./" ++ y) ((cs!".", v) :: l) = alookup (cs!"./" ++ y) l := by
        intro y; rw [alookup, if_neg (by simp)]
      simp only [e1]
      rw [hnone] at h3
      rw [alookup, if_pos rfl]
      exact h3
    · simp only at h1
      subst h1
      have hlen : utf8Len (cs!"./" ++ x) ≠ 1 := by
        rw [utf8Len_append]
        have : utf8Len cs!"./" = 2 := rfl
        omega
      rw [if_neg hlen, if_neg (by simp [startsWith])]
      obtain ⟨root, h2, h3⟩ := ih _ _ _ (h.walk x v) hk' hn.2
      refine ⟨root, h2, ?_⟩
      have e2 : alookup cs!"." ((cs!"./" ++ x, v) :: l) = alookup cs!"." l := by
        rw [alookup, if_neg (by simp)]
      rw [e2]
      have e1 : (fun y => (alookup (cs!"./" ++ y) ((cs!"./" ++ x, v) :: l)).or (f y)) =
          fun y => (alookup (cs!"./" ++ y) l).or (if y = x then some v else f y) := by
        funext y
        rw [alookup]
        by_cases hy : y = x
        · subst hy
          rw [if_pos rfl, if_pos rfl, hnone]
          rfl
        · rw [if_neg hy, if_neg (by simpa using fun h => hy h.symm)]
      rw [e1]
      exact h3

theorem importsKey_cases {k : Str} (h : ImportsKey k) :
    ∃ x, k = cs!"#" ++ x ∧ x ≠ [] ∧ ¬ cs!"/" <+: x := by
  obtain ⟨⟨x, rfl⟩, h2, h3⟩ := h
  refine ⟨x, rfl, ?_, ?_⟩
  · rintro rfl; exact h2 rfl
  · intro h
    exact h3 ((List.prefix_append_right_inj cs!"#").2 h)

/-- Building imports succeeds exactly if the keys are valid. -/
theorem buildImports_ok (l : List (Str × MV)) (node : Node) :
    (∃ root, buildImportsLoop l node = .ok root) ↔ ∀ kv ∈ l, ImportsKey kv.1 := by
  induction l generalizing node with
  | nil => simp [buildImportsLoop]
  | cons kv l ih =>
    obtain ⟨k, v⟩ := kv
    rw [buildImportsLoop, List.forall_mem_cons]
    unfold ImportsKey
    by_cases h1 : startsWith k cs!"#" = true
    · rw [if_neg (by simp [h1])]
      obtain ⟨x, rfl⟩ := (startsWith_iff _ _).1 h1
      have hlen : utf8Len (cs!"#" ++ x) = 1 ↔ cs!"#" ++ x = cs!"#" := by
        rw [utf8Len_append]
        constructor
        · intro h
          have : utf8Len cs!"#" = 1 := rfl
          rw [utf8Len_eq_zero.1 (show utf8Len x = 0 by omega)]
          rfl
        · intro h
          rw [← utf8Len_append, h]
          rfl
      by_cases h2 : utf8Len (cs!"#" ++ x) = 1
      · rw [if_pos h2]
        simp only [reduceCtorEq, exists_false, false_iff]
        exact fun h => h.1.2.1 (hlen.1 h2)
      · rw [if_neg h2]
        by_cases h3 : startsWith (cs!"#" ++ x) cs!"#/" = true
        · rw [if_pos h3]
          simp only [reduceCtorEq, exists_false, false_iff]
          exact fun h => h.1.2.2 ((startsWith_iff _ _).1 h3)
        · rw [if_neg h3, ih]
          exact ⟨fun h => ⟨⟨(startsWith_iff _ _).1 h1, fun e => h2 (hlen.2 e),
            fun e => h3 ((startsWith_iff _ _).2 e)⟩, h⟩, fun h => h.2⟩
    · rw [if_pos (by simpa using h1)]
      simp only [reduceCtorEq, exists_false, false_iff]
      exact fun h => h1 ((startsWith_iff _ _).2 h.1.1)

theorem buildImports_represents (l : List (Str × MV)) (node root : Node) (f : Str → Option MV)
    (dot : Option MV) (h : Represents node f dot) (hb : buildImportsLoop l node = .ok root)
    (hn : (l.map Prod.fst).Nodup) :
    Represents root (fun x => (alookup (cs!"#" ++ x) l).or (f x)) dot := by
  induction l generalizing node f dot with
  | nil => cases hb; simpa [alookup] using h
  | cons kv l ih =>
    have hk := (buildImports_ok _ _).1 ⟨root, hb⟩ _ (List.mem_cons_self ..)
    obtain ⟨k, v⟩ := kv
    simp only [List.map_cons, List.nodup_cons] at hn
    have hnone : alookup k l = none := alookup_none.2 fun v hm => hn.1 (List.mem_map.2 ⟨_, hm, rfl⟩)
    rw [buildImportsLoop] at hb
    split at hb
    · cases hb
    split at hb
    · cases hb
    split at hb
    · cases hb
    obtain ⟨⟨x, hx⟩, -⟩ := hk
    simp only at hx
    subst hx
    have h3 := ih _ _ _ (h.walk x v) hb hn.2
    have e1 : (fun y => (alookup (cs!"#" ++ y) ((cs!"#" ++ x, v) :: l)).or (f y)) =
        fun y => (alookup (cs!"#" ++ y) l).or (if y = x then some v else f y) := by
      funext y
      rw [alookup]
      by_cases hy : y = x
      · subst hy
        rw [if_pos rfl, if_pos rfl, hnone]
        rfl
      · rw [if_neg hy, if_neg (by simpa using fun h => hy h.symm)]
    rw [e1]
    exact h3

/-! ## The value used -/

theorem mapping_meaning {k : FieldKind} {names : List Str} {how : How} {v : MV}
    {remaining : Option Str} {subpath : Bool} (hc : CalledFor how remaining subpath)
    (hw : v.wf = true) :
    ∃ out, mapping k remaining subpath names (v.size + 1) v = some out ∧
      Meaning k names how v out := by
  obtain ⟨r, h1, h2⟩ := (mapping_spec k remaining subpath names (v.size + 1)).1 v hw (by omega)
  refine ⟨r, h1, _, fun t hp => targetMapping_subst hc hp, fun c h t => ?_, h2⟩
  subst h
  cases hc
  exact targetMapping_star k t c

/-- From keys without `./` or `#` to keys with it. -/
theorem patF_keyMatches {m : List (Str × MV)} (hn : (m.map Prod.fst).Nodup) {pfx req : Str}
    (hpfx : ∀ k v star lit, (k, v) ∈ m → k = lit ++ (if star then cs!"*" else []) → lit <+: pfx ++ req →
      (star = false → lit.getLast? = some '/') → pfx <+: lit)
    (hlast : pfx.getLast? = some '/' ∨ ∀ v, (pfx, v) ∉ m)
    {star : Bool} {lit : Str} {v : MV} :
    (KeyMatches m (pfx ++ req) star lit v ↔
      ∃ lit0, lit = pfx ++ lit0 ∧ PatF (fun x => alookup (pfx ++ x) m) req star lit0 v) := by
  constructor
  · rintro ⟨h1, h2, h3⟩
    obtain ⟨lit0, rfl⟩ := hpfx _ _ star lit h1 rfl h3 h2
    refine ⟨lit0, rfl, ?_, ?_, (List.prefix_append_right_inj pfx).1 h3⟩
    · rw [← List.append_assoc]
      exact alookup_of_mem hn h1
    · intro hs
      have := h2 hs
      cases lit0 with
      | nil => exact .inl rfl
      | cons c l =>
        right
        rw [List.getLast?_append] at this
        cases hl : (c :: l).getLast? with
        | none => simp at hl
        | some d => rw [hl] at this; simpa using this
  · rintro ⟨lit0, rfl, h1, h2, h3⟩
    refine ⟨?_, ?_, (List.prefix_append_right_inj pfx).2 h3⟩
    · rw [List.append_assoc]
      exact alookup_mem h1
    · intro hs
      rcases h2 hs with rfl | h
      · rcases hlast with h | h
        · simpa using h
        · exfalso
          subst hs
          have := alookup_mem h1
          simp at this
          exact h _ this
      · rw [List.getLast?_append, h]
        rfl

theorem selected_of_represents {k : FieldKind} {m : List (Str × MV)}
    (hn : (m.map Prod.fst).Nodup) (hw : ∀ kv ∈ m, kv.2.wf = true) {pfx req : Str}
    (hpfx : ∀ k v star lit, (k, v) ∈ m → k = lit ++ (if star then cs!"*" else []) → lit <+: pfx ++ req →
      (star = false → lit.getLast? = some '/') → pfx <+: lit)
    (hlast : pfx.getLast? = some '/' ∨ ∀ v, (pfx, v) ∉ m)
    {root : Node} {dot : Option MV} (hr : Represents root (fun x => alookup (pfx ++ x) m) dot)
    (ha : ∀ lit v, KeyMatches m (pfx ++ req) true lit v → AsciiStr lit) (hne : req ≠ [])
    (hsl : endsWithC req '/' = false)
    (hreq : assertRequest k (pfx ++ req) = .ok req) (names : List Str) :
    ∃ out, fieldProcess k root (pfx ++ req) names = some out ∧
      Selected k names m (pfx ++ req) out := by
  have hlast' : ∀ c, (pfx ++ req).getLast? = some c ↔ req.getLast? = some c := by
    intro c
    rw [List.getLast?_append]
    cases hl : req.getLast? with
    | none => exact (hne (List.getLast?_eq_none_iff.1 hl)).elim
    | some d => rfl
  unfold fieldProcess
  rw [hreq]
  simp only
  obtain ⟨h1, h2⟩ := findMatch_spec hr (fun lit v h c hc =>
    ha _ v ((patF_keyMatches hn hpfx hlast).2 ⟨lit, rfl, h⟩) c (List.mem_append_right _ hc)) hne hsl
  by_cases hex : ∃ v, KeyEqual m (pfx ++ req) v
  · obtain ⟨v, hv⟩ := hex
    have hst : endsWithC req '*' = false := by
      rw [endsWithC_false, Ne, ← hlast']
      exact hv.2.1
    obtain ⟨idx, hpos, h1⟩ := h1 v (alookup_of_mem hn hv.1) hst
    rw [h1]
    simp only
    have hidx : ¬ idx < 0 := by omega
    rw [decide_eq_false hidx]
    obtain ⟨out, h3, h4⟩ := mapping_meaning (k := k) (names := names) (CalledFor.exact
      (if idx = (req.length : Int) + 1 then none
        else if idx < 0 then some (req.drop (idx.natAbs - 1))
        else some (req.drop idx.toNat))) (hw _ hv.1)
    exact ⟨out, h3, .exact v hv h4⟩
  · have hex' : ∀ v, ¬ KeyEqual m (pfx ++ req) v := fun v hv => hex ⟨v, hv⟩
    have hno : alookup (pfx ++ req) m = none ∨ endsWithC req '*' = true := by
      cases hl : alookup (pfx ++ req) m with
      | none => exact .inl rfl
      | some v =>
        right
        cases he : endsWithC req '*' with
        | true => rfl
        | false =>
          exfalso
          refine hex ⟨v, alookup_mem hl, ?_, ?_⟩
          · rw [Ne, hlast', ← endsWithC_iff, he]; simp
          · rw [Ne, hlast', ← endsWithC_iff, hsl]; simp
    rcases h2 hno with ⟨h3, h4⟩ | ⟨star, lit, v, h3, h4, h5⟩
    · rw [h3]
      refine ⟨_, rfl, .none hex' (fun star lit v hm => ?_) rfl⟩
      obtain ⟨lit0, -, hp⟩ := (patF_keyMatches hn hpfx hlast).1 hm
      exact h4 _ _ _ hp
    · rw [h4]
      simp only
      have hkm : KeyMatches m (pfx ++ req) star (pfx ++ lit) v :=
        (patF_keyMatches hn hpfx hlast).2 ⟨lit, rfl, h3⟩
      have hch : Chosen m (pfx ++ req) star (pfx ++ lit) v := by
        refine ⟨hkm, fun star' lit' v' hm' => ?_⟩
        obtain ⟨lit0, rfl, hp⟩ := (patF_keyMatches hn hpfx hlast).1 hm'
        rcases h5 _ _ _ hp with h | ⟨rfl, h⟩
        · left; simpa using h
        · exact .inr ⟨rfl, h⟩
      have hdrop : (pfx ++ req).drop (pfx ++ lit).length = req.drop lit.length := by
        rw [List.length_append, ← List.drop_drop, List.drop_left]
      have hle : lit.length ≤ req.length := h3.pre.length_le
      cases star with
      | true =>
        simp only [if_true]
        rw [if_neg (by omega), if_neg (by omega), decide_eq_false (by omega),
          Int.toNat_natCast]
        obtain ⟨out, h6, h7⟩ := mapping_meaning (k := k) (names := names)
          (CalledFor.star (req.drop lit.length)) (hw _ hkm.key)
        exact ⟨out, h6, .star _ v hex' hch (by rw [hdrop]; exact h7)⟩
      | false =>
        simp only [Bool.false_eq_true, if_false]
        rw [if_neg (by omega), if_pos (by omega), decide_eq_true (by omega)]
        have : (-(lit.length : Int) - 1).natAbs - 1 = lit.length := by omega
        rw [this]
        obtain ⟨out, h6, h7⟩ := mapping_meaning (k := k) (names := names)
          (CalledFor.folder (req.drop lit.length)) (hw _ hkm.key)
        exact ⟨out, h6, .folder _ v hex' hch (by rw [hdrop]; exact h7)⟩

/-- `dot` alone: an exports value that is not an object of paths. -/
theorem represents_dot (v : MV) : Represents (.mk none none none [([], v)])
    (fun _ => none) (some v) := by
  have h := (represents_empty).setDot v
  exact h

theorem alookup_dot_cons (v : MV) (x : Str) : alookup (cs!"./" ++ x) [(cs!".", v)] = none := by
  rw [alookup, if_neg (by simp)]
  rfl

theorem exports_represents {v : MV} {m : List (Str × MV)} (hw : v.wf = true) (he : ExportsOf v m) :
    ∃ root, buildExportsMV v = .ok root ∧
      Represents root (fun x => alookup (cs!"./" ++ x) m) (alookup cs!"." m) ∧
      (m.map Prod.fst).Nodup ∧ (∀ kv ∈ m, kv.2.wf = true) ∧ ∀ kv ∈ m, ExportsKey kv.1 := by
  cases he with
  | paths hne hk =>
    obtain ⟨hn, hwf⟩ := wf_cond hw
    obtain ⟨root, h1, h2⟩ := buildExports_represents m Node.empty _ _ represents_empty hk hn
    refine ⟨root, ?_, by simpa using h2, hn, hwf, hk⟩
    unfold buildExportsMV
    have hdir : ∀ kv ∈ m, (startsWith kv.1 cs!"." || startsWith kv.1 cs!"/") = true := by
      intro kv hkv
      rcases exportsKey_cases (hk kv hkv) with h | ⟨x, h⟩ <;> rw [h] <;> simp [startsWith]
    have hall : (m.all fun kv => startsWith kv.1 cs!"." || startsWith kv.1 cs!"/") = true :=
      List.all_eq_true.2 hdir
    have hnall : (m.all fun kv => !(startsWith kv.1 cs!"." || startsWith kv.1 cs!"/")) = false := by
      rw [List.all_eq_false]
      obtain ⟨kv, hkv⟩ := List.exists_mem_of_ne_nil m hne
      exact ⟨kv, hkv, by rw [hdir kv hkv]; simp⟩
    simp only [hall, hnall, Bool.not_true, Bool.and_false, Bool.false_eq_true, if_false]
    exact h1
  | main hc =>
    refine ⟨.mk none none none [([], v)], ?_, ?_, by simp, ?_, ?_⟩
    · unfold buildExportsMV
      cases v with
      | direct s => rfl
      | arr l => rfl
      | cond m =>
        have hall : (m.all fun kv => !(startsWith kv.1 cs!"." || startsWith kv.1 cs!"/")) = true := by
          rw [List.all_eq_true]
          intro kv hkv
          obtain ⟨h1, h2⟩ := hc m rfl kv hkv
          rw [← startsWith_iff] at h1 h2
          simp [h1, h2]
        simp only [hall, Bool.not_true, Bool.false_and, Bool.false_eq_true, if_false, if_true]
    · simp only [alookup_dot_cons]
      exact represents_dot v
    · intro kv hkv
      rw [List.mem_singleton.1 hkv]; exact hw
    · intro kv hkv
      rw [List.mem_singleton.1 hkv]; exact .inl rfl

/-! ## Order of keys -/

theorem applyWildcardsLoop_gen (rem : Str) (i : Nat) (l : List (Str × MV))
    (last : Option (MV × Int)) :
    (applyWildcardsLoop rem i l last = last ∧
      ∀ kv ∈ l, kv.1 <+: rem → ∃ v j, last = some (v, j) ∧ (i : Int) + utf8Len kv.1 ≤ j) ∨
    ∃ key v, applyWildcardsLoop rem i l last = some (v, (i : Int) + utf8Len key) ∧
      (key, v) ∈ l ∧ key <+: rem ∧ (∀ v j, last = some (v, j) → j < (i : Int) + utf8Len key) ∧
      ∀ kv ∈ l, kv.1 <+: rem → utf8Len kv.1 ≤ utf8Len key := by
  induction l generalizing last with
  | nil => exact .inl ⟨rfl, nofun⟩
  | cons x l ih =>
    obtain ⟨key, target⟩ := x
    rw [applyWildcardsLoop]
    -- the step either keeps `last` or takes the key
    have hstep : ∀ last', (last' = last ∧ (key <+: rem → ∃ v j, last = some (v, j) ∧
          (i : Int) + utf8Len key ≤ j)) ∨
        (key <+: rem ∧ last' = some (target, (i : Int) + utf8Len key) ∧
          ∀ v j, last = some (v, j) → j < (i : Int) + utf8Len key) →
        (applyWildcardsLoop rem i l last' = last ∧
          ∀ kv ∈ (key, target) :: l, kv.1 <+: rem → ∃ v j, last = some (v, j) ∧
            (i : Int) + utf8Len kv.1 ≤ j) ∨
        ∃ key' v, applyWildcardsLoop rem i l last' = some (v, (i : Int) + utf8Len key') ∧
          (key', v) ∈ (key, target) :: l ∧ key' <+: rem ∧
          (∀ v j, last = some (v, j) → j < (i : Int) + utf8Len key') ∧
          ∀ kv ∈ (key, target) :: l, kv.1 <+: rem → utf8Len kv.1 ≤ utf8Len key' := by
      intro last' h
      rcases h with ⟨rfl, hk⟩ | ⟨hp, rfl, hlt⟩
      · rcases ih last' with ⟨h1, h2⟩ | ⟨k, v, h1, h2, h3, h4, h5⟩
        · left
          refine ⟨h1, fun kv hkv hpre => ?_⟩
          rcases List.mem_cons.1 hkv with rfl | hkv
          · exact hk hpre
          · exact h2 kv hkv hpre
        · right
          refine ⟨k, v, h1, List.mem_cons_of_mem _ h2, h3, h4, fun kv hkv hpre => ?_⟩
          rcases List.mem_cons.1 hkv with rfl | hkv
          · obtain ⟨v', j, h6, h7⟩ := hk hpre
            have := h4 _ _ h6
            simp only at h7 ⊢
            omega
          · exact h5 kv hkv hpre
      · right
        rcases ih (some (target, (i : Int) + utf8Len key)) with ⟨h1, h2⟩ | ⟨k, v, h1, h2, h3, h4, h5⟩
        · refine ⟨key, target, h1, List.mem_cons_self .., hp, hlt, fun kv hkv hpre => ?_⟩
          rcases List.mem_cons.1 hkv with rfl | hkv
          · exact Nat.le_refl _
          · obtain ⟨v', j, h6, h7⟩ := h2 kv hkv hpre
            cases h6
            omega
        · have hkk := h4 _ _ rfl
          refine ⟨k, v, h1, List.mem_cons_of_mem _ h2, h3, ?_, fun kv hkv hpre => ?_⟩
          · intro v' j h
            have := hlt v' j h
            omega
          · rcases List.mem_cons.1 hkv with rfl | hkv
            · simp only; omega
            · exact h5 kv hkv hpre
    split
    · rename_i hp
      rw [startsWith_iff] at hp
      cases last with
      | none =>
        exact hstep _ (.inr ⟨hp, rfl, fun v j h => by cases h⟩)
      | some vj =>
        obtain ⟨v, j⟩ := vj
        simp only
        split
        · rename_i hlt
          exact hstep _ (.inr ⟨hp, rfl, fun v' j' h => by cases h; exact hlt⟩)
        · rename_i hge
          exact hstep _ (.inl ⟨rfl, fun _ => ⟨v, j, rfl, by omega⟩⟩)
    · rename_i hp
      rw [startsWith_iff] at hp
      exact hstep _ (.inl ⟨rfl, fun h => (hp h).elim⟩)

theorem prefix_bytes_eq {a b s : Str} (ha : a <+: s) (hb : b <+: s) (h : utf8Len a = utf8Len b) :
    a = b := by
  obtain ⟨x, rfl⟩ := ha
  obtain ⟨y, hy⟩ := hb
  exact ((append_bytes_inj hy h.symm).1).symm

theorem endsWithC_drop {s : Str} {c : Char} (h : endsWithC s c = false) (n : Nat) :
    endsWithC (s.drop n) c = false := by
  rw [endsWithC_false] at h ⊢
  intro he
  apply h
  obtain ⟨ys, hys⟩ := List.getLast?_eq_some_iff.1 he
  rw [← List.take_append_drop n s, hys, ← List.append_assoc]
  simp

/-- The order of wildcards does not matter. -/
theorem applyWildcardsLoop_perm' {rem : Str} {i : Nat} {l l' : List (Str × MV)}
    (hrem : '/' ∉ rem) (hn : (l.map Prod.fst).Nodup) (hn' : (l'.map Prod.fst).Nodup)
    (h : ∀ k, '/' ∉ k → alookup k l = alookup k l') (last : Option (MV × Int)) :
    applyWildcardsLoop rem i l last = applyWildcardsLoop rem i l' last := by
  have hm : ∀ kv : Str × MV, kv.1 <+: rem → (kv ∈ l ↔ kv ∈ l') := by
    intro kv hpre
    obtain ⟨k, v⟩ := kv
    have hk : '/' ∉ k := fun hm => hrem (hpre.subset hm)
    exact ⟨fun hm => alookup_mem (h k hk ▸ alookup_of_mem hn hm),
      fun hm => alookup_mem ((h k hk).symm ▸ alookup_of_mem hn' hm)⟩
  rcases applyWildcardsLoop_gen rem i l last with ⟨h1, h2⟩ | ⟨k, v, h1, h2, h3, h4, h5⟩ <;>
  rcases applyWildcardsLoop_gen rem i l' last with ⟨h1', h2'⟩ | ⟨k', v', h1', h2', h3', h4', h5'⟩
  · rw [h1, h1']
  · exfalso
    obtain ⟨a, b, h6, h7⟩ := h2 _ ((hm _ h3').2 h2') h3'
    have := h4' _ _ h6
    simp only at h7
    omega
  · exfalso
    obtain ⟨a, b, h6, h7⟩ := h2' _ ((hm _ h3).1 h2) h3
    have := h4 _ _ h6
    simp only at h7
    omega
  · have e1 := h5 _ ((hm _ h3').2 h2') h3'
    have e2 := h5' _ ((hm _ h3).1 h2) h3
    simp only at e1 e2
    have hk := prefix_bytes_eq h3 h3' (by omega)
    subst hk
    have := alookup_of_mem hn h2
    rw [h k fun hm => hrem (h3.subset hm), alookup_of_mem hn' h2'] at this
    cases this
    rw [h1, h1']

theorem applyWildcards_eq (last : Option (MV × Int)) (node : Node) (rem : Str) (i : Nat) :
    applyWildcards last node rem i = applyWildcardsLoop rem i node.wilds last := by
  unfold applyWildcards Node.wilds
  cases node.wildcards <;> rfl

theorem findSegs_empty (rs : List Str) (i : Nat) (last : Option (MV × Int)) :
    findSegs rs i Node.empty last = last := by
  cases rs with
  | nil => rfl
  | cons s rs => cases rs <;> rfl

theorem findSegs_child (s t : Str) (l : List Str) (i : Nat) (node : Node)
    (last : Option (MV × Int)) :
    findSegs (s :: t :: l) i node last =
      findSegs (t :: l) (i + s.length + 1) (node.child s) (level last node s i) := by
  rw [findSegs, Node.child]
  cases alookup s (node.children.getD []) with
  | none => exact (findSegs_empty _ _ _).symm
  | some n => rfl

/-- The same entries along `rs`: the same match. -/
theorem findSegs_congr {node node' : Node} (rs : List Str) (i : Nat) (last : Option (MV × Int))
    (hf : ∀ p s rest, rs = p ++ s :: rest → (node.sub p).folder = (node'.sub p).folder)
    (hw : ∀ p s rest last i, rs = p ++ s :: rest →
      applyWildcards last (node.sub p) s i = applyWildcards last (node'.sub p) s i)
    (hx : ∀ p s, rs = p ++ [s] → alookup s (node.sub p).files = alookup s (node'.sub p).files) :
    findSegs rs i node last = findSegs rs i node' last := by
  induction rs generalizing node node' i last with
  | nil => rfl
  | cons s rs ih =>
    have hlev : level last node s i = level last node' s i := by
      unfold level
      have h1 : applyFolder last node i = applyFolder last node' i := by
        unfold applyFolder
        rw [show node.folder = node'.folder from hf [] s rs rfl]
      rw [h1]
      exact hw [] s rs _ i rfl
    cases rs with
    | nil =>
      rw [findSegs, findSegs, show alookup s node.files = alookup s node'.files from hx [] s rfl, hlev]
    | cons t rs =>
      rw [findSegs_child, findSegs_child, hlev]
      refine ih _ _ (fun p x rest h => ?_) (fun p x rest last i h => ?_) (fun p x h => ?_)
      · exact hf (s :: p) x rest (by rw [h]; rfl)
      · exact hw (s :: p) x rest last i (by rw [h]; rfl)
      · exact hx (s :: p) x (by rw [h]; rfl)

/-- Two trees with the same entries give the same matches. -/
theorem findMatch_congr {node node' : Node} {f : Str → Option MV} {dot : Option MV}
    (h : Represents node f dot) (h' : Represents node' f dot) {req : Str}
    (hsl : endsWithC req '/' = false) : findMatch node req = findMatch node' req := by
  unfold findMatch
  by_cases hne : req = []
  · rw [if_pos hne, if_pos hne, h.dot, h'.dot]
  rw [if_neg hne, if_neg hne]
  obtain ⟨p0, s0, hsp⟩ := splitC_snoc req
  have hns := noSep_snoc hsp
  have hj : req = joinC '/' (p0 ++ [s0]) := by rw [← hsp, joinC_splitC]
  have hs0 : s0 ≠ [] := by
    rintro rfl
    cases p0 with
    | nil => exact hne (by rw [hj]; rfl)
    | cons s p =>
      rw [hj, joinC_append (by simp) (by simp)] at hsl
      simp [joinC, endsWithC] at hsl
  have hfiles : ∀ p s, (∀ x ∈ p, '/' ∉ x) → s ≠ [] →
      alookup s (node.sub p).files = alookup s (node'.sub p).files := by
    intro p s hp hs
    by_cases hc : '/' ∈ s ∨ endsWithC s '*' = true
    · rw [h.noFile p s hc, h'.noFile p s hc]
    · simp only [not_or, Bool.not_eq_true] at hc
      rw [h.file p s hp hc.1 hs hc.2, h'.file p s hp hc.1 hs hc.2]
  have hfl : (node.children.isNone && node.folder.isNone && node.wildcards.isNone) =
      (node'.children.isNone && node'.folder.isNone && node'.wildcards.isNone) := by
    rw [Bool.eq_iff_iff]
    simp only [Bool.and_eq_true, Option.isNone_iff_eq_none, and_assoc]
    rw [h.flat, h'.flat]
  rw [hfl]
  split
  · rw [show alookup req node.files = alookup req node'.files from hfiles [] req (by simp) hne]
  · rw [findMatchLoop_segs req _ 0 node none (Nat.zero_le _) (by omega),
      findMatchLoop_segs req _ 0 node' none (Nat.zero_le _) (by omega), List.drop_zero]
    have hsep : ∀ {p : List Str} {s : Str} {rest : List Str}, splitC '/' req = p ++ s :: rest →
        (∀ x ∈ p, '/' ∉ x) ∧ '/' ∉ s := by
      intro p s rest he
      refine ⟨fun x hx => not_mem_of_mem_splitC (s := req) ?_, not_mem_of_mem_splitC (s := req) ?_⟩
      · rw [he]; exact List.mem_append_left _ hx
      · rw [he]; simp
    refine findSegs_congr _ _ _ (fun p s rest he => ?_) (fun p s rest last i he => ?_)
      (fun p s he => ?_)
    · rw [h.folder p (hsep he).1, h'.folder p (hsep he).1]
    · rw [applyWildcards_eq, applyWildcards_eq]
      -- only prefixes of the segment matter, and these have no separator
      exact applyWildcardsLoop_perm' (hsep he).2 (h.nodup p) (h'.nodup p)
        (fun k hk => by rw [h.wild p k (hsep he).1 hk, h'.wild p k (hsep he).1 hk]) last
    · rw [hsp] at he
      have := List.append_inj' he rfl
      obtain ⟨rfl, h2⟩ := this
      simp only [List.cons.injEq, and_true] at h2
      subst h2
      exact hfiles p0 s0 hns.1 hs0

theorem fieldProcess_congr {node node' : Node} {f : Str → Option MV} {dot : Option MV}
    (h : Represents node f dot) (h' : Represents node' f dot) (k : FieldKind) (request : Str)
    (names : List Str) : fieldProcess k node request names = fieldProcess k node' request names := by
  unfold fieldProcess
  cases ha : assertRequest k request with
  | error e => rfl
  | ok req =>
    simp only
    rw [findMatch_congr h h']
    unfold assertRequest at ha
    cases k with
    | exports =>
      simp only at ha
      split at ha
      · cases ha
      split at ha
      · cases ha; rfl
      split at ha
      · cases ha
      split at ha
      · cases ha
      · rename_i h1 h2 h3 h4
        cases ha
        rw [Bool.not_eq_true] at h4
        exact endsWithC_drop h4 _
    | imports =>
      simp only at ha
      split at ha
      · cases ha
      split at ha
      · cases ha
      split at ha
      · cases ha
      split at ha
      · cases ha
      · rename_i h1 h2 h3 h4
        cases ha
        rw [Bool.not_eq_true] at h4
        exact endsWithC_drop h4 _

end Verif
