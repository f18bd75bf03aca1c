import Verif.Proofs.LiveHistory
import Verif.Proofs.TreeVals
import Verif.Spec.Messages
/-!
# Error messages are true
-/

namespace Verif

theorem Inside.trans {a b c : Json} (h1 : Inside a b) (h2 : Inside b c) : Inside a c := by
  induction h2 with
  | self => exact h1
  | item hm _ ih => exact .item hm ih
  | field hm _ ih => exact .field hm ih

/-- A mapping value made from a value inside of `j`. -/
def MadeIn (j : Json) (v : MV) : Prop := ∃ x, Inside x j ∧ fromJson x = some v

theorem fromJsonArr_mem {l : List Json} {r : List MV} (h : fromJsonArr l = some r) {v : MV} (hv : v ∈ r) :
    ∃ x ∈ l, fromJson x = some v := by
  induction l generalizing r with
  | nil => simp [fromJsonArr] at h; subst h; cases hv
  | cons j l ih =>
    unfold fromJsonArr at h
    split at h
    · cases h
    · rename_i w _ hw
      simp only [Option.map_eq_some_iff] at h
      obtain ⟨r', h1, rfl⟩ := h
      rcases List.mem_cons.1 hv with rfl | hv
      · exact ⟨j, List.mem_cons_self .., hw⟩
      · obtain ⟨x, h2, h3⟩ := ih h1 hv
        exact ⟨x, List.mem_cons_of_mem _ h2, h3⟩
    · cases h

theorem fromJsonObj_mem {l : List (Str × Json)} {acc r : List (Str × MV)} (h : fromJsonObj l acc = some r)
    {kv : Str × MV} (hv : kv ∈ r) : kv ∈ acc ∨ ∃ x, (kv.1, x) ∈ l ∧ fromJson x = some kv.2 := by
  induction l generalizing acc with
  | nil => simp [fromJsonObj] at h; subst h; exact .inl hv
  | cons kj l ih =>
    obtain ⟨k, j⟩ := kj
    unfold fromJsonObj at h
    split at h
    · rename_i v hj
      rcases ih h with h | ⟨x, h1, h2⟩
      · rcases mem_ainsert_pair h with rfl | h
        · exact .inr ⟨j, List.mem_cons_self .., hj⟩
        · exact .inl h
      · exact .inr ⟨x, List.mem_cons_of_mem _ h1, h2⟩
    · cases h

theorem fromJson_cond {j : Json} {m : List (Str × MV)} (h : fromJson j = some (.cond m)) :
    ∃ l, j = .obj l ∧ fromJsonObj l [] = some m := by
  cases j with
  | obj l =>
    simp only [fromJson, Option.map_eq_some_iff] at h
    obtain ⟨m', h1, h2⟩ := h
    cases h2
    exact ⟨l, rfl, h1⟩
  | arr l =>
    simp only [fromJson, Option.map_eq_some_iff] at h
    obtain ⟨_, _, h⟩ := h
    cases h
  | _ => cases h

theorem fromJson_items {j : Json} {r : List MV} (h : fromJson j = some (.arr r)) :
    ∃ l, j = .arr l ∧ fromJsonArr l = some r := by
  cases j with
  | arr l =>
    simp only [fromJson, Option.map_eq_some_iff] at h
    obtain ⟨m', h1, h2⟩ := h
    cases h2
    exact ⟨l, rfl, h1⟩
  | obj l =>
    simp only [fromJson, Option.map_eq_some_iff] at h
    obtain ⟨_, _, h⟩ := h
    cases h
  | _ => cases h

theorem fromJson_direct {j : Json} {t : Str} (h : fromJson j = some (.direct t)) : j = .str t := by
  cases j with
  | str s => cases h; rfl
  | arr l =>
    simp only [fromJson, Option.map_eq_some_iff] at h
    obtain ⟨_, _, h⟩ := h
    cases h
  | obj l =>
    simp only [fromJson, Option.map_eq_some_iff] at h
    obtain ⟨_, _, h⟩ := h
    cases h
  | _ => cases h

theorem MadeIn.ofCond {j : Json} {m : List (Str × MV)} (h : MadeIn j (.cond m)) {kv : Str × MV}
    (hk : kv ∈ m) : MadeIn j kv.2 := by
  obtain ⟨x, h1, h2⟩ := h
  obtain ⟨l, rfl, h3⟩ := fromJson_cond h2
  rcases fromJsonObj_mem h3 hk with h | ⟨y, h4, h5⟩
  · cases h
  · exact ⟨y, .trans (.field h4 .self) h1, h5⟩

theorem MadeIn.ofArr {j : Json} {r : List MV} (h : MadeIn j (.arr r)) {v : MV} (hv : v ∈ r) : MadeIn j v := by
  obtain ⟨x, h1, h2⟩ := h
  obtain ⟨l, rfl, h3⟩ := fromJson_items h2
  obtain ⟨y, h4, h5⟩ := fromJsonArr_mem h3 hv
  exact ⟨y, .trans (.item h4 .self) h1, h5⟩

/-! ## A `default` that is not last -/

/-- `default`, and other keys after it. -/
def EarlyMV (m : List (Str × MV)) : Prop := ∃ a v b, m = a ++ (cs!"default", v) :: b ∧ b ≠ []

theorem scan_found_in {cond : Str → Prop} {m : List (Str × MV)} {v : MV} (h : Scan cond m (.found v))
    {j : Json} (hm : ∀ kv ∈ m, MadeIn j kv.2) : MadeIn j v := by
  generalize hr : CondResult.found v = r at h
  induction h with
  | nil => cases hr
  | bad => cases hr
  | skip _ _ _ ih => exact ih (fun kv hk => hm kv (List.mem_cons_of_mem _ hk)) hr
  | leaf => cases hr; exact hm _ (List.mem_cons_self ..)
  | into _ _ _ ih => exact ih (fun kv hk => (hm _ (List.mem_cons_self ..)).ofCond hk) hr
  | back _ _ _ _ ih => exact ih (fun kv hk => hm kv (List.mem_cons_of_mem _ hk)) hr

theorem scan_bad_in {cond : Str → Prop} {m : List (Str × MV)} (h : Scan cond m .badDefault) {j : Json}
    (hm : ∀ kv ∈ m, MadeIn j kv.2) {m0 : List (Str × MV)} (hsuf : m <:+ m0) (h0 : MadeIn j (.cond m0)) :
    ∃ m', MadeIn j (.cond m') ∧ EarlyMV m' := by
  generalize hr : CondResult.badDefault = r at h
  induction h generalizing m0 with
  | nil => cases hr
  | bad hne =>
    obtain ⟨a, rfl⟩ := hsuf
    exact ⟨_, h0, a, _, _, rfl, hne⟩
  | skip _ _ _ ih =>
    exact ih (fun kv hk => hm kv (List.mem_cons_of_mem _ hk)) ((List.suffix_cons ..).trans hsuf) h0 hr
  | leaf => cases hr
  | into _ _ _ ih =>
    have h1 := hm _ (List.mem_cons_self ..)
    exact ih (fun kv hk => h1.ofCond hk) List.suffix_rfl h1 hr
  | back _ _ _ _ ih =>
    exact ih (fun kv hk => hm kv (List.mem_cons_of_mem _ hk)) ((List.suffix_cons ..).trans hsuf) h0 hr

/-- The keys of `l` come in the order of their first occurrence in `l0`: something before the last one
in `l` comes before something in `l0`. -/
theorem ainsert_keys_prefix {β : Type} (k : Str) (v : β) (l : List (Str × β)) :
    (ainsert k v l).map Prod.fst = l.map Prod.fst ∨
      (ainsert k v l).map Prod.fst = l.map Prod.fst ++ [k] ∧ k ∉ l.map Prod.fst := by
  induction l with
  | nil => exact .inr ⟨rfl, nofun⟩
  | cons x l ih =>
    obtain ⟨k', v'⟩ := x
    rw [ainsert]
    split
    · exact .inl rfl
    · rename_i hk
      rcases ih with h | ⟨h1, h2⟩
      · exact .inl (by simp [h])
      · exact .inr ⟨by simp [h1], by simp [h2, Ne.symm hk]⟩

theorem fromJsonObj_early {l : List (Str × Json)} {acc r : List (Str × MV)} (h : fromJsonObj l acc = some r)
    (hr : ∃ a b, r.map Prod.fst = a ++ cs!"default" :: b ∧ b ≠ []) :
    DefaultEarly l ∨ ((∃ a, acc.map Prod.fst = a ++ [cs!"default"]) ∧ l ≠ []) ∨
      ∃ a b, acc.map Prod.fst = a ++ cs!"default" :: b ∧ b ≠ [] := by
  induction l generalizing acc with
  | nil =>
    simp [fromJsonObj] at h
    subst h
    exact .inr (.inr hr)
  | cons kj l ih =>
    obtain ⟨k, j⟩ := kj
    unfold fromJsonObj at h
    split at h
    · rename_i v hj
      rcases ih h with ⟨a, x, b, rfl, hb⟩ | ⟨⟨a, ha⟩, hl⟩ | ⟨a, b, hab, hb⟩
      · exact .inl ⟨(k, j) :: a, x, b, rfl, hb⟩
      · rcases ainsert_keys_prefix k v acc with h1 | ⟨h1, -⟩
        · exact .inr (.inl ⟨⟨a, by rw [← h1, ha]⟩, nofun⟩)
        · rw [h1] at ha
          have := List.append_inj_right' ha rfl
          simp only [List.cons.injEq, and_true] at this
          subst this
          exact .inl ⟨[], j, l, rfl, hl⟩
      · rcases ainsert_keys_prefix k v acc with h1 | ⟨h1, -⟩
        · exact .inr (.inr ⟨a, b, by rw [← h1, hab], hb⟩)
        · rw [h1] at hab
          obtain ⟨b', y, rfl⟩ : ∃ b' y, b = b' ++ [y] :=
            ⟨b.dropLast, b.getLast hb, (List.dropLast_concat_getLast hb).symm⟩
          rw [← List.cons_append, ← List.append_assoc] at hab
          have hab := List.append_inj_left' hab rfl
          by_cases hb' : b' = []
          · subst hb'
            exact .inr (.inl ⟨⟨a, hab⟩, nofun⟩)
          · exact .inr (.inr ⟨a, b', hab, hb'⟩)
    · cases h

theorem MadeIn.early {j : Json} {m : List (Str × MV)} (h : MadeIn j (.cond m)) (he : EarlyMV m) :
    ∃ l, Inside (.obj l) j ∧ DefaultEarly l := by
  obtain ⟨x, h1, h2⟩ := h
  obtain ⟨l, rfl, h3⟩ := fromJson_cond h2
  obtain ⟨a, v, b, rfl, hb⟩ := he
  refine ⟨l, h1, ?_⟩
  rcases fromJsonObj_early h3 ⟨a.map Prod.fst, b.map Prod.fst, by simp, by simpa using hb⟩ with
    h | ⟨⟨a, h⟩, -⟩ | ⟨a, b, h, -⟩
  · exact h
  · simp at h
  · simp at h

/-! ## The errors of a lookup -/

/-- What an error of putting text into the target `t` says. -/
inductive TargetErr (t : Str) : Err → Prop where
  | bad : BadTarget .exports t → TargetErr t (.exportTarget t)
  | folder : t.getLast? ≠ some '/' → TargetErr t (.expectedFolder t)
  | file : t.getLast? = some '/' → TargetErr t (.expectedFile t)
  | wrong : t.getLast? = some '/' → TargetErr t (.someWrong t)

theorem targetMapping_true {k : FieldKind} {rem : Option Str} {sub : Bool} {t : Str} {e : Err}
    (h : targetMapping k rem sub t = .error e) : TargetErr t e := by
  have hfold : ∀ b, assertTarget k t true = .ok b → b = (t.getLast? == some '/') := by
    intro b hb
    unfold assertTarget at hb
    cases k <;> simp only at hb <;> repeat' split at hb
    all_goals first | cases hb | skip
    all_goals (rename_i hx; simp only [endsWithC] at hx; revert hx; cases t.getLast? == some '/' <;> simp)
  unfold targetMapping at h
  split at h
  · rename_i he
    cases h
    unfold assertTarget at he
    cases k with
    | imports => simp only at he; split at he <;> cases he
    | exports =>
      simp only at he
      split at he
      · rename_i hbad
        cases he
        refine .bad ⟨rfl, ?_⟩
        simp only [Bool.or_eq_true, decide_eq_true_eq, Bool.and_eq_true, Bool.not_eq_true', startsWith,
          List.isPrefixOf_iff_prefix] at hbad
        rcases hbad with (h | h) | ⟨h1, h2⟩
        · exact .inl h
        · exact .inr (.inl h)
        · exact .inr (.inr ⟨h1, fun h => by rw [List.isPrefixOf_iff_prefix.2 h] at h2; cases h2⟩)
      · split at he <;> cases he
  · rename_i b hb
    have hb := hfold b hb
    cases rem with
    | some request =>
      cases sub <;> cases b <;> cases h
      · exact .file (by simpa using hb.symm)
      · exact .folder (by simpa using hb.symm)
    | none =>
      dsimp only at h
      split at h
      · cases h
      · rename_i hbt
        cases h
        have : b = true := by simpa using hbt
        subst this
        exact .wrong (by simpa using hb.symm)

/-- A value made inside of `j`; of an array only the items need to be. -/
def PartsIn (j : Json) (v : MV) : Prop := MadeIn j v ∨ ∃ r, v = .arr r ∧ ∀ w ∈ r, MadeIn j w

theorem PartsIn.ofArr {j : Json} {r : List MV} (h : PartsIn j (.arr r)) {v : MV} (hv : v ∈ r) :
    MadeIn j v := by
  rcases h with h | ⟨r', h1, h2⟩
  · exact h.ofArr hv
  · cases h1; exact h2 _ hv

theorem PartsIn.ofCond {j : Json} {m : List (Str × MV)} (h : PartsIn j (.cond m)) : MadeIn j (.cond m) := by
  rcases h with h | ⟨r', h1, h2⟩
  · exact h
  · cases h1

theorem PartsIn.ofDirect {j : Json} {t : Str} (h : PartsIn j (.direct t)) : MadeIn j (.direct t) := by
  rcases h with h | ⟨r', h1, h2⟩
  · exact h
  · cases h1

theorem outputs_err {cond : Str → Prop} {f : Str → Except Err Str} {v : MV} {r : Except Err (List Str)}
    (h : Outputs cond f v r) {e : Err} (he : r = .error e) {j : Json} (hv : PartsIn j v)
    (hf : ∀ t e, f t = .error e → TargetErr t e) :
    (∃ t, Inside (.str t) j ∧ TargetErr t e) ∨
      e = .defaultNotLast ∧ ∃ l, Inside (.obj l) j ∧ DefaultEarly l := by
  induction h with
  | direct => cases he
  | @directErr t e' h =>
    cases he
    obtain ⟨x, h1, h2⟩ := hv.ofDirect
    cases fromJson_direct h2
    exact .inl ⟨t, h1, hf _ _ h⟩
  | noMatch => cases he
  | badDefault h =>
    cases he
    obtain ⟨m', h1, h2⟩ := scan_bad_in h (fun kv hk => hv.ofCond.ofCond hk) List.suffix_rfl hv.ofCond
    exact .inr ⟨rfl, h1.early h2⟩
  | found h _ ih => exact ih he (.inl (scan_found_in h fun kv hk => hv.ofCond.ofCond hk))
  | nil => cases he
  | cons => cases he
  | err _ ih => exact ih he (.inl (hv.ofArr (List.mem_cons_self ..)))
  | errTail _ _ _ ih =>
    exact ih he (.inr ⟨_, rfl, fun w hw => hv.ofArr (List.mem_cons_of_mem _ hw)⟩)


theorem MadeIn.wf {j : Json} {v : MV} (h : MadeIn j v) : v.wf = true := by
  obtain ⟨x, -, h⟩ := h
  exact fromJson_wf x v h

theorem buildTree_made {k : FieldKind} {j : Json} {root : Node} (h : buildTree k j = some (.ok root)) :
    root.Vals (MadeIn j) := by
  unfold buildTree at h
  cases hf : fromJson j with
  | none => rw [hf] at h; cases h
  | some v =>
    rw [hf] at h
    have hv : MadeIn j v := ⟨j, .self, hf⟩
    cases k with
    | exports =>
      simp only [Option.some.injEq] at h
      unfold buildExportsMV at h
      split at h
      · rename_i m
        simp only at h
        split at h
        · cases h
        · split at h
          · cases h; exact vals_root hv
          · exact buildExportsLoop_vals (fun kv hk => hv.ofCond hk) vals_empty h
      · cases h; exact vals_root hv
      · cases h; exact vals_root hv
    | imports =>
      simp only at h
      split at h
      · simp only [Option.some.injEq] at h
        exact buildImportsLoop_vals (fun kv hk => hv.ofCond hk) vals_empty h
      · cases h

/-- An error of a lookup: about the request, about a target, or about a `default`. -/
theorem fieldProcess_true {k k' : FieldKind} {j : Json} {root : Node} {target : Str} {names : List Str}
    {e : Err} (hb : buildTree k' j = some (.ok root))
    (h : fieldProcess k root target names = some (.error e)) :
    assertRequest k target = .error e ∨ (∃ t, Inside (.str t) j ∧ TargetErr t e) ∨
      e = .defaultNotLast ∧ ∃ l, Inside (.obj l) j ∧ DefaultEarly l := by
  unfold fieldProcess at h
  cases ha : assertRequest k target with
  | error e' =>
    rw [ha] at h
    cases h
    exact .inl rfl
  | ok req =>
    rw [ha] at h
    simp only at h
    cases hm : findMatch root req with
    | none => rw [hm] at h; cases h
    | some mi =>
      obtain ⟨m, idx⟩ := mi
      rw [hm] at h
      simp only at h
      have hmade : MadeIn j m := findMatch_ok (buildTree_made hb) req m idx hm
      obtain ⟨r, h1, h2⟩ := (mapping_spec k (if idx = (req.length : Int) + 1 then none
        else if idx < 0 then some (req.drop (idx.natAbs - 1)) else some (req.drop idx.toNat))
        (decide (idx < 0)) names (m.size + 1)).1 m hmade.wf (by omega)
      rw [h1] at h
      cases h
      exact .inr (outputs_err h2 rfl (.inl hmade) fun t e h => targetMapping_true h)

/-! ## Errors about requests -/

theorem askedAs_shape {t r : Str} (h : AskedAs t r) : r = cs!"." ∨ cs!"./" <+: r := by
  obtain ⟨name, rest, q, h1, h2, h3⟩ := h
  rcases h3 with ⟨rfl, h3⟩ | ⟨-, rfl⟩
  · have hrest : rest = [] ∨ ['/'] <+: rest := by
      cases h1 with
      | plain _ _ h => cases List.append_cancel_left h2; exact h
      | @inScope a b rest' _ _ _ h =>
        have : rest' = rest := by
          have h2 : (a ++ '/' :: b) ++ rest' = (a ++ '/' :: b) ++ rest := by simpa using h2
          exact List.append_cancel_left h2
        exact this ▸ h
      | scope _ _ => exact .inl (by simpa using h2)
    rcases hrest with rfl | ⟨x, rfl⟩
    · cases h3 rfl
      exact .inl rfl
    · exact .inr ⟨x ++ q, by simp⟩
  · exact .inr ⟨q, rfl⟩

theorem assertExports_err {r : Str} {e : Err} (hr : r = cs!"." ∨ cs!"./" <+: r)
    (h : assertRequest .exports r = .error e) : e = .onlyFile := by
  rcases hr with rfl | ⟨x, rfl⟩
  · cases h
  · unfold assertRequest at h
    simp only at h
    split at h
    · rename_i h'; simp [startsWith] at h'
    · split at h
      · cases h
      · split at h
        · rename_i h'; simp [startsWith] at h'
        · split at h <;> cases h
          rfl

theorem assertImports_err {r : Str} {e : Err} (hr : startsWith r cs!"#" = true)
    (h : assertRequest .imports r = .error e) :
    e = .importsRequestShort ∨ e = .importsSlash r ∧ cs!"#/" <+: r ∨ e = .onlyFile := by
  unfold assertRequest at h
  simp only [hr, Bool.not_true, Bool.false_eq_true, if_false] at h
  split at h
  · cases h; exact .inl rfl
  · split at h
    · rename_i h'
      cases h
      exact .inr (.inl ⟨rfl, List.isPrefixOf_iff_prefix.1 h'⟩)
    · split at h <;> cases h
      exact .inr (.inr rfl)

/-! ## Errors about keys -/

theorem cond_keys {l : List (Str × Json)} {m : List (Str × MV)} (h : fromJson (.obj l) = some (.cond m))
    {kv : Str × MV} (hk : kv ∈ m) : ∃ x, (kv.1, x) ∈ l := by
  obtain ⟨l', h1, h2⟩ := fromJson_cond h
  cases h1
  rcases fromJsonObj_mem h2 hk with h | ⟨x, h, -⟩
  · cases h
  · exact ⟨x, h⟩

/-- What an error of compiling a map says about its keys. -/
inductive KeyErr (k : FieldKind) (l : List (Str × Json)) : Err → Prop where
  | mixed {a b : Str} {x y : Json} : k = .exports → (a, x) ∈ l → (b, y) ∈ l →
      (cs!"." <+: a ∨ cs!"/" <+: a) → ¬ cs!"." <+: b → ¬ cs!"/" <+: b → KeyErr k l .mixedKeys
  | exports {a : Str} {x : Json} : k = .exports → (a, x) ∈ l → ¬ ExportsKey a → KeyErr k l (.exportKey a)
  | hash {a : Str} {x : Json} : k = .imports → (a, x) ∈ l → ¬ cs!"#" <+: a → KeyErr k l (.importsKey a)
  | short {a : Str} {x : Json} : k = .imports → (a, x) ∈ l → a = cs!"#" → KeyErr k l (.importsKeyShort a)
  | slash {a : Str} {x : Json} : k = .imports → (a, x) ∈ l → cs!"#/" <+: a → KeyErr k l (.importsSlash a)

theorem buildExportsLoop_key {l : List (Str × MV)} {root : Node} {e : Err}
    (h : buildExportsLoop l root = .error e) : ∃ a v, (a, v) ∈ l ∧ ¬ ExportsKey a ∧ e = .exportKey a := by
  induction l generalizing root with
  | nil => cases h
  | cons kv l ih =>
    obtain ⟨key, v⟩ := kv
    unfold buildExportsLoop at h
    split at h
    · obtain ⟨a, w, h1, h2⟩ := ih h
      exact ⟨a, w, List.mem_cons_of_mem _ h1, h2⟩
    · rename_i hlen
      split at h
      · rename_i hs
        cases h
        refine ⟨key, v, List.mem_cons_self .., fun hk => ?_, rfl⟩
        rcases hk with rfl | hk
        · exact hlen (by decide)
        · rw [startsWith, List.isPrefixOf_iff_prefix.2 hk] at hs
          cases hs
      · obtain ⟨a, w, h1, h2⟩ := ih h
        exact ⟨a, w, List.mem_cons_of_mem _ h1, h2⟩

theorem buildImportsLoop_key {l : List (Str × MV)} {root : Node} {e : Err}
    (h : buildImportsLoop l root = .error e) : ∃ a v, (a, v) ∈ l ∧
      (e = .importsKey a ∧ ¬ cs!"#" <+: a ∨ e = .importsKeyShort a ∧ a = cs!"#" ∨
        e = .importsSlash a ∧ cs!"#/" <+: a) := by
  induction l generalizing root with
  | nil => cases h
  | cons kv l ih =>
    obtain ⟨key, v⟩ := kv
    unfold buildImportsLoop at h
    split at h
    · rename_i hs
      cases h
      refine ⟨key, v, List.mem_cons_self .., .inl ⟨rfl, fun hk => ?_⟩⟩
      rw [startsWith, List.isPrefixOf_iff_prefix.2 hk] at hs
      cases hs
    · rename_i hs
      have hs : cs!"#" <+: key := by
        apply List.isPrefixOf_iff_prefix.1
        simpa [startsWith] using hs
      split at h
      · rename_i hlen
        cases h
        refine ⟨key, v, List.mem_cons_self .., .inr (.inl ⟨rfl, ?_⟩)⟩
        obtain ⟨x, rfl⟩ := hs
        cases x with
        | nil => rfl
        | cons c x =>
          exfalso
          have := Char.utf8Size_pos c
          have : ('#' : Char).utf8Size = 1 := by decide
          simp [utf8Len] at hlen
          omega
      · split at h
        · rename_i hs'
          cases h
          exact ⟨key, v, List.mem_cons_self .., .inr (.inr ⟨rfl, List.isPrefixOf_iff_prefix.1 hs'⟩)⟩
        · obtain ⟨a, w, h1, h2⟩ := ih h
          exact ⟨a, w, List.mem_cons_of_mem _ h1, h2⟩

theorem buildTree_key {k : FieldKind} {v : Json} {e : Err} (h : buildTree k v = some (.error e)) :
    ∃ l, v = .obj l ∧ KeyErr k l e := by
  unfold buildTree at h
  cases hf : fromJson v with
  | none => rw [hf] at h; cases h
  | some w =>
    rw [hf] at h
    cases k with
    | exports =>
      simp only [Option.some.injEq] at h
      unfold buildExportsMV at h
      split at h
      · rename_i m
        obtain ⟨l, rfl, -⟩ := fromJson_cond hf
        refine ⟨l, rfl, ?_⟩
        simp only at h
        split at h
        · rename_i hmix
          cases h
          simp only [Bool.and_eq_true, Bool.not_eq_true', List.all_eq_false] at hmix
          obtain ⟨⟨a, h1, h2⟩, b, h3, h4⟩ := hmix
          obtain ⟨x, hx⟩ := cond_keys hf h1
          obtain ⟨y, hy⟩ := cond_keys hf h3
          simp only [startsWith, Bool.not_eq_true', Bool.not_eq_false, Bool.or_eq_true,
            List.isPrefixOf_iff_prefix] at h2
          simp only [startsWith, Bool.or_eq_true, List.isPrefixOf_iff_prefix, not_or] at h4
          exact .mixed rfl hx hy h2 h4.1 h4.2
        · split at h
          · cases h
          · obtain ⟨a, w, h1, h2, rfl⟩ := buildExportsLoop_key h
            obtain ⟨x, hx⟩ := cond_keys hf h1
            exact .exports rfl hx h2
      · cases h
      · cases h
    | imports =>
      simp only at h
      split at h
      · rename_i m
        obtain ⟨l, rfl, -⟩ := fromJson_cond hf
        refine ⟨l, rfl, ?_⟩
        simp only [Option.some.injEq] at h
        obtain ⟨a, w, h1, h2⟩ := buildImportsLoop_key h
        obtain ⟨x, hx⟩ := cond_keys hf h1
        rcases h2 with ⟨rfl, h2⟩ | ⟨rfl, h2⟩ | ⟨rfl, h2⟩
        · exact .hash rfl hx h2
        · exact .short rfl hx h2
        · exact .slash rfl hx h2
      · cases h

theorem sideEffectsLoop_true {path : Str} {l : List Json} {e : Err} (h : sideEffectsLoop path l = .error e) :
    ∃ v ∈ l, (∀ s, v ≠ .str s) ∧ e = .sideEffects path v := by
  induction l with
  | nil => cases h
  | cons v l ih =>
    unfold sideEffectsLoop at h
    split at h
    · rename_i hs
      cases h
      refine ⟨v, List.mem_cons_self .., fun s hv => ?_, rfl⟩
      subst hv
      cases hs
    · split at h
      · rename_i h'
        cases h
        obtain ⟨w, h1, h2⟩ := ih h'
        exact ⟨w, List.mem_cons_of_mem _ h1, h2⟩
      · cases h

theorem parseSideEffects_true {path : Str} {json : Json} {e : Err}
    (h : parseSideEffects path json = .error e) :
    ∃ x v, json.get cs!"sideEffects" = some x ∧ NotSideEffects x v ∧ e = .sideEffects path v := by
  unfold parseSideEffects at h
  split at h
  · cases h
  · rename_i x hx
    split at h
    · cases h
    · rename_i hb
      split at h
      · rename_i ha
        cases h
        exact ⟨x, x, hx, .entry (fun b h => by subst h; cases hb) (fun l h => by subst h; cases ha), rfl⟩
      · rename_i l ha
        have : x = .arr l := by cases x <;> cases ha; rfl
        subst this
        split at h
        · rename_i he
          cases h
          obtain ⟨v, h1, h2, rfl⟩ := sideEffectsLoop_true he
          exact ⟨_, v, hx, .item h1 h2, rfl⟩
        · cases h


namespace Live

theorem Sat.weaken {α : Type} {A A' : (q : Query) → q.Ret → Prop} {G G' : Op → Prop}
    {R R' : (o : Op) → o.Ret → Prop} {C C' : Crash → Prop} {P : α → Prop} {p : Live α}
    (h : p.Sat A G R C P) (hA : ∀ q r, A' q r → A q r) (hG : ∀ o, G o → G' o) (hR : ∀ o r, R' o r → R o r)
    (hC : ∀ c, C c → C' c) : p.Sat A' G' R' C' P := by
  induction p with
  | ret a => exact h
  | crash c => exact hC _ h
  | ask q k ih => exact fun r hr => ih r (h r (hA _ _ hr))
  | op o k ih => exact ⟨hG _ h.1, fun r hr => ih r (h.2 r (hR _ _ hr))⟩

theorem Sat.and {α : Type} {A : (q : Query) → q.Ret → Prop} {G G' : Op → Prop}
    {R : (o : Op) → o.Ret → Prop} {C : Crash → Prop} {P Q : α → Prop} {p : Live α}
    (h : p.Sat A G R C P) (h' : p.Sat A G' R C Q) : p.Sat A G R C (fun a => P a ∧ Q a) := by
  induction p with
  | ret a => exact ⟨h, h'⟩
  | crash c => exact h
  | ask q k ih => exact fun r hr => ih r (h r hr) (h' r hr)
  | op o k ih => exact ⟨h.1, fun r hr => ih r (h.2 r hr) (h'.2 r hr)⟩

/-! ## The times of files -/

/-- A time of the file in one of the file systems `F`, under some spelling of its path. -/
def StampIn (F : Fs → Prop) (key : List Comp) (m : Nat) : Prop :=
  ∃ fs p, F fs ∧ comps p = key ∧ fs.mtime p = some m

/-- Times that may be stored. -/
def StampG (F : Fs → Prop) : Op → Prop
  | .putFile p m => StampIn F (comps p) m
  | _ => True

/-- Times that may be answered. -/
def StampR (F : Fs → Prop) : (o : Op) → o.Ret → Prop
  | .getFile p, r => ∀ m, r = some m → StampIn F (comps p) m
  | _, _ => True

/-- Times in the caches. -/
def StampJ (F : Fs → Prop) (s : Shared) : Prop :=
  ∀ rid key m, s.files rid key = some m → StampIn F key m

theorem stamp_step {F : Fs → Prop} {cfg : Nat → Config} (s : Shared) (rid : Nat) (o : Op) (seeds : Nat → Nat)
    (h : StampJ F s) (hg : StampG F o) :
    StampJ F (s.store cfg rid (Op.exec (s.view cfg rid seeds) o).2) ∧
      StampR F o (Op.exec (s.view cfg rid seeds) o).1 := by
  have put : ∀ w : World, (∀ key m, w.file key = some m → StampIn F key m) → StampJ F (s.store cfg rid w) := by
    intro w h1 c
    simp only [Shared.store, upd]
    split
    · exact h1
    · exact h c
  have h1 := h rid
  cases o with
  | getFile p => exact ⟨put _ h1, h1 _⟩
  | putFile p m =>
    refine ⟨put _ fun key m' => ?_, trivial⟩
    simp only [Op.exec, Shared.view, upd]
    split
    · rename_i hk
      intro h
      cases h
      rw [hk]
      exact hg
    · exact h1 key m'
  | _ => exact ⟨put _ h1, trivial⟩

section
variable {h : Host} {F : Fs → Prop}

theorem load_stamp (path : Str) :
    (loadPkg h path).Sat (Among F) (StampG F) (fun _ _ => True) (fun _ => True) fun _ => True := by
  refine (loadAux_sat (fun o ho => ?_) (fun _ _ => trivial) (fun _ => trivial) trivial (fun _ => True)
    (fun _ _ _ _ => trivial) (fun _ _ _ => cacheNone_sat (fun _ _ => trivial) trivial _ _)
    (fun _ _ => True) (fun _ _ _ _ _ _ => ⟨trivial, trivial⟩) (fun _ _ _ _ => trivial) _ path trivial).mono
    fun _ _ => trivial
  cases o with
  | putFile p m =>
    obtain ⟨-, fs, hF, h1⟩ := ho
    exact ⟨fs, p, hF, rfl, h1⟩
  | _ => trivial

theorem stamp_inv (h : Host) (F : Fs → Prop) :
    Inv h (Among F) (StampG F) (fun _ _ => True) (fun _ => True) (fun _ => True) (fun _ => True)
      (fun _ => True) (fun _ => True) (fun _ => True) True where
  load p _ := (load_stamp p).mono fun _ _ => ⟨fun _ _ => trivial, fun _ _ => trivial⟩
  errTag := trivial
  errPkg := fun _ _ => .of_all (fun _ => trivial) (fun _ _ _ _ _ => trivial) fun _ _ _ _ _ => trivial
  ask := fun _ _ => trivial
  askModule := fun _ _ => trivial
  pathGet := fun _ _ => trivial
  pathPkg := fun _ _ _ _ => trivial
  pathModule := fun _ _ => trivial
  pathParent := fun _ _ _ _ _ _ => trivial
  target := fun _ _ _ => trivial
  file := fun _ _ => resolveAsFile_sat trivial fun _ _ _ _ => trivial
  exports := fun _ _ _ _ => trivial
  imports := fun _ _ _ _ => ⟨trivial, trivial⟩
  panics := fun _ _ => trivial
  fuel := trivial

theorem prog_stamp (h : Host) (fuel : Nat) (call : Call) :
    (Live.prog h fuel call).Sat (Among F) (StampG F) (fun _ _ => True) (fun _ => True) fun _ => True := by
  cases call with
  | resolve path request =>
    unfold Live.prog
    refine Sat.bind (P := fun _ => True) ?_ fun _ _ => trivial
    unfold resolve
    refine Sat.bind (stats_sat (stamp_inv h F) fuel path request trivial fun _ _ =>
      ⟨trivial, .of_all ⟨fun _ => trivial, fun _ _ => trivial, fun _ _ => trivial⟩,
        ⟨fun _ => True, trivial, fun _ _ _ _ _ => trivial, fun _ _ => trivial⟩,
        fun _ _ _ _ _ => trivial⟩) fun s hs => ?_
    cases s with
    | error err j => trivial
    | resolving j => trivial
    | success r => exact (normalizeResult_was r fun _ _ _ => trivial).mono fun _ _ => trivial
  | sideEffects path =>
    unfold Live.prog
    refine Sat.bind (P := fun _ => True) ?_ fun _ _ => trivial
    unfold loadSideEffects
    refine Sat.bind (load_stamp path) fun s _ => ?_
    rcases s with e | (_ | pkg)
    · trivial
    · trivial
    · dsimp only
      split <;> trivial

/-- In any history, the times found in the caches are times of files. -/
theorem got_stamp {cfg : Nat → Config} {ser : Json → Str} {fs : Fs} {l : List Event} {i : Nat} (o : Op)
    (r : o.Ret) (hg : Got cfg ser fs l i o r) : StampR (Versions fs l) o r :=
  live_got (F := Versions fs l) (A := Among (Versions fs l)) (fun fs _ hF => ⟨fs, hF, rfl⟩)
    (fun s rid o seeds hs hg => stamp_step s rid o seeds hs hg) (fun _ _ _ h => by cases h)
    (fun h fuel call => (prog_stamp h fuel call).weaken (fun _ _ h => h) (fun _ h => h)
      (fun _ _ _ => trivial) fun _ h => h) (fun _ h => h) hg

/-! ## Errors of the loader -/

/-- The errors of the loader are true. -/
structure LoadErrs (A : (q : Query) → q.Ret → Prop) (R : (o : Op) → o.Ret → Prop) (E : Err → Prop) : Prop where
  tag : E .tag
  open_ : ∀ p, A (.read p) none ∨ A (.mtime p) none → E (.openFailed p)
  parse : ∀ p doc, A (.read p) (some doc) → doc.json = none → E (.parseFailed p)
  compare : ∀ p now stored, A (.mtime p) (some now) → R (.getFile p) (some stored) → now < stored →
    E (.compareFailed p)
  exports : ∀ v e, FieldRead A cs!"exports" v → buildTree .exports v = some (.error e) → E e
  imports : ∀ v e, FieldRead A cs!"imports" v → buildTree .imports v = some (.error e) → E e
  side : ∀ p doc json e, A (.read p) (some doc) → doc.json = some json →
    parseSideEffects p json = .error e → E e

variable {A : (q : Query) → q.Ret → Prop} {R : (o : Op) → o.Ret → Prop} {E : Err → Prop}

theorem exportsTree_errs {e : Env} {json : Json}
    (hE : ∀ v err, json.get cs!"exports" = some v → buildTree .exports v = some (.error err) → E err) :
    (lift (exportsTreeOf e json)).Sat A (fun _ => True) R (fun _ => True)
      (fun r => ∀ err, r = .error err → E err) := by
  unfold exportsTreeOf
  split
  · exact nofun
  · rename_i v hv
    refine ⟨trivial, fun r _ => ?_⟩
    cases r with
    | some t => exact nofun
    | none =>
      dsimp only
      split
      · trivial
      · rename_i he
        intro err h
        cases h
        exact hE v _ hv he
      · exact ⟨trivial, fun _ _ => nofun⟩

theorem importsTree_errs {e : Env} {json : Json}
    (hE : ∀ v err, json.get cs!"imports" = some v → buildTree .imports v = some (.error err) → E err) :
    (lift (importsTreeOf e json)).Sat A (fun _ => True) R (fun _ => True)
      (fun r => ∀ err, r = .error err → E err) := by
  unfold importsTreeOf
  split
  · exact nofun
  · rename_i v hv
    refine ⟨trivial, fun r _ => ?_⟩
    cases r with
    | some t => exact nofun
    | none =>
      dsimp only
      split
      · trivial
      · rename_i he
        intro err h
        cases h
        exact hE v _ hv he
      · exact ⟨trivial, fun _ _ => nofun⟩

theorem lift_bind' {α β : Type} (p : Prog α) (f : α → Prog β) :
    lift (p.bind f) = (lift p).bind fun a => lift (f a) := by
  induction p with
  | ret a => rfl
  | crash c => rfl
  | op o k ih => exact congrArg (Live.op o) (funext fun r => ih r)

theorem contents_errs (hE : LoadErrs A R E) (dir path : Str) {doc : Doc} (hd : A (.read path) (some doc)) :
    (lift (parseContents h dir path doc)).Sat A (fun _ => True) R (fun _ => True)
      (fun r => ∀ err, r = .error err → E err) := by
  unfold parseContents
  cases hj : doc.json with
  | none => intro err h; cases h; exact hE.parse _ _ hd hj
  | some json =>
    refine ⟨trivial, fun seed _ => ?_⟩
    dsimp only
    cases hb : browserFields json with
    | none => trivial
    | some fields =>
      dsimp only
      rw [lift_bind']
      refine Sat.bind (exportsTree_errs fun v err hv he => hE.exports v err ⟨path, doc, json, hd, hj, hv⟩ he)
        fun r hx => ?_
      cases r with
      | error err => intro _ h; cases h; exact hx _ rfl
      | ok et =>
        dsimp only
        rw [lift_bind']
        refine Sat.bind (importsTree_errs fun v err hv he => hE.imports v err ⟨path, doc, json, hd, hj, hv⟩ he)
          fun r hx => ?_
        cases r with
        | error err => intro _ h; cases h; exact hx _ rfl
        | ok it =>
          dsimp only
          split
          · rename_i he
            intro _ h
            cases h
            exact hE.side path doc json _ hd hj he
          · exact nofun

theorem parseAndStore_errs (hE : LoadErrs A R E) (dir path : Str) :
    (parseAndStore h dir path).Sat A (fun _ => True) R (fun _ => True)
      (fun r => ∀ err, r = .error err → E err) := by
  have key : ((readToString path).bind fun
      | .error _ => .ret (.error (.openFailed path))
      | .ok doc => lift (parseContents h dir path doc)).Sat A (fun _ => True) R (fun _ => True) (fun r =>
      ∀ err, r = .error err → E err) := by
    unfold readToString
    intro r hr
    cases r with
    | none => intro _ h; cases h; exact hE.open_ _ (.inl hr)
    | some doc =>
      intro m hm
      cases m with
      | none => intro _ h; cases h; exact hE.open_ _ (.inr hm)
      | some m => exact ⟨trivial, fun _ _ => contents_errs hE dir path hr⟩
  unfold parseAndStore
  refine Sat.bind (P := fun r => ∀ err, r = .error err → E err) ?_ fun r hr => ?_
  · unfold parseDescription dbgGuard
    split
    · refine ⟨trivial, fun r _ => ?_⟩
      cases r with
      | true => trivial
      | false => exact ⟨trivial, fun _ _ => key⟩
    · exact key
  · cases r with
    | error err => intro _ h; cases h; exact hr _ rfl
    | ok pkg => exact ⟨trivial, fun _ _ => nofun⟩

theorem needUpdate_errs (hE : LoadErrs A R E) (path : Str) :
    (needUpdate h path).Sat A (fun _ => True) R (fun _ => True) (fun r => ∀ err, r = .error err → E err) := by
  unfold needUpdate
  refine sat_isFile fun b _ => ?_
  cases b with
  | false => exact nofun
  | true =>
    refine ⟨trivial, fun r hr => ?_⟩
    cases r with
    | none => exact nofun
    | some stored =>
      intro m hm
      cases m with
      | none => intro _ h; cases h; exact hE.open_ _ (.inr hm)
      | some now =>
        dsimp only
        split
        · rename_i hlt
          intro _ h
          cases h
          exact hE.compare _ _ _ hm hr hlt
        · exact nofun

theorem loadAux_errs (hE : LoadErrs A R E) (n : Nat) (path : Str) :
    (loadPkgAux h n path).Sat A (fun _ => True) R (fun _ => True)
      (fun r => ∀ err, r = .error err → E err) := by
  induction n generalizing path with
  | zero => trivial
  | succ n ih =>
    rw [loadPkgAux]
    split
    · exact nofun
    · rename_i desc hdesc
      refine sat_isDir fun b hb => ?_
      cases b with
      | false =>
        cases hd : pparent path with
        | some dir => exact ih dir
        | none => intro _ h; cases h; exact hE.tag
      | true =>
        refine ⟨trivial, fun r _ => ?_⟩
        cases r with
        | some cached =>
          refine Sat.bind (needUpdate_errs hE _) fun u hu => ?_
          rcases u with e | (_ | _)
          · exact fun _ _ _ h => by cases h; exact hu _ rfl
          · exact fun _ _ => nofun
          · dsimp only
            split
            · exact ⟨trivial, fun _ _ _ _ => parseAndStore_errs hE _ _⟩
            · exact fun _ _ => parseAndStore_errs hE _ _
        | none =>
          refine sat_isFile fun b _ => ?_
          cases b with
          | false =>
            refine Sat.bind (P := fun _ => True) ((findUp_sat desc _ path).mono fun _ _ => trivial) fun r _ => ?_
            cases r with
            | some dir => exact ih dir
            | none =>
              refine (cacheNone_sat (fun _ _ => trivial) trivial _ path).mono fun r hr => ?_
              subst hr
              exact nofun
          | true => exact parseAndStore_errs hE _ _

/-! ## All errors -/

/-- A true message, or the marker. -/
def Says (o : Opts) (D V : Fs → Prop) (path request : Str) (e : Err) : Prop :=
  e = .tag ∨ ErrorTrue o D V path request e

/-- What may be answered. -/
def TrueR (V : Fs → Prop) (o : Op) (r : o.Ret) : Prop := HistR V o r ∧ StampR V o r

variable {D V : Fs → Prop} {path request : Str} {o : Opts}

theorem fieldRead_has {name : Str} {v : Json} (h : FieldRead (Among D) name v) : HasField D name v := by
  obtain ⟨file, doc, json, ⟨fs, hD, h1⟩, h2, h3⟩ := h
  exact ⟨fs, file, doc, json, hD, h1, h2, h3⟩

/-- The name of a field. -/
def _root_.Verif.FieldKind.label : FieldKind → Str
  | .exports => cs!"exports"
  | .imports => cs!"imports"

theorem keyErr_true {k : FieldKind} {l : List (Str × Json)} {e : Err} (h : KeyErr k l e)
    (hf : HasField D k.label (.obj l)) :
    ErrorTrue o D V path request e := by
  cases h with
  | mixed hk ha hb h1 h2 h3 => subst hk; exact ⟨_, _, ⟨l, _, hf, ha⟩, ⟨l, _, hf, hb⟩, h1, h2, h3⟩
  | exports hk ha h => subst hk; exact ⟨⟨l, _, hf, ha⟩, h⟩
  | hash hk ha h => subst hk; exact ⟨⟨l, _, hf, ha⟩, h⟩
  | short hk ha h => subst hk; exact ⟨⟨l, _, hf, ha⟩, h⟩
  | slash hk ha h => subst hk; exact ⟨h, .inl ⟨l, _, hf, ha⟩⟩

theorem load_errs (o : Opts) (D V : Fs → Prop) (path request : Str) :
    LoadErrs (Among D) (TrueR V) (Says o D V path request) where
  tag := .inl rfl
  open_ p h := by
    rcases h with ⟨fs, h1, h2⟩ | ⟨fs, h1, h2⟩
    · exact .inr ⟨fs, h1, .inl h2⟩
    · exact .inr ⟨fs, h1, .inr h2⟩
  parse p doc h hj := by
    obtain ⟨fs, h1, h2⟩ := h
    exact .inr ⟨fs, doc, h1, h2, hj⟩
  compare p now stored h hr hlt := by
    obtain ⟨fs, h1, h2⟩ := h
    obtain ⟨fs', p', h3, h4, h5⟩ := hr.2 stored rfl
    exact .inr ⟨fs, fs', p', now, stored, h1, h3, by simp [pathEq, h4], h2, h5, hlt⟩
  exports v e hf he := by
    obtain ⟨l, rfl, h⟩ := buildTree_key he
    exact .inr (keyErr_true h (fieldRead_has hf))
  imports v e hf he := by
    obtain ⟨l, rfl, h⟩ := buildTree_key he
    exact .inr (keyErr_true h (fieldRead_has hf))
  side p doc json e hd hj he := by
    obtain ⟨fs, h1, h2⟩ := hd
    obtain ⟨x, v, h3, h4, rfl⟩ := parseSideEffects_true he
    exact .inr ⟨fs, doc, json, x, h1, h2, hj, h3, h4⟩

theorem treeOf_has {root : Node} (h : TreeOf (.among V) root) :
    ∃ v k, HasMap V v ∧ buildTree k v = some (.ok root) := by
  obtain ⟨v, k, h1, h2⟩ := h
  refine ⟨v, k, ?_, h2⟩
  rcases h1 with ⟨fs, hF, file, doc, json, h⟩ | ⟨fs, hF, file, doc, json, h⟩
  · exact .inl ⟨fs, file, doc, json, hF, h⟩
  · exact .inr ⟨fs, file, doc, json, hF, h⟩

theorem inner_true {v : Json} {e : Err} (hm : HasMap V v)
    (h : (∃ t, Inside (.str t) v ∧ TargetErr t e) ∨
      e = .defaultNotLast ∧ ∃ l, Inside (.obj l) v ∧ DefaultEarly l) :
    ErrorTrue o D V path request e := by
  rcases h with ⟨t, h1, h2⟩ | ⟨rfl, l, h1, h2⟩
  · cases h2 with
    | bad h => exact ⟨⟨v, hm, h1⟩, h⟩
    | folder h => exact ⟨⟨v, hm, h1⟩, h⟩
    | file h => exact ⟨⟨v, hm, h1⟩, h⟩
    | wrong h => exact ⟨⟨v, hm, h1⟩, h⟩
  · exact ⟨v, l, hm, h1, h2⟩

theorem unfit_useless {i : Info} (h : Unfit (Among D) i) : Useless D i := by
  rcases h with ⟨fs, h1, h2⟩ | h
  · exact .inl ⟨fs, h1, h2⟩
  · exact .inr h

theorem map_errs {pkg : Pkg} (hp : Origin V pkg) :
    MapErrs h (Among D) (Says h.opts D V path request) pkg where
  exportsErr root t r e hroot ha he := by
    obtain ⟨v, k, h1, h2⟩ := treeOf_has (hp.exports root hroot)
    rcases fieldProcess_true h2 he with h3 | h3
    · cases assertExports_err (askedAs_shape ha) h3
      exact .inr ⟨v, h1⟩
    · exact .inr (inner_true h1 h3)
  importsErr root t e hroot ha he := by
    obtain ⟨v, k, h1, h2⟩ := treeOf_has (hp.imports root hroot)
    rcases fieldProcess_true h2 he with h3 | h3
    · rcases assertImports_err ha h3 with rfl | ⟨rfl, h4⟩ | rfl
      · exact .inr ⟨v, h1⟩
      · exact .inr ⟨h4, .inr ⟨v, h1⟩⟩
      · exact .inr ⟨v, h1⟩
    · exact .inr (inner_true h1 h3)
  noExport root t r l hroot ha hl hu := by
    obtain ⟨v, k, h1, h2⟩ := treeOf_has (hp.exports root hroot)
    exact .inr (.inl ⟨pkg.absDir, r, l, ha, ⟨v, k, root, h1, h2, hl⟩, fun x hx => unfit_useless (hu x hx)⟩)
  noImport root t l hroot ha hl hu := by
    obtain ⟨v, k, h1, h2⟩ := treeOf_has (hp.imports root hroot)
    refine .inr (.inr ⟨List.isPrefixOf_iff_prefix.1 ha, pkg.absDir, l, ⟨v, k, root, h1, h2, hl⟩,
      fun x hx => ?_⟩)
    obtain ⟨i, h3, h4⟩ := hu x hx
    exact ⟨i, unfit_useless h3, h4⟩

theorem load_true (hDV : ∀ fs, D fs → V fs) (path request p : Str) :
    (loadPkg h p).Sat (Among D) (fun _ => True) (TrueR V) (fun _ => True) fun r =>
      (∀ pkg, r = .ok (some pkg) → Origin V pkg) ∧
        ∀ e, r = .error e → Says h.opts D V path request e := by
  have h1 := ((load_hist (h := h) (F := V) p).weaken (A' := Among D) (G' := fun _ => True) (R' := TrueR V)
    (C' := fun _ => True) (fun _ _ ⟨fs, h, h'⟩ => ⟨fs, hDV _ h, h'⟩) (fun _ _ => trivial)
    (fun _ _ h => h.1) fun _ h => h)
  exact (h1.and (loadAux_errs (load_errs h.opts D V path request) _ p)).mono
    fun r hr => ⟨fun pkg hp => (hr.1 pkg hp).2, hr.2⟩

theorem true_inv (h : Host) (hDV : ∀ fs, D fs → V fs) (path request : Str) :
    Inv h (Among D) (fun _ => True) (TrueR V) (fun _ => True) (fun _ => True) (Origin V)
      (FileWas (Among D) h.opts) (fun _ => True) (Says h.opts D V path request) (SaysIgnored h.opts V) where
  load p _ := load_true hDV path request p
  errTag := .inl rfl
  errPkg := fun _ hp => map_errs hp
  ask := fun _ _ => trivial
  askModule := fun _ _ => trivial
  pathGet := fun _ _ => trivial
  pathPkg := fun _ _ _ _ => trivial
  pathModule := fun _ _ => trivial
  pathParent := fun _ _ _ _ _ _ => trivial
  target := fun _ _ _ => trivial
  file := fun _ _ => resolveAsFile_was trivial
  exports := fun _ _ _ _ => trivial
  imports := fun _ _ _ _ => ⟨trivial, trivial⟩
  ignAlias k h := .alias k h
  ignField pkg k hp hb hk := by
    obtain ⟨fs, file, doc, h1, h2, h3⟩ := hp.file
    cases hp.browser k _ hk with
    | ignored h4 h5 => exact .browser fs file doc _ _ k hb h1 h2 h3 h4 h5
  panics := fun _ _ => trivial
  fuel := trivial

theorem ts_errs (o : Opts) (D V : Fs → Prop) (path request : Str) :
    TsErrs (Among D) (Says o D V path request) (SaysIgnored o V) where
  open_ p h := by
    obtain ⟨fs, h1, h2⟩ := h
    exact .inr ⟨fs, h1, .inl h2⟩
  parse p doc m h hm := by
    obtain ⟨fs, h1, h2⟩ := h
    exact .inr ⟨fs, doc, h1, h2, hm⟩
  ext p doc json s h hj he hn := by
    obtain ⟨fs, h1, h2⟩ := h
    exact .inr ⟨hn, fs, doc, json, h1, h2, hj, he⟩

theorem resolve_true (hDV : ∀ fs, D fs → V fs) (n : Nat) (path request : Str) :
    (resolve h n path request).Sat (Among D) (fun _ => True) (TrueR V) (fun _ => True)
      (fun r => ∀ e, r = .error e → ErrorTrue h.opts D V path request e) := by
  unfold resolve
  refine Sat.bind (stats_sat (true_inv h hDV path request) n path request trivial fun _ _ =>
    ⟨trivial, ts_errs h.opts D V path request,
      ⟨fun _ => True, trivial, fun _ _ _ _ _ => trivial, fun _ _ => trivial⟩,
      fun _ _ _ _ _ => trivial⟩) fun s hs => ?_
  cases s with
  | error err j =>
    intro e he
    cases he
    rcases hs with rfl | ⟨rfl | h1, h2⟩
    · exact ⟨(parse_isSplit request).concat.symm, rfl⟩
    · cases h2
    · exact h1
  | resolving j => exact hs.elim
  | success r =>
    unfold normalizeResult
    cases r with
    | ignored => exact nofun
    | info j =>
      dsimp only
      split
      · trivial
      · unfold normalizePath
        cases hsym : h.opts.symlinks with
        | false => exact nofun
        | true =>
          simp only [if_true]
          intro b hb
          cases b with
          | some q => exact nofun
          | none =>
            intro e he
            cases he
            obtain ⟨fs, h1, h2⟩ := hs.file
            obtain ⟨fs', h3, h4⟩ := hb
            exact ⟨hsym, fs, fs', j.path, h1, h3, h2, h4⟩

theorem sideEffects_true (hDV : ∀ fs, D fs → V fs) (path : Str) :
    (loadSideEffects h path).Sat (Among D) (fun _ => True) (TrueR V) (fun _ => True)
      (fun r => ∀ e, r = .error e → e = .tag ∨ ErrorTrue h.opts D V path [] e) := by
  unfold loadSideEffects
  refine Sat.bind (load_true hDV path [] path) fun s hs => ?_
  rcases s with e | (_ | pkg)
  · intro e' he
    cases he
    exact hs.2 _ rfl
  · exact nofun
  · dsimp only
    split
    · trivial
    · exact nofun

end
end Live
end Verif
