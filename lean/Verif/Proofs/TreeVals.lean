import Verif.Proofs.Fields
import Verif.Proofs.Parse
import Verif.Proofs.Transparent
import Verif.Spec.Termination
/-!
# Where the targets of a compiled map come from

Every target in the tree of an exports or imports field is a string of the field.
-/

namespace Verif

/-! ## Values in a tree -/

/-- All values in a tree. -/
def Node.Vals (P : MV → Prop) (node : Node) : Prop :=
  ∀ q, (∀ v, (node.sub q).folder = some v → P v) ∧ (∀ kv ∈ (node.sub q).wilds, P kv.2) ∧
    ∀ kv ∈ (node.sub q).files, P kv.2

theorem mem_ainsert_val {β : Type} {k : Str} {v : β} {l : List (Str × β)} {kv : Str × β}
    (h : kv ∈ ainsert k v l) : kv.2 = v ∨ kv ∈ l := by
  induction l with
  | nil => simp only [ainsert, List.mem_singleton] at h; exact .inl (by rw [h])
  | cons x l ih =>
    obtain ⟨k', v'⟩ := x
    simp only [ainsert] at h
    split at h
    · rcases List.mem_cons.1 h with h | h
      · exact .inl (by rw [h])
      · exact .inr (List.mem_cons_of_mem _ h)
    · rcases List.mem_cons.1 h with h | h
      · exact .inr (h ▸ List.mem_cons_self ..)
      · rcases ih h with h | h
        · exact .inl h
        · exact .inr (List.mem_cons_of_mem _ h)

variable {P : MV → Prop}

theorem vals_empty : Node.empty.Vals P := by
  intro q
  rw [empty_sub]
  exact ⟨nofun, nofun, nofun⟩

theorem vals_root {v : MV} (h : P v) : (Node.mk none none none [([], v)]).Vals P := by
  intro q
  cases q with
  | nil => exact ⟨nofun, nofun, fun kv hk => by
      rw [List.mem_singleton.1 hk]; exact h⟩
  | cons s q => exact vals_empty q

theorem vals_files {node : Node} (hn : node.Vals P) {v : MV} (hv : P v) (k : Str) :
    (Node.mk node.children node.folder node.wildcards (ainsert k v node.files)).Vals P := by
  intro q
  cases q with
  | nil =>
    refine ⟨(hn []).1, (hn []).2.1, fun kv hk => ?_⟩
    rcases mem_ainsert_val hk with h | h
    · exact h ▸ hv
    · exact (hn []).2.2 kv h
  | cons s q => exact hn (s :: q)

theorem vals_walk {node : Node} (hn : node.Vals P) {v : MV} (hv : P v) (path : Str) :
    (walk node path v).Vals P := by
  intro q
  rw [walk_segs]
  have hne : splitC '/' path ≠ [] := splitC_ne_nil _ _
  rw [← List.dropLast_concat_getLast hne]
  obtain ⟨h1, h2, h3⟩ := walkSegs_sub v (splitC '/' path).dropLast ((splitC '/' path).getLast hne) node q
  rw [h1, h2, h3]
  refine ⟨fun w hw => ?_, fun kv hk => ?_, fun kv hk => ?_⟩
  · split at hw
    · cases hw; exact hv
    · exact (hn q).1 w hw
  · split at hk
    · rcases mem_ainsert_val hk with h | h
      · exact h ▸ hv
      · exact (hn q).2.1 kv h
    · exact (hn q).2.1 kv hk
  · split at hk
    · rcases mem_ainsert_val hk with h | h
      · exact h ▸ hv
      · exact (hn q).2.2 kv h
    · exact (hn q).2.2 kv hk

theorem vals_child {node node' : Node} (hn : node.Vals P) {ch : List (Str × Node)}
    (hc : node.children = some ch) {s : Str} (hs : alookup s ch = some node') : node'.Vals P := by
  intro q
  have := hn (s :: q)
  simpa only [Node.sub, hc, Option.getD_some, hs] using this

/-- What was found so far. -/
def LastOk (P : MV → Prop) (last : Option (MV × Int)) : Prop := ∀ v i, last = some (v, i) → P v

theorem applyFolder_ok {node : Node} (hn : node.Vals P) {last : Option (MV × Int)}
    (hl : LastOk P last) (i : Nat) : LastOk P (applyFolder last node i) := by
  intro v j h
  unfold applyFolder at h
  split at h
  · rename_i m hm
    cases h
    exact (hn []).1 _ hm
  · exact hl v j h

theorem applyWildcardsLoop_ok {rem : Str} {i : Nat} {l : List (Str × MV)} (hw : ∀ kv ∈ l, P kv.2)
    {last : Option (MV × Int)} (hl : LastOk P last) : LastOk P (applyWildcardsLoop rem i l last) := by
  induction l generalizing last with
  | nil => exact hl
  | cons x l ih =>
    obtain ⟨key, target⟩ := x
    have ih' := fun {last} => ih (last := last) fun kv hk => hw kv (List.mem_cons_of_mem _ hk)
    have ht : ∀ j : Int, LastOk P (some (target, j)) := by
      rintro j v i ⟨⟩
      exact hw (key, target) (List.mem_cons_self ..)
    simp only [applyWildcardsLoop]
    split
    · split
      · exact ih' (ht _)
      · rename_i v j
        split
        · exact ih' (ht _)
        · exact ih' hl
    · exact ih' hl

theorem applyWildcards_ok {node : Node} (hn : node.Vals P) {last : Option (MV × Int)}
    (hl : LastOk P last) (rem : Str) (i : Nat) : LastOk P (applyWildcards last node rem i) := by
  unfold applyWildcards
  split
  · rename_i l hw
    refine applyWildcardsLoop_ok (fun kv hk => (hn []).2.1 kv ?_) hl
    simpa [Node.sub, Node.wilds, hw] using hk
  · exact hl

theorem file_ok {node : Node} (hn : node.Vals P) {k : Str} {v : MV} (h : alookup k node.files = some v) :
    P v := (hn []).2.2 (k, v) (mem_of_alookup' h)
where
  mem_of_alookup' {k : Str} {v : MV} {l : List (Str × MV)} (h : alookup k l = some v) : (k, v) ∈ l := by
    induction l with
    | nil => cases h
    | cons kv l ih =>
      obtain ⟨k', v'⟩ := kv
      simp only [alookup] at h
      split at h
      · rename_i e
        rw [e] at *
        cases h
        exact List.mem_cons_self ..
      · exact List.mem_cons_of_mem _ (ih h)

theorem findMatchEnd_ok {node : Node} (hn : node.Vals P) {last : Option (MV × Int)}
    (hl : LastOk P last) (req : Str) (i : Nat) : LastOk P (findMatchEnd node req i last) := by
  unfold findMatchEnd
  simp only
  split
  · rename_i v hv
    rintro w j ⟨⟩
    exact file_ok hn hv
  · exact applyWildcards_ok hn (applyFolder_ok hn hl i) _ _

theorem findMatchLoop_ok {req : Str} {nexts : List (Option Nat)} (n : Nat) {node : Node}
    (hn : node.Vals P) {last : Option (MV × Int)} (hl : LastOk P last) (i : Nat) :
    LastOk P (findMatchLoop req nexts n node i last) := by
  induction n generalizing node last i with
  | zero => exact findMatchEnd_ok hn hl req i
  | succ n ih =>
    unfold findMatchLoop
    split
    · simp only
      have h1 := applyFolder_ok hn hl i
      split
      · exact h1
      · split
        · exact applyWildcards_ok hn h1 _ _
        · rename_i ch hc
          split
          · rename_i node' hs
            exact ih (vals_child hn hc hs) (applyWildcards_ok hn h1 _ _) _
          · exact applyWildcards_ok hn h1 _ _
    · exact findMatchEnd_ok hn hl req i

theorem findMatch_ok {root : Node} (hn : root.Vals P) (req : Str) : LastOk P (findMatch root req) := by
  unfold findMatch
  split
  · intro v i h
    simp only [Option.map_eq_some_iff] at h
    obtain ⟨w, hw, h⟩ := h
    cases h
    exact file_ok hn hw
  · split
    · intro v i h
      simp only [Option.map_eq_some_iff] at h
      obtain ⟨w, hw, h⟩ := h
      cases h
      exact file_ok hn hw
    · exact findMatchLoop_ok _ hn (fun v i h => by cases h) _

/-! ## Strings of a value -/

mutual
/-- The targets in a mapping value. -/
def MV.strings : MV → List Str
  | .direct t => [t]
  | .arr l => itemStrings l
  | .cond l => condStrings l
/-- See `MV.strings`. -/
def itemStrings : List MV → List Str
  | [] => []
  | v :: l => v.strings ++ itemStrings l
/-- See `MV.strings`. -/
def condStrings : List (Str × MV) → List Str
  | [] => []
  | (_, v) :: l => v.strings ++ condStrings l
end

theorem mem_itemStrings {t : Str} {l : List MV} : t ∈ itemStrings l ↔ ∃ v ∈ l, t ∈ v.strings := by
  induction l with
  | nil => simp [itemStrings]
  | cons v l ih => simp [itemStrings, ih]

theorem mem_condStrings {t : Str} {l : List (Str × MV)} :
    t ∈ condStrings l ↔ ∃ kv ∈ l, t ∈ kv.2.strings := by
  induction l with
  | nil => simp [condStrings]
  | cons v l ih => obtain ⟨k, v⟩ := v; simp [condStrings, ih]

mutual
theorem fromJson_strings : ∀ (j : Json) (v : MV), fromJson j = some v → ∀ t ∈ v.strings, t ∈ j.strings
  | .null, v, h => by simp [fromJson] at h
  | .bool _, v, h => by simp [fromJson] at h
  | .num _, v, h => by simp [fromJson] at h
  | .str s, v, h => by simp [fromJson] at h; subst h; exact fun t h => h
  | .arr l, v, h => by
    simp only [fromJson, Option.map_eq_some_iff] at h
    obtain ⟨r, hr, rfl⟩ := h
    exact fromJsonArr_strings l r hr
  | .obj l, v, h => by
    simp only [fromJson, Option.map_eq_some_iff] at h
    obtain ⟨r, hr, rfl⟩ := h
    intro t ht
    rcases fromJsonObj_strings l [] r hr t ht with h | h
    · exact h
    · simp [condStrings] at h
theorem fromJsonArr_strings : ∀ (l : List Json) (r : List MV), fromJsonArr l = some r →
    ∀ t ∈ itemStrings r, t ∈ arrStrings l
  | [], r, h => by simp [fromJsonArr] at h; subst h; exact fun t h => h
  | j :: l, r, h => by
    unfold fromJsonArr at h
    cases hj : fromJson j with
    | none => rw [hj] at h; cases h
    | some v =>
      rw [hj] at h
      have key : ∀ r', fromJsonArr l = some r' → r = v :: r' → ∀ t ∈ itemStrings r, t ∈ arrStrings (j :: l) := by
        rintro r' hr' rfl t ht
        rcases List.mem_append.1 ht with ht | ht
        · exact List.mem_append_left _ (fromJson_strings j v hj t ht)
        · exact List.mem_append_right _ (fromJsonArr_strings l r' hr' t ht)
      cases v with
      | arr _ => cases h
      | direct s =>
        simp only [Option.map_eq_some_iff] at h
        obtain ⟨r', hr', e⟩ := h
        exact key r' hr' e.symm
      | cond s =>
        simp only [Option.map_eq_some_iff] at h
        obtain ⟨r', hr', e⟩ := h
        exact key r' hr' e.symm
theorem fromJsonObj_strings : ∀ (l : List (Str × Json)) (acc r : List (Str × MV)),
    fromJsonObj l acc = some r → ∀ t ∈ condStrings r, t ∈ objStrings l ∨ t ∈ condStrings acc
  | [], acc, r, h => by simp [fromJsonObj] at h; subst h; exact fun t h => .inr h
  | (k, j) :: l, acc, r, h => by
    unfold fromJsonObj at h
    cases hj : fromJson j with
    | none => rw [hj] at h; cases h
    | some v =>
      rw [hj] at h
      intro t ht
      rcases fromJsonObj_strings l _ r h t ht with h | h
      · exact .inl (List.mem_append_right _ h)
      · obtain ⟨kv, hk, ht⟩ := mem_condStrings.1 h
        rcases mem_ainsert_val hk with e | hk
        · rw [e] at ht
          exact .inl (List.mem_append_left _ (fromJson_strings j v hj t ht))
        · exact .inr (mem_condStrings.2 ⟨kv, hk, ht⟩)
end

/-- A value with targets of one kind only, as it comes from JSON. -/
def MV.Of (H : Str → Prop) (v : MV) : Prop := v.wf = true ∧ ∀ t ∈ v.strings, H t

variable {H : Str → Prop}

theorem buildExportsLoop_vals {l : List (Str × MV)} (hl : ∀ kv ∈ l, P kv.2) {root r : Node}
    (hr : root.Vals P) (h : buildExportsLoop l root = .ok r) : r.Vals P := by
  induction l generalizing root with
  | nil => cases h; exact hr
  | cons x l ih =>
    obtain ⟨key, v⟩ := x
    have hl' := fun kv hk => hl kv (List.mem_cons_of_mem (key, v) hk)
    have hv : P v := hl (key, v) (List.mem_cons_self ..)
    simp only [buildExportsLoop] at h
    split at h
    · exact ih hl' (vals_files hr hv []) h
    · split at h
      · cases h
      · exact ih hl' (vals_walk hr hv _) h

theorem buildImportsLoop_vals {l : List (Str × MV)} (hl : ∀ kv ∈ l, P kv.2) {root r : Node}
    (hr : root.Vals P) (h : buildImportsLoop l root = .ok r) : r.Vals P := by
  induction l generalizing root with
  | nil => cases h; exact hr
  | cons x l ih =>
    obtain ⟨key, v⟩ := x
    have hl' := fun kv hk => hl kv (List.mem_cons_of_mem (key, v) hk)
    have hv : P v := hl (key, v) (List.mem_cons_self ..)
    simp only [buildImportsLoop] at h
    repeat' split at h
    · cases h
    · cases h
    · cases h
    · exact ih hl' (vals_walk hr hv _) h

theorem of_cond {m : List (Str × MV)} (h : (MV.cond m).Of H) : ∀ kv ∈ m, kv.2.Of H :=
  fun kv hk => ⟨(wf_cond h.1).2 kv hk, fun t ht => h.2 t (mem_condStrings.2 ⟨kv, hk, ht⟩)⟩

theorem buildTree_vals {k : FieldKind} {j : Json} {root : Node} (hj : ∀ t ∈ j.strings, H t)
    (h : buildTree k j = some (.ok root)) : root.Vals (MV.Of H) := by
  unfold buildTree at h
  cases hf : fromJson j with
  | none => rw [hf] at h; cases h
  | some v =>
    rw [hf] at h
    have hv : v.Of H := ⟨fromJson_wf j v hf, fun t ht => hj t (fromJson_strings j v hf t ht)⟩
    cases k with
    | exports =>
      simp only [Option.some.injEq] at h
      unfold buildExportsMV at h
      split at h
      · rename_i m
        simp only at h
        split at h
        · cases h
        · split at h
          · cases h; exact vals_root hv
          · exact buildExportsLoop_vals (of_cond hv) vals_empty h
      · cases h; exact vals_root hv
      · cases h; exact vals_root hv
    | imports =>
      simp only at h
      split at h
      · simp only [Option.some.injEq] at h
        exact buildImportsLoop_vals (of_cond hv) vals_empty h
      · cases h

/-! ## What a lookup returns -/

theorem scan_strings {cond : Str → Prop} {m : List (Str × MV)} {v : MV} (h : Scan cond m (.found v)) :
    ∀ t ∈ v.strings, t ∈ condStrings m := by
  generalize hr : CondResult.found v = r at h
  induction h with
  | nil => cases hr
  | bad => cases hr
  | skip _ _ _ ih => exact fun t ht => List.mem_append_right _ (ih hr t ht)
  | leaf => cases hr; exact fun t ht => List.mem_append_left _ ht
  | into _ _ _ ih => exact fun t ht => List.mem_append_left _ (ih hr t ht)
  | back _ _ _ _ ih => exact fun t ht => List.mem_append_right _ (ih hr t ht)

theorem outputs_strings {cond : Str → Prop} {f : Str → Except Err Str} {v : MV}
    {r : Except Err (List Str)} (h : Outputs cond f v r) {l : List Str} (hl : r = .ok l) :
    ∀ s ∈ l, ∃ t ∈ v.strings, f t = .ok s := by
  induction h generalizing l with
  | @direct t s h =>
    cases hl
    intro x hx
    rw [List.mem_singleton.1 hx]
    exact ⟨t, List.mem_singleton.2 rfl, h⟩
  | directErr => cases hl
  | noMatch => cases hl; exact nofun
  | badDefault => cases hl
  | found hs _ ih =>
    intro s h
    obtain ⟨t, ht, h⟩ := ih hl s h
    exact ⟨t, scan_strings hs t ht, h⟩
  | nil => cases hl; exact nofun
  | cons _ _ ih1 ih2 =>
    cases hl
    intro s h
    rcases List.mem_append.1 h with h | h
    · obtain ⟨t, ht, h⟩ := ih1 rfl s h
      exact ⟨t, List.mem_append_left _ ht, h⟩
    · obtain ⟨t, ht, h⟩ := ih2 rfl s h
      exact ⟨t, List.mem_append_right _ ht, h⟩
  | err => cases hl
  | errTail => cases hl

/-- A lookup in a tree gives targets of the tree, filled in. -/
theorem fieldProcess_items {k : FieldKind} {root : Node} (hr : root.Vals (MV.Of H)) (target : Str)
    (names : List Str) : ∃ r, fieldProcess k root target names = some r ∧
      ∀ l, r = .ok l → ∀ s ∈ l, ∃ t rem sub, H t ∧ targetMapping k rem sub t = .ok s ∧
        ∀ x, rem = some x → ∀ c ∈ x, c ∈ target := by
  unfold fieldProcess
  cases ha : assertRequest k target with
  | error e => exact ⟨_, rfl, nofun⟩
  | ok req =>
    have hreq : ∀ c ∈ req, c ∈ target := by
      unfold assertRequest at ha
      intro c hc
      cases k <;> simp only at ha <;> (repeat' split at ha) <;> cases ha <;>
        first | cases hc | exact List.mem_of_mem_drop hc
    simp only
    cases hm : findMatch root req with
    | none => exact ⟨_, rfl, fun l h s hs => by cases h; cases hs⟩
    | some mi =>
      obtain ⟨m, idx⟩ := mi
      simp only
      obtain ⟨hw, hH⟩ : m.Of H := findMatch_ok hr req m idx hm
      obtain ⟨r, h1, h2⟩ := (mapping_spec k (if idx = (req.length : Int) + 1 then none
        else if idx < 0 then some (req.drop (idx.natAbs - 1)) else some (req.drop idx.toNat))
        (decide (idx < 0)) names (m.size + 1)).1 m hw (by omega)
      refine ⟨r, h1, fun l hl s hs => ?_⟩
      obtain ⟨t, ht, h⟩ := outputs_strings h2 hl s hs
      refine ⟨t, _, _, hH t ht, h, fun x hx c hc => hreq c ?_⟩
      split at hx
      · cases hx
      · split at hx <;> cases hx <;> exact List.mem_of_mem_drop hc

/-! ## Targets that do not start with `#` -/

theorem targetMapping_notHash {k : FieldKind} {rem : Option Str} {sub : Bool} {t s : Str}
    (ht : NotHash t) (h : targetMapping k rem sub t = .ok s) : ∃ c r, s = c :: r ∧ c ≠ '#' := by
  obtain ⟨c, r, rfl, h1, h2⟩ := ht
  unfold targetMapping at h
  split at h
  · cases h
  · split at h
    · split at h
      · cases h; exact ⟨c, _, rfl, h1⟩
      · cases h
      · cases h
      · cases h
        simp only [replaceChar, List.flatMap_cons, if_neg h2]
        exact ⟨c, _, rfl, h1⟩
    · split at h
      · cases h; exact ⟨c, r, rfl, h1⟩
      · cases h

theorem parse_notHash {s : Str} (h : ∃ c r, s = c :: r ∧ c ≠ '#') :
    startsWith (parseRequest s).target cs!"#" = false := by
  obtain ⟨c, r, rfl, hc⟩ := h
  cases hs : startsWith (parseRequest (c :: r)).target cs!"#" with
  | false => rfl
  | true =>
    obtain ⟨x, hx⟩ := (startsWith_iff _ _).1 hs
    have h := (parse_isSplit (c :: r)).concat
    have e : (parseIdentifier (c :: r)).1 = cs!"#" ++ x := hx.symm
    rw [e] at h
    exact (hc (List.cons.inj h).1).elim

end Verif
