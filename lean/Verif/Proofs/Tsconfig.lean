import Verif.Proofs.Bytes
import Verif.Proofs.Options
import Verif.Proofs.Sat
import Verif.Spec.Tsconfig
/-!
# Lemmas about tsconfig
-/

namespace Verif

section
variable {β : Type}

theorem alookup_none {k : Str} {l : List (Str × β)} :
    alookup k l = none ↔ ∀ v, (k, v) ∉ l := by
  induction l with
  | nil => simp [alookup]
  | cons x l ih =>
    obtain ⟨k', v'⟩ := x
    unfold alookup
    split
    · rename_i hk
      subst hk
      simp only [reduceCtorEq, false_iff]
      exact fun h => h v' (List.mem_cons_self ..)
    · rename_i hk
      rw [ih]
      simp only [List.mem_cons, Prod.mk.injEq, not_or, not_and]
      exact ⟨fun h v => ⟨fun h' => (hk h'.symm).elim, h v⟩, fun h v => (h v).2⟩

theorem alookup_of_mem {k : Str} {l : List (Str × β)} {v : β} (hn : (l.map Prod.fst).Nodup)
    (h : (k, v) ∈ l) : alookup k l = some v := by
  induction l with
  | nil => cases h
  | cons x l ih =>
    obtain ⟨k', v'⟩ := x
    simp only [List.map_cons, List.nodup_cons] at hn
    unfold alookup
    rcases List.mem_cons.1 h with h | h
    · cases h; rw [if_pos rfl]
    · rw [if_neg, ih hn.2 h]
      rintro rfl
      exact hn.1 (List.mem_map.2 ⟨_, h, rfl⟩)

theorem alookup_ainsert {k k' : Str} {v : β} {l : List (Str × β)} :
    alookup k' (ainsert k v l) = if k = k' then some v else alookup k' l := by
  induction l with
  | nil => simp [ainsert, alookup]
  | cons x l ih =>
    obtain ⟨a, b⟩ := x
    unfold ainsert
    split
    · rename_i ha
      subst ha
      unfold alookup
      split <;> rfl
    · rename_i ha
      unfold alookup
      split
      · rename_i h1
        subst h1
        rw [if_neg (Ne.symm ha)]
      · exact ih

theorem ainsert_keys {k : Str} {v : β} {l : List (Str × β)} (h : (l.map Prod.fst).Nodup) :
    ((ainsert k v l).map Prod.fst).Nodup ∧
      ∀ x, x ∈ (ainsert k v l).map Prod.fst ↔ x = k ∨ x ∈ l.map Prod.fst := by
  induction l with
  | nil => simp [ainsert]
  | cons y l ih =>
    obtain ⟨a, b⟩ := y
    simp only [List.map_cons, List.nodup_cons] at h
    unfold ainsert
    split
    · rename_i ha
      subst ha
      exact ⟨by simpa using h, by simp⟩
    · rename_i ha
      obtain ⟨h1, h2⟩ := ih h.2
      constructor
      · simp only [List.map_cons, List.nodup_cons]
        refine ⟨fun hm => ?_, h1⟩
        rcases (h2 a).1 hm with rfl | hm
        · exact ha rfl
        · exact h.1 hm
      · intro x
        simp only [List.map_cons, List.mem_cons, h2]
        grind

end

/-! ## Merging -/

theorem jmerge_null (b : Json) : jmerge .null b = b := by
  cases b <;> simp [jmerge]

theorem jmerge_leaf {a b : Json} (h : a.Leaf) (hn : a ≠ .null) : jmerge a b = a := by
  cases a with
  | null => exact (hn rfl).elim
  | obj f => exact (h f rfl).elim
  | _ => cases b <;> simp [jmerge]

theorem jmerge_obj_leaf {fa : List (Str × Json)} {b : Json} (h : b.Leaf) :
    jmerge (.obj fa) b = .obj fa := by
  cases b with
  | obj f => exact (h f rfl).elim
  | _ => simp [jmerge]

theorem jmerge_obj (fa fb : List (Str × Json)) :
    jmerge (.obj fa) (.obj fb) = .obj (jmergeFields fa fb) := by
  simp [jmerge]

theorem alookup_jmergeFields {fb : List (Str × Json)} (hn : (fb.map Prod.fst).Nodup)
    (fa : List (Str × Json)) (k : Str) :
    alookup k (jmergeFields fa fb) = match alookup k fb with
      | none => alookup k fa
      | some v => some (jmerge ((alookup k fa).getD .null) v) := by
  induction fb generalizing fa with
  | nil => simp [jmergeFields, alookup]
  | cons x fb ih =>
    obtain ⟨k', v⟩ := x
    simp only [List.map_cons, List.nodup_cons] at hn
    rw [jmergeFields, ih hn.2, alookup_ainsert,
      show alookup k ((k', v) :: fb) = if k' = k then some v else alookup k fb from rfl]
    by_cases hk : k' = k
    · subst hk
      have : alookup k' fb = none :=
        alookup_none.2 fun v hv => hn.1 (List.mem_map.2 ⟨_, hv, rfl⟩)
      rw [this, if_pos rfl, if_pos rfl]
    · rw [if_neg hk, if_neg hk]

theorem wfFields_mem {l : List (Str × Json)} (h : wfFields l = true) {k : Str} {v : Json}
    (hm : (k, v) ∈ l) : v.wf = true := by
  induction l with
  | nil => cases hm
  | cons x l ih =>
    obtain ⟨k', v'⟩ := x
    rw [wfFields, Bool.and_eq_true] at h
    rcases List.mem_cons.1 hm with hm | hm
    · cases hm; exact h.1
    · exact ih h.2 hm

theorem wf_obj {l : List (Str × Json)} (h : (Json.obj l).wf = true) :
    (l.map Prod.fst).Nodup ∧ wfFields l = true := by
  rw [Json.wf, Bool.and_eq_true] at h
  exact ⟨by simpa using h.1, h.2⟩

theorem jmerge_deepDefault {own base : Json} (h1 : own.wf = true) (h2 : base.wf = true) :
    DeepDefault own base (jmerge own base) := by
  have A : ∀ ks (own base : Json), own.wf = true → base.wf = true → ∀ x, own.at ks = some x →
      x.Leaf → x ≠ .null → (jmerge own base).at ks = some x := by
    intro ks
    induction ks with
    | nil =>
      intro own base _ _ x hx hl hn
      simp only [Json.at, Option.some.injEq] at hx ⊢
      subst hx
      exact jmerge_leaf hl hn
    | cons k ks ih =>
      intro own base ho hb x hx hl hn
      cases own with
      | obj fa =>
        obtain ⟨hna, hwa⟩ := wf_obj ho
        cases base with
        | obj fb =>
          obtain ⟨hnb, hwb⟩ := wf_obj hb
          rw [jmerge_obj]
          simp only [Json.at, Json.get] at hx ⊢
          rw [alookup_jmergeFields hnb]
          cases ha : alookup k fa with
          | none => rw [ha] at hx; cases hx
          | some va =>
            rw [ha] at hx
            cases hbk : alookup k fb with
            | none => exact hx
            | some vb =>
              exact ih va vb (wfFields_mem hwa (alookup_mem ha)) (wfFields_mem hwb (alookup_mem hbk)) x
                hx hl hn
        | _ => rw [jmerge_obj_leaf (by intro f h; cases h)]; exact hx
      | _ => simp [Json.at, Json.get] at hx
  have B : ∀ ks (own base : Json), own.wf = true → base.wf = true → ∀ y, Absent own ks →
      base.at ks = some y → (jmerge own base).at ks = some y := by
    intro ks
    induction ks with
    | nil =>
      intro own base _ _ y ha hy
      cases ha
      rw [jmerge_null]
      exact hy
    | cons k ks ih =>
      intro own base ho hb y ha hy
      cases ha with
      | null => rw [jmerge_null]; exact hy
      | @missing fa _ _ hm =>
        cases base with
        | obj fb =>
          obtain ⟨hnb, hwb⟩ := wf_obj hb
          rw [jmerge_obj]
          simp only [Json.at, Json.get] at hy ⊢
          rw [alookup_jmergeFields hnb]
          cases hbk : alookup k fb with
          | none => rw [hbk] at hy; cases hy
          | some vb =>
            rw [hbk] at hy
            rw [alookup_none.2 hm]
            simp only [Option.getD_none, jmerge_null]
            exact hy
        | _ => simp [Json.at, Json.get] at hy
      | @step fa _ _ x hm ha =>
        obtain ⟨hna, hwa⟩ := wf_obj ho
        cases base with
        | obj fb =>
          obtain ⟨hnb, hwb⟩ := wf_obj hb
          rw [jmerge_obj]
          simp only [Json.at, Json.get] at hy ⊢
          rw [alookup_jmergeFields hnb]
          cases hbk : alookup k fb with
          | none => rw [hbk] at hy; cases hy
          | some vb =>
            rw [hbk] at hy
            rw [alookup_of_mem hna hm]
            exact ih x vb (wfFields_mem hwa hm) (wfFields_mem hwb (alookup_mem hbk)) y ha hy
        | _ => simp [Json.at, Json.get] at hy
  have C : ∀ ks (own base : Json), own.wf = true → base.wf = true → ∀ z,
      (jmerge own base).at ks = some z → z.Leaf →
      own.at ks = some z ∨ (Absent own ks ∧ base.at ks = some z) := by
    intro ks
    induction ks with
    | nil =>
      intro own base _ _ z hz hl
      simp only [Json.at, Option.some.injEq] at hz ⊢
      cases own with
      | null => rw [jmerge_null] at hz; exact .inr ⟨.null _, hz⟩
      | obj fa =>
        cases base with
        | obj fb => rw [jmerge_obj] at hz; exact (hl _ hz.symm).elim
        | _ => rw [jmerge_obj_leaf (by intro f h; cases h)] at hz; exact .inl hz
      | _ => rw [jmerge_leaf (by intro f h; cases h) (by intro h; cases h)] at hz; exact .inl hz
    | cons k ks ih =>
      intro own base ho hb z hz hl
      cases own with
      | null => rw [jmerge_null] at hz; exact .inr ⟨.null _, hz⟩
      | obj fa =>
        obtain ⟨hna, hwa⟩ := wf_obj ho
        cases base with
        | obj fb =>
          obtain ⟨hnb, hwb⟩ := wf_obj hb
          rw [jmerge_obj] at hz
          simp only [Json.at, Json.get] at hz ⊢
          rw [alookup_jmergeFields hnb] at hz
          cases hbk : alookup k fb with
          | none => rw [hbk] at hz; exact .inl hz
          | some vb =>
            rw [hbk] at hz
            simp only [Option.bind_some] at hz
            cases hak : alookup k fa with
            | none =>
              rw [hak, Option.getD_none, jmerge_null] at hz
              exact .inr ⟨.missing (alookup_none.1 hak), by simpa using hz⟩
            | some va =>
              rw [hak, Option.getD_some] at hz
              rcases ih va vb (wfFields_mem hwa (alookup_mem hak))
                (wfFields_mem hwb (alookup_mem hbk)) z hz hl with h | ⟨h, h'⟩
              · exact .inl h
              · exact .inr ⟨.step (alookup_mem hak) h, h'⟩
        | _ => rw [jmerge_obj_leaf (by intro f h; cases h)] at hz; exact .inl hz
      | _ => rw [jmerge_leaf (by intro f h; cases h) (by intro h; cases h)] at hz; exact .inl hz
  exact ⟨fun ks => A ks _ _ h1 h2, fun ks => B ks _ _ h1 h2, fun ks => C ks _ _ h1 h2⟩

theorem wfFields_iff {l : List (Str × Json)} :
    wfFields l = true ↔ ∀ k v, (k, v) ∈ l → v.wf = true := by
  refine ⟨fun h k v hm => wfFields_mem h hm, fun h => ?_⟩
  induction l with
  | nil => rfl
  | cons x l ih =>
    obtain ⟨k, v⟩ := x
    rw [wfFields, Bool.and_eq_true]
    exact ⟨h k v (List.mem_cons_self ..), ih fun k v hm => h k v (List.mem_cons_of_mem _ hm)⟩

theorem mem_ainsert {k k' : Str} {v v' : Json} {l : List (Str × Json)}
    (h : (k', v') ∈ ainsert k v l) : v' = v ∨ (k', v') ∈ l := by
  induction l with
  | nil => simp only [ainsert, List.mem_singleton, Prod.mk.injEq] at h; exact .inl h.2
  | cons x l ih =>
    obtain ⟨a, b⟩ := x
    unfold ainsert at h
    split at h
    · rcases List.mem_cons.1 h with h | h
      · cases h; exact .inl rfl
      · exact .inr (List.mem_cons_of_mem _ h)
    · rcases List.mem_cons.1 h with h | h
      · cases h; exact .inr (List.mem_cons_self ..)
      · rcases ih h with h | h
        · exact .inl h
        · exact .inr (List.mem_cons_of_mem _ h)

mutual
theorem jmerge_wf (a b : Json) (ha : a.wf = true) (hb : b.wf = true) : (jmerge a b).wf = true := by
  match b, hb with
  | .obj fb, hb =>
    match a, ha with
    | .obj fa, ha =>
      rw [jmerge_obj, Json.wf, Bool.and_eq_true]
      obtain ⟨h1, h2⟩ := wf_obj ha
      obtain ⟨h3, h4⟩ := wf_obj hb
      have := jmergeFields_wf fb fa h1 h2 h4
      exact ⟨by simpa using this.1, this.2⟩
    | .null, _ => rw [jmerge_null]; exact hb
    | .bool _, ha => rw [jmerge_leaf (by intro f h; cases h) (by intro h; cases h)]; exact ha
    | .num _, ha => rw [jmerge_leaf (by intro f h; cases h) (by intro h; cases h)]; exact ha
    | .str _, ha => rw [jmerge_leaf (by intro f h; cases h) (by intro h; cases h)]; exact ha
    | .arr _, ha => rw [jmerge_leaf (by intro f h; cases h) (by intro h; cases h)]; exact ha
  | .null, hb => cases a <;> first | exact ha | exact hb
  | .bool _, hb => cases a <;> first | exact ha | exact hb
  | .num _, hb => cases a <;> first | exact ha | exact hb
  | .str _, hb => cases a <;> first | exact ha | exact hb
  | .arr _, hb => cases a <;> first | exact ha | exact hb
theorem jmergeFields_wf (fb : List (Str × Json)) (fa : List (Str × Json))
    (h1 : (fa.map Prod.fst).Nodup) (h2 : wfFields fa = true) (h3 : wfFields fb = true) :
    ((jmergeFields fa fb).map Prod.fst).Nodup ∧ wfFields (jmergeFields fa fb) = true := by
  match fb, h3 with
  | [], _ => rw [jmergeFields]; exact ⟨h1, h2⟩
  | (k, v) :: l, h3 =>
    rw [wfFields, Bool.and_eq_true] at h3
    rw [jmergeFields]
    refine jmergeFields_wf l _ (ainsert_keys h1).1 (wfFields_iff.2 fun k' v' hm => ?_) h3.2
    rcases mem_ainsert hm with rfl | hm
    · refine jmerge_wf _ v ?_ h3.1
      cases h : alookup k fa with
      | none => rfl
      | some x => exact wfFields_mem h2 (alookup_mem h)
    · exact wfFields_mem h2 hm
end

/-! ## From the value to the entries -/

theorem tsStrings_some {l : List Json} {r : List Str} (h : tsStrings l = some r) :
    l = r.map .str := by
  induction l generalizing r with
  | nil => cases h; rfl
  | cons v l ih =>
    unfold tsStrings at h
    split at h
    · cases h
    · rename_i s hs
      cases ht : tsStrings l with
      | none => rw [ht] at h; cases h
      | some r' =>
        rw [ht] at h
        simp only [Option.map_some, Option.some.injEq] at h
        subst h
        rw [ih ht]
        cases v <;> cases hs
        rfl

theorem ainsert_new {β : Type} {k : Str} {v : β} {l : List (Str × β)}
    (h : k ∉ l.map Prod.fst) : ainsert k v l = l ++ [(k, v)] := by
  induction l with
  | nil => rfl
  | cons x l ih =>
    obtain ⟨a, b⟩ := x
    simp only [List.map_cons, List.mem_cons, not_or] at h
    unfold ainsert
    rw [if_neg (Ne.symm h.1), ih h.2]
    rfl

theorem tsPathsLoop_some {fields : List (Str × Json)} {acc r : List (Str × List Str)}
    (hn : (acc.map Prod.fst ++ fields.map Prod.fst).Nodup)
    (h : tsPathsLoop fields acc = some r) :
    ∃ paths, r = acc ++ paths ∧ fields = paths.map fun kp => (kp.1, .arr (kp.2.map .str)) := by
  induction fields generalizing acc with
  | nil => cases h; exact ⟨[], by simp⟩
  | cons x fields ih =>
    obtain ⟨k, v⟩ := x
    unfold tsPathsLoop at h
    split at h
    · cases h
    · rename_i l hl
      have hk : k ∉ acc.map Prod.fst := by
        rw [List.map_cons, List.nodup_append] at hn
        intro hm
        exact hn.2.2 k hm k (List.mem_cons_self ..) rfl
      rw [ainsert_new hk] at h
      obtain ⟨paths, rfl, rfl⟩ := ih (by simpa using hn) h
      refine ⟨(k, l) :: paths, by simp, ?_⟩
      cases v with
      | arr a =>
        simp only [Json.asArr, Option.bind_some] at hl
        simp [tsStrings_some hl]
      | _ => cases hl

theorem tsInfoOf_entries {location : Str} {json : Json} {ts : TsInfo}
    {entries : List (Str × List Str)} (hw : json.wf = true) (h : tsInfoOf json = some ts)
    (he : createMatchList location ts = some entries) : HasEntries location json entries := by
  unfold createMatchList at he
  split at he
  · cases he
  · rename_i dir hdir
    refine ⟨dir, hdir, ?_⟩
    unfold tsInfoOf at h
    split at h
    · rename_i hc
      cases h
      simp only [Option.some.injEq] at he
      exact .inl ⟨.inl (by simp [Json.at, hc]), he.symm⟩
    · rename_i options hc
      have hb : json.at [cs!"compilerOptions", cs!"baseUrl"] = options.get cs!"baseUrl" := by
        simp only [Json.at, hc, Option.bind_some]
        cases options.get cs!"baseUrl" <;> rfl
      have hp : json.at [cs!"compilerOptions", cs!"paths"] = options.get cs!"paths" := by
        simp only [Json.at, hc, Option.bind_some]
        cases options.get cs!"paths" <;> rfl
      have hwo : options.wf = true := by
        cases json with
        | obj f => exact wfFields_mem (wf_obj hw).2 (alookup_mem hc)
        | _ => cases hc
      simp only at h
      rw [hb, hp]
      cases hbu : options.get cs!"baseUrl" with
      | none =>
        rw [hbu] at h
        simp only at h
        split at h
        · rename_i h1 h2
          cases h1
          cases h
          simp only [Option.some.injEq] at he
          exact .inl ⟨.inl rfl, he.symm⟩
        · cases h
      | some bv =>
        rw [hbu] at h
        simp only at h
        cases bv with
        | str b =>
          simp only [Json.asStr, Option.map_some] at h
          cases hpa : options.get cs!"paths" with
          | none =>
            rw [hpa] at h
            simp only [Option.some.injEq] at h
            cases h
            simp only [Option.some.injEq] at he
            exact .inl ⟨.inr rfl, he.symm⟩
          | some pv =>
            rw [hpa] at h
            cases pv with
            | obj f =>
              simp only [Json.asObj, Option.bind_some] at h
              cases hl : tsPathsLoop f [] with
              | none => rw [hl] at h; cases h
              | some paths =>
                rw [hl] at h
                simp only [Option.map_some, Option.some.injEq] at h
                cases h
                simp only [Option.some.injEq] at he
                have hwf : (Json.obj f).wf = true := by
                  cases options with
                  | obj g => exact wfFields_mem (wf_obj hwo).2 (alookup_mem hpa)
                  | _ => cases hpa
                obtain ⟨paths', h1, rfl⟩ := tsPathsLoop_some (by simpa using (wf_obj hwf).1) hl
                simp only [List.nil_append] at h1
                subst h1
                exact .inr ⟨b, paths, rfl, rfl, he.symm⟩
            | _ => simp [Json.asObj] at h
        | _ => simp [Json.asStr] at h

/-- What `parse_file_to_value` may return. -/
theorem tsValue_returns {c : Ctx} {n : Nat} {loc : Str} {j : Json} (hw : WfDocs c.fs)
    (h : (tsValue c n loc).Returns (.ok j)) : j.wf = true ∧
    ∃ doc json m, c.fs.read loc = some doc ∧ doc.jsonc = .ok (some json) ∧ n = m + 1 ∧
      ((∃ s dir i base, json.get cs!"extends" = some (.str s) ∧ pparent loc = some dir ∧
          (resolveInner c m ⟨dir, parseRequest s⟩).Returns (.success (.info i)) ∧
          (tsValue c m i.getPath).Returns (.ok base) ∧ DeepDefault json base j) ∨
        j = json ∧ ((∀ s, json.get cs!"extends" ≠ some (.str s)) ∨
          ∃ s dir st, json.get cs!"extends" = some (.str s) ∧ pparent loc = some dir ∧
            (resolveInner c m ⟨dir, parseRequest s⟩).Returns st ∧ ∀ r, st ≠ .success r)) := by
  induction n generalizing loc j with
  | zero => cases h
  | succ n ih =>
    unfold tsValue at h
    cases hr : c.fs.read loc with
    | none => rw [hr] at h; cases h
    | some doc =>
      rw [hr] at h
      simp only at h
      cases hj : doc.jsonc with
      | error msg => rw [hj] at h; cases h
      | ok jo =>
        rw [hj] at h
        cases jo with
        | none => cases h
        | some json =>
          have hwf := hw loc doc json hr hj
          simp only at h
          split at h
          · rename_i s hs
            cases hp : pparent loc with
            | none => rw [hp] at h; cases h
            | some dir =>
              rw [hp] at h
              simp only at h
              obtain ⟨st, h1, h2⟩ := Prog.returns_bind h
              cases st with
              | success r =>
                cases r with
                | ignored => simp at h2
                | info i =>
                  simp only at h2
                  obtain ⟨b, h3, h4⟩ := Prog.returns_bind h2
                  cases b with
                  | error err => simp at h4
                  | ok base =>
                    simp only [Prog.returns_ret, Except.ok.injEq] at h4
                    subst h4
                    have hb := (ih h3).1
                    exact ⟨jmerge_wf _ _ hwf hb, doc, json, n, rfl, hj, rfl,
                      .inl ⟨s, dir, i, base, hs, rfl, h1, h3, jmerge_deepDefault hwf hb⟩⟩
              | resolving i =>
                simp only [Prog.returns_ret, Except.ok.injEq] at h2
                subst h2
                exact ⟨hwf, doc, j, n, rfl, hj, rfl,
                  .inr ⟨rfl, .inr ⟨s, dir, _, hs, rfl, h1, fun _ => nofun⟩⟩⟩
              | error er i =>
                simp only [Prog.returns_ret, Except.ok.injEq] at h2
                subst h2
                exact ⟨hwf, doc, j, n, rfl, hj, rfl,
                  .inr ⟨rfl, .inr ⟨s, dir, _, hs, rfl, h1, fun _ => nofun⟩⟩⟩
          · rename_i hne
            simp only [Prog.returns_ret, Except.ok.injEq] at h
            subst h
            exact ⟨hwf, doc, j, n, rfl, hj, rfl, .inr ⟨rfl, .inl fun s hs => hne s hs⟩⟩

/-! ## Star patterns -/

theorem takeBytes_none {s : Str} {n : Nat} : takeBytes s n = none ↔ ¬ Boundary s n := by
  constructor
  · rintro h ⟨a, b, rfl, rfl⟩
    rw [takeBytes_append] at h
    cases h
  · intro h
    cases ht : takeBytes s n with
    | none => rfl
    | some a =>
      obtain ⟨b, h1, h2⟩ := takeBytes_some ht
      exact absurd ⟨a, b, h1, h2⟩ h

theorem dropBytes_none {s : Str} {n : Nat} : dropBytes s n = none ↔ ¬ Boundary s n := by
  constructor
  · rintro h ⟨a, b, rfl, rfl⟩
    rw [dropBytes_append] at h
    cases h
  · intro h
    cases ht : dropBytes s n with
    | none => rfl
    | some b =>
      obtain ⟨a, h1, h2⟩ := dropBytes_some ht
      exact absurd ⟨a, b, h1, h2⟩ h

theorem matchStar_none {pattern search : Str} :
    matchStar pattern search = none ↔ ∃ pre post, pattern = pre ++ '*' :: post ∧ '*' ∉ pre ∧
      utf8Len pattern ≤ utf8Len search ∧ (¬ Boundary search (utf8Len pre) ∨
        pre <+: search ∧ ¬ Boundary search (utf8Len search - utf8Len post)) := by
  have star1 : Char.utf8Size '*' = 1 := by decide
  unfold matchStar
  by_cases hlen : utf8Len search < utf8Len pattern
  · rw [if_pos hlen]
    refine ⟨nofun, fun ⟨_, _, _, _, h, _⟩ => by omega⟩
  rw [if_neg hlen]
  by_cases hp : pattern = cs!"*"
  · rw [if_pos hp]
    refine ⟨nofun, ?_⟩
    rintro ⟨pre, post, h1, h2, -, h3⟩
    rw [hp] at h1
    cases pre with
    | cons c r =>
      obtain ⟨rfl, -⟩ := List.cons.inj h1
      exact absurd (List.mem_cons_self ..) h2
    | nil =>
      obtain ⟨-, rfl⟩ := List.cons.inj h1
      rcases h3 with h | ⟨-, h⟩
      · exact absurd ⟨[], search, rfl, rfl⟩ h
      · exact absurd ⟨search, [], by simp, by simp [utf8Len]⟩ h
  rw [if_neg hp]
  cases hsp : splitFirst '*' pattern with
  | none =>
    dsimp only
    refine ⟨nofun, ?_⟩
    rintro ⟨pre, post, rfl, -⟩
    rw [splitFirst_none] at hsp
    exact absurd (by simp) hsp
  | some ab =>
    obtain ⟨part1, rest⟩ := ab
    obtain ⟨hpat, hns, hhd⟩ := splitFirst_some hsp
    cases rest with
    | nil => cases hhd
    | cons c post =>
      simp only [List.head?_cons, Option.some.injEq] at hhd
      subst hhd
      simp only [List.drop_succ_cons, List.drop_zero]
      have huniq : ∀ pre post', pattern = pre ++ '*' :: post' → '*' ∉ pre → pre = part1 ∧ post' = post := by
        intro pre post' h1 h2
        rw [h1, splitFirst_append h2] at hsp
        simp only [Option.some.injEq, Prod.mk.injEq, List.cons.injEq, true_and] at hsp
        exact hsp
      have hiff : (∃ pre post, pattern = pre ++ '*' :: post ∧ '*' ∉ pre ∧
          utf8Len pattern ≤ utf8Len search ∧ (¬ Boundary search (utf8Len pre) ∨
            pre <+: search ∧ ¬ Boundary search (utf8Len search - utf8Len post))) ↔
          (¬ Boundary search (utf8Len part1) ∨
            part1 <+: search ∧ ¬ Boundary search (utf8Len search - utf8Len post)) := by
        constructor
        · rintro ⟨pre, post', h1, h2, -, h3⟩
          obtain ⟨rfl, rfl⟩ := huniq _ _ h1 h2
          exact h3
        · exact fun h => ⟨part1, post, hpat, hns, by omega, h⟩
      rw [hiff]
      cases ha : takeBytes search (utf8Len part1) with
      | none => exact ⟨fun _ => .inl (takeBytes_none.1 ha), fun _ => rfl⟩
      | some a =>
        dsimp only
        have hb1 : Boundary search (utf8Len part1) := by
          obtain ⟨b, h1, h2⟩ := takeBytes_some ha
          exact ⟨a, b, h1, h2⟩
        by_cases hap : a = part1
        · subst hap
          obtain ⟨s2, hs2, -⟩ := takeBytes_some ha
          rw [if_neg (by simp)]
          cases hb : dropBytes search (utf8Len search - utf8Len post) with
          | none => exact ⟨fun _ => .inr ⟨⟨s2, hs2.symm⟩, dropBytes_none.1 hb⟩, fun _ => rfl⟩
          | some b =>
            dsimp only
            obtain ⟨x, hx, hxl⟩ := dropBytes_some hb
            have hno : ¬ (¬ Boundary search (utf8Len a) ∨
                a <+: search ∧ ¬ Boundary search (utf8Len search - utf8Len post)) := by
              rintro (h | ⟨-, h⟩)
              · exact h hb1
              · exact h ⟨x, b, hx, hxl⟩
            refine ⟨fun h => ?_, fun h => absurd h hno⟩
            exfalso
            by_cases hbp : b = post
            · subst hbp
              rw [if_neg (by simp), hs2, dropBytes_append, Option.bind_some, ← hs2] at h
              split at h
              · rename_i hm
                rw [takeBytes_none] at hm
                refine hm ?_
                -- the text ends with what is after the star
                rw [hpat] at hlen
                simp only [utf8Len_append, utf8Len, star1] at hlen
                have hlen2 : utf8Len search = utf8Len a + utf8Len s2 := by rw [hs2, utf8Len_append]
                obtain ⟨y, hy⟩ : a <+: x := by
                  refine List.prefix_of_prefix_length_le (l₃ := search) ⟨s2, hs2.symm⟩ ⟨b, hx.symm⟩ ?_
                  refine Nat.le_of_not_lt fun hlt => ?_
                  obtain ⟨z, hz⟩ := List.prefix_of_prefix_length_le (l₃ := search) ⟨b, hx.symm⟩ ⟨s2, hs2.symm⟩
                    (Nat.le_of_lt hlt)
                  rw [← hz, utf8Len_append] at hlen
                  have : utf8Len x = utf8Len search - utf8Len b := hxl
                  rw [← hz, utf8Len_append] at hlen2
                  omega
                refine ⟨y, b, ?_, ?_⟩
                · rw [hs2, ← hy, List.append_assoc] at hx
                  exact List.append_cancel_left hx
                · rw [← hy, utf8Len_append] at hxl
                  omega
              · cases h
            · rw [if_pos hbp] at h
              cases h
        · rw [if_pos hap]
          refine ⟨nofun, ?_⟩
          rintro (h | ⟨⟨t, ht⟩, -⟩)
          · exact absurd hb1 h
          · rw [← ht, takeBytes_append] at ha
            exact absurd (Option.some.inj ha).symm hap

theorem matchStar_some {pattern search m : Str} :
    matchStar pattern search = some (some m) ↔
      m ≠ [] ∧ ∃ pre post, pattern = pre ++ '*' :: post ∧ '*' ∉ pre ∧ search = pre ++ m ++ post := by
  have star1 : Char.utf8Size '*' = 1 := by decide
  unfold matchStar
  constructor
  · intro h
    split at h
    · cases h
    · rename_i hlen
      split at h
      · rename_i hp
        subst hp
        simp only [Option.some.injEq] at h
        subst h
        refine ⟨fun hs => ?_, [], [], rfl, List.not_mem_nil, by simp⟩
        subst hs
        simp [utf8Len, star1] at hlen
      · split at h
        · cases h
        · rename_i part1 rest hsp
          obtain ⟨hpat, hns, hhd⟩ := splitFirst_some hsp
          cases rest with
          | nil => cases hhd
          | cons c post =>
            simp only [List.head?_cons, Option.some.injEq] at hhd
            subst hhd
            simp only [List.drop_succ_cons, List.drop_zero] at h
            split at h
            · cases h
            · rename_i a ha
              split at h
              · cases h
              · rename_i hne
                simp only [ne_eq, Decidable.not_not] at hne
                subst hne
                split at h
                · cases h
                · rename_i b hb
                  split at h
                  · cases h
                  · rename_i hne2
                    simp only [ne_eq, Decidable.not_not] at hne2
                    subst hne2
                    split at h
                    · cases h
                    · rename_i m' hm'
                      simp only [Option.some.injEq] at h
                      subst h
                      obtain ⟨s2, hs2, -⟩ := takeBytes_some ha
                      subst hs2
                      rw [dropBytes_append, Option.bind_some] at hm'
                      obtain ⟨s3, hs3, hl3⟩ := takeBytes_some hm'
                      subst hs3
                      obtain ⟨x, hx, hxl⟩ := dropBytes_some hb
                      rw [hpat] at hlen
                      simp only [utf8Len_append, utf8Len, star1] at hlen hl3 hxl
                      obtain ⟨h1, h2⟩ := append_bytes_inj
                        (a := a ++ m') (b := s3) (a' := x) (b' := b)
                        (by rw [List.append_assoc]; exact hx)
                        (by rw [utf8Len_append]; omega)
                      subst h2
                      refine ⟨fun hm => ?_, a, s3, hpat, hns, by simp⟩
                      subst hm
                      simp only [utf8Len] at hlen
                      omega
  · rintro ⟨hm, pre, post, rfl, hns, rfl⟩
    have hpos : 0 < utf8Len m := by
      rcases Nat.eq_zero_or_pos (utf8Len m) with h | h
      · exact (hm (utf8Len_eq_zero.1 h)).elim
      · exact h
    rw [if_neg (by simp only [utf8Len_append, utf8Len, star1]; omega)]
    split
    · rename_i hp
      cases pre with
      | nil =>
        simp only [List.nil_append, List.cons.injEq, true_and] at hp
        subst hp
        simp
      | cons c pre =>
        simp only [List.cons_append, List.cons.injEq] at hp
        simp at hp
    · rw [splitFirst_append hns]
      simp only [List.drop_succ_cons, List.drop_zero]
      rw [List.append_assoc, takeBytes_append]
      simp only [ne_eq, not_true_eq_false, if_false]
      rw [show utf8Len (pre ++ (m ++ post)) - utf8Len post = utf8Len (pre ++ m) by
        simp only [utf8Len_append]; omega]
      rw [← List.append_assoc, dropBytes_append]
      simp only [not_true_eq_false, if_false]
      rw [List.append_assoc, dropBytes_append, Option.bind_some,
        show utf8Len (pre ++ m) - utf8Len pre = utf8Len m by simp only [utf8Len_append]; omega,
        takeBytes_append]

/-- On ASCII targets matching does not panic. -/
theorem matchStar_ascii {pattern search : Str} (hs : AsciiStr search) :
    (matchStar pattern search).isSome = true := by
  unfold matchStar
  split
  · rfl
  · rename_i hlen
    split
    · rfl
    · split
      · rfl
      · rename_i part1 rest hsp
        obtain ⟨hpat, hns, hhd⟩ := splitFirst_some hsp
        cases rest with
        | nil => cases hhd
        | cons c post =>
          simp only [List.drop_succ_cons, List.drop_zero]
          rw [hpat] at hlen
          have := utf8Size_pos c
          simp only [utf8Len_append, utf8Len] at hlen
          rw [utf8Len_ascii hs] at hlen ⊢
          rw [takeBytes_ascii hs (by omega)]
          simp only
          split
          · rfl
          · rw [dropBytes_ascii hs (by omega)]
            simp only
            split
            · rfl
            · rw [dropBytes_ascii hs (by omega), Option.bind_some, takeBytes_ascii
                (fun c hc => hs c (List.mem_of_mem_drop hc)) (by rw [List.length_drop]; omega)]
              rfl

/-- The match of `_resolve_with_tsconfig`. -/
theorem star_spec {pattern target : Str} {o : Option Str}
    (h : (if pattern = target then some (some []) else matchStar pattern target) = some o) :
    (∀ m, o = some m → StarMatch pattern target m) ∧
    (o = none → ∀ m, ¬ StarMatch pattern target m) := by
  split at h
  · rename_i he
    cases h
    exact ⟨fun m hm => .inl ⟨he, (by cases hm; rfl)⟩, nofun⟩
  · rename_i hne
    constructor
    · rintro m rfl
      obtain ⟨h1, h2⟩ := matchStar_some.1 h
      exact .inr ⟨hne, h1, h2⟩
    · rintro rfl m (hm | ⟨-, h1, h2⟩)
      · exact hne hm.1
      · rw [matchStar_some.2 ⟨h1, h2⟩] at h
        cases h

theorem tsPathsTry_returns {rec : Info → Prog Stats} {star : Str} {next : Prog Stats}
    {l : List Str} {s : Stats} (h : (tsPathsTry rec star next l).Returns s) :
    (∃ r, s = .success r ∧ PathsTried (fun p s => (rec ⟨p, Request.empty⟩).Returns s)
      (l.map fun p => replaceChar p '*' star) (some r)) ∨
    (PathsTried (fun p s => (rec ⟨p, Request.empty⟩).Returns s)
      (l.map fun p => replaceChar p '*' star) none ∧ next.Returns s) := by
  induction l with
  | nil => exact .inr ⟨.nil, h⟩
  | cons p l ih =>
    unfold tsPathsTry at h
    obtain ⟨a, h1, h2⟩ := Prog.returns_bind h
    cases a with
    | success r =>
      simp only [Prog.returns_ret] at h2
      exact .inl ⟨r, h2, .hit h1⟩
    | resolving i =>
      rcases ih h2 with ⟨r, h3, h4⟩ | ⟨h3, h4⟩
      · exact .inl ⟨r, h3, .miss h1 (fun _ => nofun) h4⟩
      · exact .inr ⟨.miss h1 (fun _ => nofun) h3, h4⟩
    | error er i =>
      rcases ih h2 with ⟨r, h3, h4⟩ | ⟨h3, h4⟩
      · exact .inl ⟨r, h3, .miss h1 (fun _ => nofun) h4⟩
      · exact .inr ⟨.miss h1 (fun _ => nofun) h3, h4⟩

theorem tsEntries_returns {rec : Info → Prog Stats} {info : Info} {l : List (Str × List Str)}
    {s : Stats} (h : (tsEntries rec info l).Returns s) :
    (∃ r, s = .success r ∧ EntriesTried (fun p s => (rec ⟨p, Request.empty⟩).Returns s)
      info.request.target l (some r)) ∨
    (EntriesTried (fun p s => (rec ⟨p, Request.empty⟩).Returns s)
      info.request.target l none ∧ (rec info).Returns s) := by
  induction l with
  | nil => exact .inr ⟨.nil, h⟩
  | cons x l ih =>
    obtain ⟨pattern, paths⟩ := x
    unfold tsEntries at h
    simp only at h
    split at h
    · cases h
    · rename_i hst
      have h0 := (star_spec hst).2 rfl
      rcases ih h with ⟨r, h1, h2⟩ | ⟨h1, h2⟩
      · exact .inl ⟨r, h1, .other h0 h2⟩
      · exact .inr ⟨.other h0 h1, h2⟩
    · rename_i m hst
      have h0 := (star_spec hst).1 m rfl
      rcases tsPathsTry_returns h with ⟨r, h1, h2⟩ | ⟨h1, h2⟩
      · exact .inl ⟨r, h1, .hit h0 h2⟩
      · rcases ih h2 with ⟨r, h3, h4⟩ | ⟨h3, h4⟩
        · exact .inl ⟨r, h3, .miss h0 h1 h4⟩
        · exact .inr ⟨.miss h0 h1 h3, h4⟩

theorem getElem_cons_eraseIdx_perm {α : Type} {l : List α} {i : Nat} (h : i < l.length) :
    (l[i] :: l.eraseIdx i).Perm l := by
  induction l generalizing i with
  | nil => exact absurd h (Nat.not_lt_zero _)
  | cons x l ih =>
    cases i with
    | zero => exact .refl _
    | succ i =>
      simp only [List.getElem_cons_succ, List.eraseIdx_cons_succ]
      exact (List.Perm.swap ..).trans ((ih (by simpa using h)).cons x)

theorem permuteAux_perm {α : Type} (n seed : Nat) (l : List α) (h : n = l.length) :
    (permuteAux n seed l).Perm l := by
  induction n generalizing seed l with
  | zero =>
    cases l with
    | nil => exact .nil
    | cons x l => cases h
  | succ n ih =>
    unfold permuteAux
    have hlt : seed % l.length < l.length := Nat.mod_lt _ (by omega)
    rw [List.getElem?_eq_getElem hlt]
    simp only
    refine List.Perm.trans (List.Perm.cons _ (ih _ _ ?_)) (getElem_cons_eraseIdx_perm hlt)
    rw [List.length_eraseIdx, if_pos hlt]
    omega

theorem permute_perm {α : Type} (seed : Nat) (l : List α) : (permute seed l).Perm l :=
  permuteAux_perm _ seed l rfl

theorem permuteAux_surj {α : Type} {l m : List α} (h : m.Perm l) :
    ∃ seed, permuteAux l.length seed l = m := by
  induction m generalizing l with
  | nil =>
    have := h.nil_eq
    subst this
    exact ⟨0, rfl⟩
  | cons x m ih =>
    have hx : x ∈ l := h.subset (List.mem_cons_self ..)
    obtain ⟨i, hi, rfl⟩ := List.getElem_of_mem hx
    have hp : m.Perm (l.eraseIdx i) :=
      List.Perm.cons_inv (h.trans (getElem_cons_eraseIdx_perm hi).symm)
    obtain ⟨seed, hs⟩ := ih hp
    refine ⟨i + l.length * seed, ?_⟩
    have hl : l.length = (l.eraseIdx i).length + 1 := by
      rw [List.length_eraseIdx, if_pos hi]; omega
    have h1 : (i + l.length * seed) % l.length = i := by
      rw [Nat.add_mul_mod_self_left, Nat.mod_eq_of_lt hi]
    have h2 : (i + l.length * seed) / l.length = seed := by
      rw [Nat.add_mul_div_left _ _ (by omega), Nat.div_eq_of_lt hi, Nat.zero_add]
    have step : ∀ n s, n = l.length → s % l.length = i → s / l.length = seed →
        permuteAux n s l = l[i] :: m := by
      intro n s hn hs1 hs2
      cases n with
      | zero => omega
      | succ k =>
        unfold permuteAux
        rw [hs1, hs2, List.getElem?_eq_getElem hi]
        simp only
        rw [← hs, show k = (l.eraseIdx i).length by omega]
    exact step _ _ rfl h1 h2

/-- Every iteration order is selected by some seed. -/
theorem permute_surj {α : Type} {l m : List α} (h : m.Perm l) : ∃ seed, permute seed l = m :=
  permuteAux_surj h

end Verif
