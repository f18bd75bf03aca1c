import Verif.Spec.TypeScript
import Verif.Proofs.Tsconfig
import Verif.Proofs.Maps
/-!
# Lemmas for C78
-/

namespace Verif

theorem get_jmerge {fa : List (Str × Json)} {base : Json} (hw : base.wf = true) (k : Str) :
    (jmerge (.obj fa) base).get k = match base.get k with
      | none => alookup k fa
      | some v => some (jmerge ((alookup k fa).getD .null) v) := by
  cases base with
  | obj fb =>
    rw [jmerge_obj]
    exact alookup_jmergeFields (wf_obj hw).1 fa k
  | _ =>
    rw [jmerge_obj_leaf (fun _ h => by cases h)]
    rfl

/-- A value that has the options of a chain. -/
structure MergedAs (chain : List TsOwn) (j : Json) : Prop where
  options : j.at [cs!"compilerOptions"] = none ∨ ∃ o, j.at [cs!"compilerOptions"] = some (.obj o)
  baseUrl : j.at [cs!"compilerOptions", cs!"baseUrl"] = (firstSome TsOwn.baseUrl chain).map .str
  paths : (chain.filter fun f => f.paths.isSome).length ≤ 1 →
    j.at [cs!"compilerOptions", cs!"paths"] = (firstSome TsOwn.paths chain).map pathsJson

theorem at_two (j : Json) (a b : Str) : j.at [a, b] = (j.get a).bind (·.get b) := by
  cases h : j.get a with
  | none => simp [Json.at, h]
  | some x =>
    cases h2 : x.get b <;> simp [Json.at, h, h2]

theorem at_one (j : Json) (a : Str) : j.at [a] = j.get a := by
  cases h : j.get a <;> simp [Json.at, h]

theorem get_wf {j x : Json} {k : Str} (hw : j.wf = true) (h : j.get k = some x) : x.wf = true := by
  cases j with
  | obj l => exact wfFields_mem (wf_obj hw).2 (alookup_mem h)
  | _ => cases h

/-- Merging one more file. -/
theorem mergedAs_cons {f : TsOwn} {l : List TsOwn} {fa : List (Str × Json)} {base : Json}
    (hf : f.Of (.obj fa)) (hb : MergedAs l base) (hw : base.wf = true) :
    MergedAs (f :: l) (jmerge (.obj fa) base) := by
  obtain ⟨f1, f2, f3⟩ := hf
  obtain ⟨b1, b2, b3⟩ := hb
  rw [at_one] at f1 b1
  rw [at_two] at f2 f3 b2
  simp only [at_two] at b3
  have hg := get_jmerge (fa := fa) hw cs!"compilerOptions"
  have hget : (Json.obj fa).get cs!"compilerOptions" = alookup cs!"compilerOptions" fa := rfl
  rw [hget] at f1 f2 f3
  have key : ∀ k, ((jmerge (.obj fa) base).get cs!"compilerOptions").bind (·.get k) =
      match (base.get cs!"compilerOptions").bind (·.get k) with
      | none => (alookup cs!"compilerOptions" fa).bind (·.get k)
      | some v => some (jmerge (((alookup cs!"compilerOptions" fa).bind (·.get k)).getD .null) v) := by
    intro k
    rw [hg]
    rcases b1 with b1 | ⟨ob, b1⟩
    · rw [b1]; rfl
    · have hwo := get_wf hw b1
      rw [b1]
      rcases f1 with f1 | ⟨oa, f1⟩
      · rw [f1]
        simp only [Option.getD_none, jmerge_null, Option.bind_some, Option.bind_none]
        cases Json.get (.obj ob) k <;> rfl
      · rw [f1]
        simp only [Option.getD_some, Option.bind_some]
        rw [get_jmerge hwo k]
        cases Json.get (.obj ob) k <;> rfl
  refine ⟨?_, ?_, fun h1 => ?_⟩
  · rw [at_one, hg]
    rcases b1 with b1 | ⟨ob, b1⟩
    · rw [b1]; exact f1
    · rw [b1]
      rcases f1 with f1 | ⟨oa, f1⟩
      · rw [f1]; exact .inr ⟨ob, by simp [jmerge_null]⟩
      · rw [f1]; exact .inr ⟨jmergeFields oa ob, by simp only [Option.getD_some, jmerge_obj]⟩
  · rw [at_two, key, b2, f2]
    cases hfb : f.baseUrl with
    | none =>
      simp only [firstSome, hfb]
      cases firstSome TsOwn.baseUrl l with
      | none => rfl
      | some b => simp [jmerge_null]
    | some b =>
      simp only [firstSome, hfb]
      cases firstSome TsOwn.baseUrl l with
      | none => rfl
      | some b' =>
        simp only [Option.map_some, Option.getD_some]
        rw [jmerge_leaf (fun _ h => by cases h) (by intro h; cases h)]
  · rw [at_two, key, f3]
    cases hfp : f.paths with
    | none =>
      have : (l.filter fun f => f.paths.isSome).length ≤ 1 := by simpa [hfp] using h1
      rw [b3 this]
      simp only [firstSome, hfp]
      cases firstSome TsOwn.paths l with
      | none => rfl
      | some b => simp [jmerge_null]
    | some p =>
      have h2 : l.filter (fun f => f.paths.isSome) = [] := by
        have : (l.filter fun f => f.paths.isSome).length + 1 ≤ 1 := by simpa [hfp] using h1
        exact List.length_eq_zero_iff.1 (by omega)
      rw [b3 (by rw [h2]; exact Nat.zero_le _)]
      have h3 : firstSome TsOwn.paths l = none := by
        clear h1 b2 b3
        induction l with
        | nil => rfl
        | cons x l ih =>
          rw [List.filter_cons] at h2
          split at h2
          · cases h2
          · rename_i hx
            have : x.paths = none := by simpa using hx
            rw [firstSome, this]
            exact ih h2
      simp only [firstSome, hfp, h3, Option.map_none]

/-- What the code makes of the files is what the chain says. -/
theorem tsValue_chain {c : Ctx} (hw : WfDocs c.fs) (hs : TsSound c.fs) {n : Nat} {loc : Str} {j : Json}
    (h : (tsValue c n loc).Returns (.ok j)) :
    j.wf = true ∧ (TsLost c.fs (extBy c) loc ∨
      ∃ chain, TsChain c.fs (extFile c) loc chain ∧ MergedAs chain j) := by
  induction n generalizing loc j with
  | zero => cases h
  | succ n ih =>
    unfold tsValue at h
    cases hr : c.fs.read loc with
    | none => rw [hr] at h; cases h
    | some doc =>
      rw [hr] at h
      simp only at h
      cases hj : doc.jsonc with
      | error msg => rw [hj] at h; cases h
      | ok jo =>
        rw [hj] at h
        cases jo with
        | none => cases h
        | some json =>
          have hwf := hw loc doc json hr hj
          obtain ⟨hx, f0, hf0⟩ := hs loc doc json hr hj
          have hf : TsOwn.Of ⟨dirOf loc, f0.baseUrl, f0.paths⟩ json := ⟨hf0.options, hf0.baseUrl, hf0.paths⟩
          rw [at_one] at hx
          simp only at h
          split at h
          · rename_i s hs'
            cases hp : pparent loc with
            | none => rw [hp] at h; cases h
            | some dir =>
              have hdir : dirOf loc = dir := by rw [dirOf, hp]; rfl
              have hat : json.at [cs!"extends"] = some (.str s) := by rw [at_one, hs']
              rw [hp] at h
              simp only at h
              obtain ⟨st, h1, h2⟩ := Prog.returns_bind h
              have hext : extBy c (dirOf loc) s st := ⟨n, by rw [hdir]; exact h1⟩
              cases st with
              | success r =>
                cases r with
                | ignored => simp at h2
                | info i =>
                  simp only at h2
                  obtain ⟨b, h3, h4⟩ := Prog.returns_bind h2
                  cases b with
                  | error err => simp at h4
                  | ok base =>
                    simp only [Prog.returns_ret, Except.ok.injEq] at h4
                    subst h4
                    obtain ⟨hb, h5⟩ := ih h3
                    refine ⟨jmerge_wf _ _ hwf hb, ?_⟩
                    rcases h5 with h5 | ⟨chain, h5, h6⟩
                    · exact .inl (.there hr hj hat hext h5)
                    · refine .inr ⟨_, .more hr hj hat rfl hf ⟨i, hext, rfl⟩ h5, ?_⟩
                      cases json with
                      | obj fa => exact mergedAs_cons hf h6 hb
                      | _ => cases hs'
              | resolving i =>
                simp only [Prog.returns_ret, Except.ok.injEq] at h2
                subst h2
                exact ⟨hwf, .inl (.here hr hj hat hext fun _ => nofun)⟩
              | error er i =>
                simp only [Prog.returns_ret, Except.ok.injEq] at h2
                subst h2
                exact ⟨hwf, .inl (.here hr hj hat hext fun _ => nofun)⟩
          · rename_i hne
            simp only [Prog.returns_ret, Except.ok.injEq] at h
            subst h
            have hat : j.at [cs!"extends"] = none := by
              rw [at_one]
              rcases hx with hx | ⟨s, hx⟩
              · exact hx
              · exact absurd hx (hne s)
            refine ⟨hwf, .inr ⟨_, .last hr hj hat rfl hf, hf.options, ?_, fun _ => ?_⟩⟩
            · rw [hf.baseUrl]
              cases f0.baseUrl <;> simp [firstSome]
            · rw [hf.paths]
              cases f0.paths <;> simp [firstSome]

/-! ## Patterns -/

theorem pattern_split {pattern : Str} (h : '*' ∈ pattern) :
    pattern = pattern.takeWhile (· ≠ '*') ++ '*' :: (pattern.dropWhile (· ≠ '*')).drop 1 ∧
      '*' ∉ pattern.takeWhile (· ≠ '*') := by
  induction pattern with
  | nil => cases h
  | cons c l ih =>
    by_cases hc : c = '*'
    · subst hc
      simp
    · obtain ⟨h1, h2⟩ := ih (by
        rcases List.mem_cons.1 h with h | h
        · exact absurd h.symm hc
        · exact h)
      have hd : decide (c ≠ '*') = true := by simpa using hc
      rw [List.takeWhile_cons, if_pos hd, List.dropWhile_cons, if_pos hd]
      refine ⟨by rw [List.cons_append, ← h1], ?_⟩
      intro hm
      rcases List.mem_cons.1 hm with hm | hm
      · exact hc hm.symm
      · exact h2 hm

theorem split_unique {pre post pre' post' : Str} (h : pre ++ '*' :: post = pre' ++ '*' :: post')
    (h1 : '*' ∉ pre) (h2 : '*' ∉ pre') : pre = pre' ∧ post = post' := by
  induction pre generalizing pre' with
  | nil =>
    cases pre' with
    | nil => exact ⟨rfl, by simpa using h⟩
    | cons c l =>
      simp only [List.nil_append, List.cons_append, List.cons.injEq] at h
      exact absurd (h.1 ▸ List.mem_cons_self ..) h2
  | cons c l ih =>
    cases pre' with
    | nil =>
      simp only [List.nil_append, List.cons_append, List.cons.injEq] at h
      exact absurd (h.1 ▸ List.mem_cons_self ..) h1
    | cons c' l' =>
      simp only [List.cons_append, List.cons.injEq] at h
      obtain ⟨h3, h4⟩ := ih h.2 (fun hm => h1 (List.mem_cons_of_mem _ hm))
        (fun hm => h2 (List.mem_cons_of_mem _ hm))
      exact ⟨by rw [h.1, h3], h4⟩

theorem tsCapture_some {pattern name m : Str} :
    tsCapture pattern name = some m ↔
      name = pattern.takeWhile (· ≠ '*') ++ m ++ (pattern.dropWhile (· ≠ '*')).drop 1 := by
  unfold tsCapture
  generalize pattern.takeWhile (· ≠ '*') = pre
  generalize (pattern.dropWhile (· ≠ '*')).drop 1 = post
  simp only []
  constructor
  · intro h
    split at h
    · rename_i hc
      simp only [Bool.and_eq_true, List.isPrefixOf_iff_prefix, List.isSuffixOf_iff_suffix,
        decide_eq_true_eq] at hc
      obtain ⟨⟨⟨t, rfl⟩, h2⟩, h3⟩ := hc
      rw [List.length_append] at h3
      have h4 : post <:+ t := by
        obtain ⟨u, hu⟩ := h2
        obtain ⟨v, hv, hv'⟩ | ⟨v, hv, hv'⟩ := List.append_eq_append_iff.1 hu
        · have : v = [] := by
            have := congrArg List.length hv'
            rw [List.length_append] at this
            exact List.length_eq_zero_iff.1 (by omega)
          subst this
          exact ⟨[], by simpa using hv'⟩
        · exact ⟨v, hv'.symm⟩
      obtain ⟨v, rfl⟩ := h4
      simp only [List.length_append, List.drop_left, Option.some.injEq] at h
      have : pre.length + (v.length + post.length) - pre.length - post.length = v.length := by omega
      rw [this, List.take_left] at h
      subst h
      simp
    · cases h
  · rintro rfl
    rw [if_pos]
    · have : (pre ++ m ++ post).length - pre.length - post.length = m.length := by
        simp only [List.length_append]; omega
      rw [this, List.append_assoc, List.drop_left, List.take_left]
    · simp only [Bool.and_eq_true, List.isPrefixOf_iff_prefix, List.isSuffixOf_iff_suffix,
        decide_eq_true_eq]
      refine ⟨⟨⟨m ++ post, by simp⟩, ⟨pre ++ m, rfl⟩⟩, ?_⟩
      simp only [List.length_append]
      omega

/-- What the code and TypeScript say about a pattern. -/
theorem starMatch_iff {pattern name m : Str} (hn : '*' ∉ name) :
    StarMatch pattern name m ↔
      if pattern.contains '*' then tsCapture pattern name = some m ∧ m ≠ [] else pattern = name ∧ m = [] := by
  by_cases h : '*' ∈ pattern
  · rw [if_pos (by simpa using h)]
    obtain ⟨h1, h2⟩ := pattern_split h
    constructor
    · rintro (⟨rfl, rfl⟩ | ⟨h3, h4, pre, post, h5, h6, h7⟩)
      · exact absurd h hn
      · rw [h1] at h5
        obtain ⟨rfl, rfl⟩ := split_unique h5 h2 h6
        exact ⟨tsCapture_some.2 h7, h4⟩
    · rintro ⟨h3, h4⟩
      refine .inr ⟨fun e => hn (e ▸ h), h4, _, _, h1, h2, tsCapture_some.1 h3⟩
  · rw [if_neg (by simpa using h)]
    constructor
    · rintro (h1 | ⟨h3, h4, pre, post, h5, h6, h7⟩)
      · exact h1
      · exact absurd (by rw [h5]; simp) h
    · exact .inl

theorem starMatch_fits {pattern name : Str} (hn : '*' ∉ name)
    (hf : pattern.contains '*' → tsCapture pattern name ≠ some []) :
    tsFits pattern name = true ↔ ∃ m, StarMatch pattern name m := by
  simp only [starMatch_iff hn, tsFits]
  by_cases h : '*' ∈ pattern
  · have hc : pattern.contains '*' = true := by simpa using h
    simp only [if_pos hc, Option.isSome_iff_exists]
    constructor
    · rintro ⟨m, hm⟩
      exact ⟨m, hm, fun e => hf hc (e ▸ hm)⟩
    · rintro ⟨m, hm, -⟩
      exact ⟨m, hm⟩
  · have hc : ¬ (pattern.contains '*' = true) := by simpa using h
    simp only [if_neg hc, decide_eq_true_eq]
    exact ⟨fun e => ⟨[], e, rfl⟩, fun ⟨_, e, _⟩ => e⟩

/-! ## Entries -/

theorem entriesTried_none {res : Str → Stats → Prop} {name : Str} {l : List (Str × List Str)}
    {o : Option Result} (h : EntriesTried res name l o) (hl : ∀ e ∈ l, ∀ m, ¬ StarMatch e.1 name m) :
    o = none := by
  induction h with
  | nil => rfl
  | other _ _ ih => exact ih fun e he => hl e (List.mem_cons_of_mem _ he)
  | hit h1 => exact absurd h1 (hl _ (List.mem_cons_self ..) _)
  | miss h1 => exact absurd h1 (hl _ (List.mem_cons_self ..) _)

theorem starMatch_unique {pattern name m m' : Str} (hn : '*' ∉ name) (h : StarMatch pattern name m)
    (h' : StarMatch pattern name m') : m = m' := by
  rw [starMatch_iff hn] at h h'
  split at h
  · rw [if_pos ‹_›, h.1] at h'
    exact Option.some.inj h'.1
  · rw [if_neg ‹_›] at h'
    rw [h.2, h'.2]

theorem entriesTried_one {res : Str → Stats → Prop} {name : Str} (hn : '*' ∉ name)
    {l : List (Str × List Str)} {o : Option Result} (h : EntriesTried res name l o)
    (P : Str × List Str → Bool) (hP : ∀ e ∈ l, P e = true ↔ ∃ m, StarMatch e.1 name m)
    {e : Str × List Str} (hf : l.filter P = [e]) {m : Str} (hm : StarMatch e.1 name m) :
    PathsTried res (e.2.map fun p => replaceChar p '*' m) o := by
  have hrest : ∀ {x : Str × List Str} {l : List (Str × List Str)}, (x :: l).filter P = [e] → P x = true →
      (∀ e ∈ x :: l, P e = true ↔ ∃ m, StarMatch e.1 name m) →
      x = e ∧ ∀ e ∈ l, ∀ m, ¬ StarMatch e.1 name m := by
    intro x l hf hx hP
    rw [List.filter_cons, if_pos hx] at hf
    injection hf with h1 h2
    refine ⟨h1, fun e he m hm => ?_⟩
    have := (List.filter_eq_nil_iff.1 h2) e he
    exact this ((hP e (List.mem_cons_of_mem _ he)).2 ⟨m, hm⟩)
  induction h with
  | nil => cases hf
  | other h1 _ ih =>
    refine ih (fun e he => hP e (List.mem_cons_of_mem _ he)) ?_
    rw [List.filter_cons, if_neg] at hf
    · exact hf
    · intro hx
      obtain ⟨m, hm⟩ := (hP _ (List.mem_cons_self ..)).1 hx
      exact h1 m hm
  | hit h1 h2 =>
    obtain ⟨rfl, -⟩ := hrest hf ((hP _ (List.mem_cons_self ..)).2 ⟨_, h1⟩) hP
    cases starMatch_unique hn h1 hm
    exact h2
  | miss h1 h2 h3 =>
    obtain ⟨rfl, h4⟩ := hrest hf ((hP _ (List.mem_cons_self ..)).2 ⟨_, h1⟩) hP
    cases starMatch_unique hn h1 hm
    rw [entriesTried_none h3 h4]
    exact h2

theorem tsChosen_none {paths : List (Str × List Str)} {name : Str}
    (h : paths.filter (fun kp => tsFits kp.1 name) = []) : tsChosen paths name = none := by
  rw [List.filter_eq_nil_iff] at h
  unfold tsChosen
  have h1 : paths.find? (fun kp => !kp.1.contains '*' && decide (kp.1 = name)) = none := by
    rw [List.find?_eq_none]
    intro kp hkp hc
    simp only [Bool.and_eq_true, Bool.not_eq_true', decide_eq_true_eq] at hc
    apply h kp hkp
    rw [tsFits, if_neg (by simp only [hc.1]; decide)]
    simpa using hc.2
  have h2 : paths.filter (fun kp => kp.1.contains '*' && tsFits kp.1 name) = [] := by
    rw [List.filter_eq_nil_iff]
    intro kp hkp hc
    exact h kp hkp (Bool.and_eq_true _ _ ▸ hc).2
  rw [h1, h2]
  rfl

theorem tsChosen_one {paths : List (Str × List Str)} {name : Str} {kp : Str × List Str}
    (h : paths.filter (fun kp => tsFits kp.1 name) = [kp]) : tsChosen paths name = some kp := by
  have hmem : kp ∈ paths ∧ tsFits kp.1 name = true := List.mem_filter.1 (h ▸ List.mem_singleton.2 rfl)
  have hone : ∀ x ∈ paths, tsFits x.1 name = true → x = kp := fun x hx hf =>
    List.mem_singleton.1 (h ▸ List.mem_filter.2 ⟨hx, hf⟩)
  have hexact : ∀ x : Str × List Str, (!x.1.contains '*' && decide (x.1 = name)) = true →
      tsFits x.1 name = true := by
    intro x hc
    simp only [Bool.and_eq_true, Bool.not_eq_true', decide_eq_true_eq] at hc
    rw [tsFits, if_neg (by simp only [hc.1]; decide)]
    simpa using hc.2
  unfold tsChosen
  cases hf : paths.find? (fun kp => !kp.1.contains '*' && decide (kp.1 = name)) with
  | some x =>
    have h1 := List.find?_some hf
    rw [hone x (List.mem_of_find?_eq_some hf) (hexact x h1)]
  | none =>
    have hstar : kp.1.contains '*' = true := by
      cases hs : kp.1.contains '*' with
      | true => rfl
      | false =>
        rw [List.find?_eq_none] at hf
        have h2 := hmem.2
        rw [tsFits, hs] at h2
        exact absurd (by rw [hs]; simpa using h2) (hf kp hmem.1)
    have : paths.filter (fun kp => kp.1.contains '*' && tsFits kp.1 name) = [kp] := by
      rw [← List.filter_filter, h]
      simp only [List.filter_cons, hstar, if_true, List.filter_nil]
    rw [this]
    rfl

theorem replaceChar_subst {s m : Str} (h : s.count '*' ≤ 1) : replaceChar s '*' m = tsSubst s m := by
  induction s with
  | nil => rfl
  | cons c s ih =>
    by_cases hc : c = '*'
    · subst hc
      have : '*' ∉ s := by
        rw [List.count_cons_self] at h
        exact List.count_eq_zero.1 (by omega)
      have h1 := replaceChar_of_not_mem this m
      unfold replaceChar at h1 ⊢
      simp only [List.flatMap_cons, if_true, tsSubst, h1]
    · have h1 : s.count '*' ≤ 1 := by
        rw [List.count_cons_of_ne (by simpa using hc)] at h
        exact h
      have h2 := ih h1
      unfold replaceChar at h2 ⊢
      simp only [List.flatMap_cons, if_neg hc, tsSubst, h2]
      rfl

theorem replaceChar_app (a b : Str) (c : Char) (to : Str) :
    replaceChar (a ++ b) c to = replaceChar a c to ++ replaceChar b c to := by
  unfold replaceChar
  rw [List.flatMap_append]

theorem replace_pjoin {base s m : Str} (hb : '*' ∉ base) (hs : s.head? ≠ some '*') (hc : s.count '*' ≤ 1) :
    replaceChar (pjoin base s) '*' m = pjoin base (tsSubst s m) := by
  have h0 := replaceChar_subst (m := m) hc
  have habs : isAbs (tsSubst s m) = isAbs s := by
    cases s with
    | nil => rfl
    | cons c s =>
      have : c ≠ '*' := fun e => hs (by rw [e]; rfl)
      simp only [tsSubst, if_neg this]
      unfold isAbs
      rfl
  unfold pjoin
  rw [habs]
  split
  · exact h0
  · split
    · rw [replaceChar_app, h0, replaceChar_of_not_mem hb]
    · rw [replaceChar_app, replaceChar_of_not_mem hb]
      have : replaceChar ('/' :: s) '*' m = '/' :: replaceChar s '*' m := rfl
      rw [this, h0]

/-- The paths that the code tries are those of TypeScript. -/
theorem tried_targets {res : Str → Stats → Prop} {chain : List TsOwn} {name base : Str}
    {paths : List (Str × List Str)} (hc : TsCommon chain name) (he : tsPathsOf chain = some (base, paths))
    {order : List (Str × List Str)} (hp : order.Perm (paths.map fun kp => (kp.1, kp.2.map (pjoin base))))
    {o : Option Result} (h : EntriesTried res name order o) : PathsTried res (tsWanted chain name) o := by
  have hn := hc.named.2
  have hP : ∀ e ∈ order, tsFits e.1 name = true ↔ ∃ m, StarMatch e.1 name m := by
    intro e he'
    obtain ⟨kp, hkp, rfl⟩ := List.mem_map.1 (hp.mem_iff.1 he')
    exact starMatch_fits hn (hc.full base paths kp he hkp)
  have hfilter : (order.filter fun e => tsFits e.1 name).Perm
      ((paths.filter fun kp => tsFits kp.1 name).map fun kp => (kp.1, kp.2.map (pjoin base))) := by
    refine (hp.filter _).trans (.of_eq ?_)
    rw [List.filter_map]
    rfl
  have hu := hc.unique base paths he
  unfold tsWanted
  rw [if_neg (by simp [hc.named.1]), he]
  simp only
  cases hf : paths.filter fun kp => tsFits kp.1 name with
  | nil =>
    rw [tsChosen_none hf]
    rw [hf] at hfilter
    have h1 := hfilter.eq_nil
    rw [List.filter_eq_nil_iff] at h1
    rw [entriesTried_none h fun e he' m hm => h1 e he' ((hP e he').2 ⟨m, hm⟩)]
    exact .nil
  | cons kp l =>
    cases l with
    | cons _ _ =>
      rw [hf] at hu
      simp only [List.length_cons] at hu
      omega
    | nil =>
      rw [tsChosen_one hf]
      rw [hf] at hfilter
      have h1 := List.perm_singleton.1 hfilter
      have hkp : kp ∈ paths ∧ tsFits kp.1 name = true := List.mem_filter.1 (hf ▸ List.mem_singleton.2 rfl)
      obtain ⟨m, hm⟩ := (starMatch_fits hn (hc.full base paths kp he hkp.1)).1 hkp.2
      have h2 := entriesTried_one hn h (fun e => tsFits e.1 name) hP h1 (m := m) hm
      obtain ⟨pattern, substs⟩ := kp
      simp only [List.map_map] at h2 ⊢
      have hb := (hc.base base paths he).1
      have : substs.map ((fun p => replaceChar p '*' m) ∘ pjoin base) = substs.map fun s => pjoin base
          (if pattern.contains '*' = true then tsSubst s ((tsCapture pattern name).getD []) else s) := by
        apply List.map_congr_left
        intro s hs
        obtain ⟨h3, h4⟩ := hc.stars base paths _ s he hkp.1 hs
        rw [starMatch_iff hn] at hm
        simp only [Function.comp]
        simp only at h4 hm
        split at h4
        · rename_i hst
          rw [if_pos hst] at hm ⊢
          rw [hm.1]
          exact replace_pjoin hb h3 h4
        · rename_i hst
          rw [if_neg hst]
          have h5 : '*' ∉ s := List.count_eq_zero.1 (by omega)
          apply replaceChar_of_not_mem
          unfold pjoin
          split
          · exact h5
          · split
            · simp [hb, h5]
            · simp [hb, h5]
      rw [← this]
      exact h2

theorem firstSome_map {α β γ : Type} (f : α → Option β) (g : α → β → γ) (l : List α) :
    (firstSome (fun x => (f x).map (g x)) l = none ↔ firstSome f l = none) ∧
    ∀ y, firstSome (fun x => (f x).map (g x)) l = some y → ∃ x b, y = g x b ∧ firstSome f l = some b := by
  induction l with
  | nil => exact ⟨⟨fun _ => rfl, fun _ => rfl⟩, fun _ h => by cases h⟩
  | cons x l ih =>
    simp only [firstSome]
    cases f x with
    | none => exact ih
    | some b => exact ⟨by simp, fun y h => ⟨x, b, by simpa using h.symm, rfl⟩⟩

theorem pathsJson_inj {a b : List (Str × List Str)} (h : pathsJson a = pathsJson b) : a = b := by
  have h : a.map (fun kp => (kp.1, Json.arr (kp.2.map .str))) =
      b.map (fun kp => (kp.1, Json.arr (kp.2.map .str))) := Json.obj.inj h
  refine List.map_inj_right ?_ |>.1 h
  rintro ⟨k, l⟩ ⟨k', l'⟩ h
  simp only [Prod.mk.injEq, Json.arr.injEq] at h ⊢
  exact ⟨h.1, (List.map_inj_right fun _ _ h => Json.str.inj h).1 h.2⟩

theorem chain_dir {fs : Fs} {ext : Str → Str → Str → Prop} {loc : Str} {f : TsOwn} {l : List TsOwn}
    (h : TsChain fs ext loc (f :: l)) : f.dir = dirOf loc := by
  cases h <;> assumption

/-- From what the code tries to what TypeScript tries. -/
theorem tried_of_entries {res : Str → Stats → Prop} {fs : Fs} {ext : Str → Str → Str → Prop}
    {chain : List TsOwn} {name loc : Str} {json : Json} {entries order : List (Str × List Str)}
    {o : Option Result} (hc : TsCommon chain name) (hch : TsChain fs ext loc chain) (hm : MergedAs chain json)
    (he : HasEntries loc json entries) (hp : order.Perm entries) (h : EntriesTried res name order o) :
    PathsTried res (tsWanted chain name) o := by
  have hpaths := hm.paths hc.once
  obtain ⟨dir, hdir, he⟩ := he
  cases ht : tsPathsOf chain with
  | none =>
    have h1 : firstSome TsOwn.paths chain = none := by
      unfold tsPathsOf at ht
      split at ht
      · rename_i h
        exact (firstSome_map TsOwn.paths (fun f p => (f.dir, p)) chain).1.1 h
      · split at ht <;> cases ht
    rw [h1] at hpaths
    have h2 : entries = [] := by
      rcases he with ⟨-, he⟩ | ⟨b, paths, -, he, -⟩
      · exact he
      · rw [hpaths] at he; cases he
    subst h2
    have := hp.eq_nil
    subst this
    cases h
    unfold tsWanted
    rw [ht]
    simp only [ite_self]
    exact .nil
  | some bp =>
    obtain ⟨base, paths⟩ := bp
    have h1 : firstSome TsOwn.paths chain = some paths := by
      unfold tsPathsOf at ht
      split at ht
      · cases ht
      · rename_i d q h
        obtain ⟨x, b, h2, h3⟩ := (firstSome_map TsOwn.paths (fun f p => (f.dir, p)) chain).2 _ h
        injection h2 with _ h2
        subst h2
        split at ht
        · injection ht with ht
          injection ht with _ ht
          rw [← ht]; exact h3
        · injection ht with ht
          injection ht with _ ht
          rw [← ht]; exact h3
    rw [h1] at hpaths
    obtain ⟨-, f, l, b, rfl, h2, h3⟩ := hc.base base paths ht
    have hbase := hm.baseUrl
    rw [h2] at hbase
    rcases he with ⟨he | he, -⟩ | ⟨b', paths', h4, h5, rfl⟩
    · rw [hbase] at he; cases he
    · rw [hpaths] at he; cases he
    · rw [hbase] at h4
      rw [hpaths] at h5
      cases h4
      have : paths = paths' := pathsJson_inj (Option.some.inj h5)
      subst this
      have hd : f.dir = dir := by rw [chain_dir hch, dirOf, hdir]; rfl
      rw [hd] at h3
      subst h3
      exact tried_targets hc ht hp h

end Verif
