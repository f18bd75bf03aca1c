import Verif.Proofs.Termination
import Verif.Proofs.TreeFs
/-!
# A criterion for trees in which nothing goes round in circles
-/

namespace Verif

/-- One of the texts starts with the other. -/
def comparable (a b : Str) : Bool := a.isPrefixOf b || b.isPrefixOf a

/-- No alias key and alias target start alike, nor do a key and `./`. -/
def aliasApart (o : Opts) : Bool :=
  o.alias.all fun k => !comparable k.1 cs!"./" && o.alias.all fun v =>
    match v.2 with
    | .target to => !comparable k.1 to
    | .ignored => true

theorem comparable_of {a b r s : Str} (h : a ++ r = b ++ s) : comparable a b = true := by
  unfold comparable
  rw [Bool.or_eq_true, List.isPrefixOf_iff_prefix, List.isPrefixOf_iff_prefix]
  rcases Nat.le_total a.length b.length with hl | hl
  · exact .inl (List.prefix_of_prefix_length_le (List.prefix_append a r) ⟨s, h.symm⟩ hl)
  · exact .inr (List.prefix_of_prefix_length_le (List.prefix_append b s) ⟨r, h⟩ hl)

theorem alias_wf {o : Opts} (h : aliasApart o = true) : WellFounded (AliasStep o) := by
  unfold aliasApart at h
  simp only [List.all_eq_true, Bool.and_eq_true, Bool.not_eq_true'] at h
  have dot : ∀ t, Acc (AliasStep o) (cs!"./" ++ t) := by
    intro t
    constructor
    intro t' hs
    generalize hx : cs!"./" ++ t = x at hs
    cases hs with
    | replace hm =>
      have := comparable_of hx.symm
      rw [(h _ hm).1] at this
      cases this
    | prefer _ h1 => exact (h1 (hx ▸ List.prefix_append _ _)).elim
  have target : ∀ src to rest, (src, AliasMap.target to) ∈ o.alias → Acc (AliasStep o) (to ++ rest) := by
    intro src to rest hm
    constructor
    intro t' hs
    generalize hx : to ++ rest = x at hs
    cases hs with
    | replace hm' =>
      have := comparable_of hx.symm
      have hc := (h _ hm').2 _ hm
      simp only [this] at hc
      cases hc
    | prefer _ _ => exact dot _
  constructor
  intro t
  constructor
  intro t' hs
  cases hs with
  | replace hm => exact target _ _ _ hm
  | prefer _ _ => exact dot _

/-- The fields of a JSON file: no `browser` target is a `browser` key; no target of exports and imports
starts with `#` or `*`; main fields name the directory itself
or end in `.js`, as `browser` targets do; there is no `extends`. -/
def plainJson (o : Opts) (j : Json) : Bool :=
  (match j.get cs!"browser" with
    | some (.obj l) => l.all fun kv =>
      match kv.2 with
      | .str s => List.isSuffixOf cs!".js" s && l.all fun kv' => decide (kv'.1 ≠ s)
      | _ => true
    | _ => true) &&
  (match j.get cs!"exports" with
    | some v => v.strings.all fun s => s.headD '#' ≠ '#' && s.headD '#' ≠ '*'
    | none => true) &&
  (match j.get cs!"imports" with
    | some v => v.strings.all fun s => s.headD '#' ≠ '#' && s.headD '#' ≠ '*'
    | none => true) &&
  o.mainFields.all fun f =>
    match j.get f with
    | some (.str m) => decide (m = cs!".") || decide (m = cs!"./") || List.isSuffixOf cs!".js" m
    | _ => true

/-- See `plainJson`. -/
def plainDoc (o : Opts) (d : Doc) : Bool :=
  (match d.json with
    | some j => plainJson o j
    | none => true) &&
  match d.jsonc with
  | .ok (some j) => (j.get cs!"extends").isNone
  | _ => true

mutual
/-- No directory has a name that ends in `.js`. -/
def Tree.noJsDir : Tree → Bool
  | .file _ _ => true
  | .dir l => noJsDirList l
/-- See `Tree.noJsDir`. -/
def noJsDirList : List (Str × Tree) → Bool
  | [] => true
  | (n, t) :: l => (!t.isDir || !List.isSuffixOf cs!".js" n) && t.noJsDir && noJsDirList l
end

theorem noJsDirList_lookup {l : List (Str × Tree)} (h : noJsDirList l = true) {n : Str} {t : Tree}
    (ht : alookup n l = some t) :
    t.noJsDir = true ∧ (t.isDir = false ∨ List.isSuffixOf cs!".js" n = false) := by
  induction l with
  | nil => cases ht
  | cons x l ih =>
    obtain ⟨m, u⟩ := x
    simp only [noJsDirList, Bool.and_eq_true, Bool.or_eq_true, Bool.not_eq_true'] at h
    unfold alookup at ht
    split at ht
    · rename_i e
      cases ht
      cases e
      exact ⟨h.1.2, h.1.1⟩
    · exact ih h.2 ht

theorem noJsDir_at {t u : Tree} (h : t.noJsDir = true) {loc : List Str} (hu : t.at loc = some u) :
    u.noJsDir = true := by
  induction loc generalizing t with
  | nil => cases hu; exact h
  | cons n loc ih =>
    simp only [Tree.at] at hu
    cases t with
    | file d m => cases hu
    | dir l =>
      simp only [Tree.child] at hu
      split at hu
      · rename_i t' ht'
        rw [Tree.noJsDir] at h
        exact ih (noJsDirList_lookup h ht').1 hu
      · cases hu

theorem splitC_append_last {b : Str} (hb : '/' ∉ b) (a : Str) :
    ∃ l s, splitC '/' (a ++ b) = l ++ [s ++ b] := by
  induction a with
  | nil => exact ⟨[], [], by rw [List.nil_append, splitC_of_not_mem hb]; rfl⟩
  | cons x a ih =>
    obtain ⟨l, s, h⟩ := ih
    by_cases hx : x = '/'
    · subst hx
      exact ⟨[] :: l, s, by rw [List.cons_append, splitC_cons_sep, h]; rfl⟩
    · obtain ⟨hd, tl, h1, h2⟩ := splitC_cons_ne (a ++ b) hx
      rw [h] at h1
      rw [List.cons_append, h2]
      cases l with
      | nil =>
        simp only [List.nil_append, List.cons.injEq] at h1
        obtain ⟨rfl, rfl⟩ := h1
        exact ⟨[], x :: s, rfl⟩
      | cons y l =>
        simp only [List.cons_append, List.cons.injEq] at h1
        obtain ⟨rfl, rfl⟩ := h1
        exact ⟨(x :: y) :: l, s, rfl⟩

theorem dir_not_js {t : Tree} {cwd : List Str} (h : t.noJsDir = true) {p : Str}
    (hd : (treeFs t cwd).isDir p = true) : ¬ cs!".js" <:+ p := by
  rintro ⟨a, rfl⟩
  obtain ⟨l, s, hs⟩ := splitC_append_last (b := cs!".js") (by decide) a
  simp only [treeFs, Tree.node] at hd
  cases hl : t.lookup cwd (a ++ cs!".js") with
  | none => simp [hl] at hd
  | some loc =>
    simp only [hl] at hd
    cases hu : t.at loc with
    | none => simp [hu] at hd
    | some u =>
      cases u with
      | file d m => simp [hu] at hd
      | dir e' =>
        unfold Tree.lookup at hl
        split at hl
        · cases hl
        · rw [hs] at hl
          obtain ⟨loc1, e, h1, h2, -⟩ := Tree.reach_snoc hl
          have hne : s ++ cs!".js" ≠ [] ∧ s ++ cs!".js" ≠ cs!"." ∧ s ++ cs!".js" ≠ cs!".." := by
            refine ⟨?_, ?_, ?_⟩ <;>
            · intro e
              have := congrArg List.length e
              simp at this
          have h2 : loc = loc1 ++ [s ++ cs!".js"] := by
            rw [h2]
            unfold stepSeg enter
            rw [if_neg hne.1, if_neg hne.2.1, if_neg hne.2.2]
          subst h2
          rw [Tree.at_append, h1] at hu
          simp only [Tree.at, Tree.child] at hu
          have hn := noJsDir_at h h1
          rw [Tree.noJsDir] at hn
          cases hc : alookup (s ++ cs!".js") e with
          | none => simp [hc] at hu
          | some u =>
            rw [hc] at hu
            cases hu
            rcases (noJsDirList_lookup hn hc).2 with h3 | h3
            · cases h3
            · have : List.isSuffixOf cs!".js" (s ++ cs!".js") = true :=
                List.isSuffixOf_iff_suffix.2 ⟨s, rfl⟩
              rw [this] at h3
              cases h3

theorem pjoin_suffix {b p q : Str} (h : b <:+ q) : b <:+ pjoin p q := by
  unfold pjoin
  obtain ⟨a, rfl⟩ := h
  split
  · exact ⟨a, rfl⟩
  · split
    · exact ⟨p ++ a, by simp⟩
    · exact ⟨p ++ '/' :: a, by simp⟩

theorem dotted_suffix {b m : Str} (h : b <:+ m) : b <:+ dotted m := by
  unfold dotted
  split
  · exact h
  · exact h.trans (List.suffix_append _ _)

theorem targetPath_suffix {p q : Str} (h : cs!".js" <:+ q) : cs!".js" <:+ targetPath p q := by
  unfold targetPath
  split
  · rename_i he
    obtain ⟨a, rfl⟩ := h
    exfalso
    rcases he with he | he
    · have := congrArg List.length he
      simp at this
    · have := congrArg List.length he
      simp at this
  · exact pjoin_suffix h

/-- No two steps after each other. -/
theorem wf_of_short {α : Type} {r : α → α → Prop} (h : ∀ a b c, r a b → r b c → False) :
    WellFounded r :=
  ⟨fun _ => ⟨_, fun _ h1 => ⟨_, fun _ h2 => (h _ _ _ h2 h1).elim⟩⟩⟩

theorem notHash_of {s : Str} (h : (decide (s.headD '#' ≠ '#') && decide (s.headD '#' ≠ '*')) = true) :
    NotHash s := by
  simp only [Bool.and_eq_true, decide_eq_true_eq] at h
  cases s with
  | nil => exact (h.1 rfl).elim
  | cons c r => exact ⟨c, r, rfl, h⟩

/-- The criterion. -/
theorem noCycle_tree {t : Tree} {cwd : List Str} {o : Opts} (ha : aliasApart o = true)
    (hj : t.noJsDir = true) (hd : t.allDoc (plainDoc o) = true) : NoCycle o (treeFs t cwd) := by
  have plain : ∀ p doc json, (treeFs t cwd).read p = some doc → doc.json = some json →
      plainJson o json = true := by
    intro p doc json hr hjs
    have h := allDoc_read hd hr
    simp only [plainDoc, hjs, Bool.and_eq_true] at h
    exact h.1
  refine ⟨alias_wf ha, ?_, ?_, ?_, ?_, ?_⟩
  · intro _ p doc json hr hjs
    have h := plain p doc json hr hjs
    simp only [plainJson, Bool.and_eq_true] at h
    have h := h.1.1.1
    refine wf_of_short fun a b c h1 h2 => ?_
    obtain ⟨l, e1, m1⟩ := h1
    obtain ⟨l', e2, m2⟩ := h2
    rw [e1] at e2
    cases e2
    simp only [e1, List.all_eq_true] at h
    have := h _ m2
    simp only [Bool.and_eq_true, List.all_eq_true, decide_eq_true_eq] at this
    exact this.2 _ m1 rfl
  · rintro v ⟨p, doc, json, hr, hjs, hv⟩ s hs
    have h := plain p doc json hr hjs
    simp only [plainJson, Bool.and_eq_true] at h
    have h := h.1.1.2
    simp only [hv, List.all_eq_true] at h
    exact notHash_of (h s hs)
  · rintro v ⟨p, doc, json, hr, hjs, hv⟩ s hs
    have h := plain p doc json hr hjs
    simp only [plainJson, Bool.and_eq_true] at h
    have h := h.1.2
    simp only [hv, List.all_eq_true] at h
    exact notHash_of (h s hs)
  · refine wf_of_short fun d'' d' d h1 h2 => ?_
    clear h2
    obtain ⟨hdir, pkg, hload, -, ht⟩ := h1
    refine dir_not_js hj hdir ?_
    obtain ⟨p, doc, hr, hjs⟩ := (loads_fromFile hload).file
    have h := plain p doc _ hr hjs
    have hb : ∀ k t, (k, .target t) ∈ pkg.aliasFields → cs!".js" <:+ t := by
      intro k t hm
      have hf := (loads_fromFile hload).browser
      generalize pkg.aliasFields = fields at hf hm
      unfold browserFields at hf
      cases hg : pkg.raw.get cs!"browser" with
      | none => rw [hg] at hf; cases hf; cases hm
      | some v =>
        simp only [hg] at hf
        cases v with
        | obj l =>
          rcases browserLoop_mem hf hm with hm | hm
          · simp only [plainJson, hg, Bool.and_eq_true, List.all_eq_true] at h
            have := h.1.1.1 _ hm
            simp only [Bool.and_eq_true] at this
            exact List.isSuffixOf_iff_suffix.1 this.1
          · cases hm
        | _ => cases hf; cases hm
    have hm : ∀ f ∈ o.mainFields, ∀ m, pkg.raw.get f = some (.str m) → ¬ SelfValue m →
        cs!".js" <:+ m := by
      intro f hf m hm hself
      simp only [plainJson, Bool.and_eq_true, List.all_eq_true] at h
      have := h.2 f hf
      simp only [hm, Bool.or_eq_true, decide_eq_true_eq] at this
      exact List.isSuffixOf_iff_suffix.1 (this.resolve_left hself)
    generalize o.mainFields = l at ht hm
    clear hdir hload
    induction ht with
    | here hg hself hl =>
      rcases hl with rfl | ⟨-, k, t, hk, rfl⟩
      · exact pjoin_suffix (dotted_suffix (hm _ (List.mem_cons_self ..) _ hg hself))
      · exact targetPath_suffix (hb _ _ hk)
    | next _ _ _ ih => exact ih fun f hf => hm f (List.mem_cons_of_mem _ hf)
  · intro _
    refine wf_of_short fun a b c h1 _ => ?_
    obtain ⟨doc, json, s, _, _, _, hr, hjs, he, -⟩ := h1
    have h := allDoc_read hd hr
    simp only [plainDoc, hjs, he, Bool.and_eq_true] at h
    cases h.2

end Verif
