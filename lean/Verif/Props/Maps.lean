import Verif.Proofs.Contain
import Verif.Proofs.Options
import Verif.Proofs.TreeFs
import Verif.Spec.Examples
/-!
# Properties about exports and imports maps: C19, C20, C21, C22, C23, C24
-/

namespace Verif

/-! ## C19 -/

/-- The `*` keys that match the request are ASCII up to the star. The request itself may be any. -/
def AsciiStars (m : List (Str × MV)) (request : Str) : Prop :=
  ∀ lit v, KeyMatches m request true lit v → AsciiStr lit

/-- C19 for exports and a request `./…`: an equal key, else the best pattern, else nothing, with the
rest of the request put into the targets (see `Selected`). Partial: the `*` keys that match are ASCII
(`C19_selection_violated`). -/
theorem C19_exports_partial (j : Json) (v : MV) (m : List (Str × MV)) (hj : fromJson j = some v)
    (hm : ExportsOf v m) (req : Str) (hreq : req ≠ []) (ha : AsciiStars m (cs!"./" ++ req))
    (hs : req.getLast? ≠ some '/') (names : List Str) :
    ∃ root out, buildTree .exports j = some (.ok root) ∧
      fieldProcess .exports root (cs!"./" ++ req) names = some out ∧
      Selected .exports names m (cs!"./" ++ req) out := by
  obtain ⟨root, h1, h2, h3, h4, h5⟩ := exports_represents (fromJson_wf j v hj) hm
  rw [← endsWithC_false] at hs
  have hassert : assertRequest .exports (cs!"./" ++ req) = .ok req := by
    unfold assertRequest
    have hl : utf8Len (cs!"./" ++ req) ≠ 1 := by
      rw [utf8Len_append]
      have : utf8Len cs!"./" = 2 := rfl
      omega
    have he : endsWithC (cs!"./" ++ req) '/' = false := by
      rw [endsWithC_false] at hs ⊢
      rw [List.getLast?_append]
      cases hl : req.getLast? with
      | none => exact (hreq (List.getLast?_eq_none_iff.1 hl)).elim
      | some d => rw [hl] at hs; simpa using hs
    simp only
    rw [if_neg (by simp [startsWith]), if_neg hl, if_neg (by simp [startsWith]),
      if_neg (by rw [he]; simp)]
    rfl
  obtain ⟨out, h6, h7⟩ := selected_of_represents (k := .exports) h3 h4 (pfx := cs!"./") (req := req)
    (by
      intro k v star lit hkv hk hpre hsl
      rcases exportsKey_cases (h5 _ hkv) with h | ⟨x, h⟩
      · exfalso
        simp only at h
        rw [hk] at h
        cases star with
        | true =>
          have := congrArg List.getLast? h
          simp at this
        | false =>
          simp only [Bool.false_eq_true, if_false, List.append_nil] at h
          subst h
          have := hsl rfl
          simp at this
      · simp only at h
        rw [hk] at h
        cases star with
        | false =>
          simp only [Bool.false_eq_true, if_false, List.append_nil] at h
          exact ⟨x, h.symm⟩
        | true =>
          simp only [if_true] at h
          -- the star is not one of the two characters of the prefix
          cases lit with
          | nil => simp at h
          | cons a lit =>
            cases lit with
            | nil => simp at h
            | cons b lit =>
              simp only [List.cons_append, List.nil_append, List.cons.injEq] at h
              obtain ⟨rfl, rfl, -⟩ := h
              exact ⟨lit, rfl⟩)
    (.inl rfl) h2 ha hreq hs hassert names
  exact ⟨root, out, by unfold buildTree; rw [hj]; simp only; rw [h1], h6, h7⟩

/-- C19 for the request `.`. -/
theorem C19_exports_main (j : Json) (v : MV) (m : List (Str × MV)) (hj : fromJson j = some v)
    (hm : ExportsOf v m) (names : List Str) :
    ∃ root out, buildTree .exports j = some (.ok root) ∧
      fieldProcess .exports root cs!"." names = some out ∧ Selected .exports names m cs!"." out := by
  obtain ⟨root, h1, h2, h3, h4, h0⟩ := exports_represents (fromJson_wf j v hj) hm
  have hf : fieldProcess .exports root cs!"." names =
      match alookup cs!"." m with
      | none => some (.ok [])
      | some w => mapping .exports none false names (w.size + 1) w := by
    unfold fieldProcess
    rw [show assertRequest .exports cs!"." = .ok [] from rfl]
    simp only
    unfold findMatch
    rw [if_pos rfl, h2.dot]
    cases alookup cs!"." m with
    | none => rfl
    | some w => rfl
  cases hl : alookup cs!"." m with
  | none =>
    rw [hl] at hf
    refine ⟨root, _, by unfold buildTree; rw [hj]; simp only; rw [h1], hf, .none ?_ ?_ rfl⟩
    · intro v hv
      exact alookup_none.1 hl v hv.1
    · rintro star lit v ⟨hk, hslash, hpre⟩
      have hlit : lit = [] ∨ lit = cs!"." := by
        cases lit with
        | nil => exact .inl rfl
        | cons x lit =>
          right
          obtain ⟨r, hr⟩ := hpre
          simp only [List.cons_append, List.cons.injEq, List.append_eq_nil_iff] at hr
          rw [hr.1, hr.2.1]
      have hkey := h0 _ hk
      cases star with
      | false =>
        rcases hlit with rfl | rfl
        · exact absurd (hslash rfl) (by simp)
        · exact absurd (hslash rfl) (by decide)
      | true =>
        rcases hlit with rfl | rfl <;> rcases hkey with h | h <;> simp at h
  | some w =>
    rw [hl] at hf
    have hw := h4 _ (alookup_mem hl)
    obtain ⟨out, h5, h6⟩ := mapping_meaning (k := .exports) (names := names) (CalledFor.exact none) hw
    exact ⟨root, out, by unfold buildTree; rw [hj]; simp only; rw [h1], by rw [hf]; exact h5,
      .exact w ⟨alookup_mem hl, by decide, by decide⟩ h6⟩

/-- C19 for imports and a request `#…`. Partial: the `*` keys that match are ASCII. -/
theorem C19_imports_partial (j : Json) (m : List (Str × MV)) (hj : fromJson j = some (.cond m))
    (hk : ∀ kv ∈ m, ImportsKey kv.1) (req : Str) (hreq : ImportsKey (cs!"#" ++ req))
    (ha : AsciiStars m (cs!"#" ++ req)) (hs : req.getLast? ≠ some '/') (names : List Str) :
    ∃ root out, buildTree .imports j = some (.ok root) ∧
      fieldProcess .imports root (cs!"#" ++ req) names = some out ∧
      Selected .imports names m (cs!"#" ++ req) out := by
  obtain ⟨hn, hwf⟩ := wf_cond (fromJson_wf j _ hj)
  obtain ⟨root, hb⟩ := (buildImports_ok m Node.empty).2 hk
  have h2 := buildImports_represents m Node.empty root _ _ represents_empty hb hn
  simp only [Option.or_none] at h2
  obtain ⟨-, hne, hslash⟩ := hreq
  have hne' : req ≠ [] := by rintro rfl; exact hne rfl
  rw [← endsWithC_false] at hs
  have hassert : assertRequest .imports (cs!"#" ++ req) = .ok req := by
    unfold assertRequest
    have hl : utf8Len (cs!"#" ++ req) ≠ 1 := by
      rw [utf8Len_append]
      have : utf8Len cs!"#" = 1 := rfl
      have : utf8Len req ≠ 0 := fun h => hne' (utf8Len_eq_zero.1 h)
      omega
    have he : endsWithC (cs!"#" ++ req) '/' = false := by
      rw [endsWithC_false] at hs ⊢
      rw [List.getLast?_append]
      cases hl : req.getLast? with
      | none => exact (hne' (List.getLast?_eq_none_iff.1 hl)).elim
      | some d => rw [hl] at hs; simpa using hs
    simp only
    rw [if_neg (by simp [startsWith]), if_neg hl, if_neg (by rw [startsWith_iff]; exact hslash),
      if_neg (by rw [he]; simp)]
    rfl
  obtain ⟨out, h6, h7⟩ := selected_of_represents (k := .imports) hn hwf (pfx := cs!"#") (req := req)
    (by
      intro k v star lit hkv hk' hpre hsl
      obtain ⟨x, h, hx, -⟩ := importsKey_cases (hk _ hkv)
      simp only at h
      rw [hk'] at h
      cases lit with
      | nil =>
        cases star with
        | true => simp at h
        | false => simp at h
      | cons a lit =>
        simp only [List.cons_append, List.nil_append, List.cons.injEq] at h
        rw [h.1]
        exact ⟨lit, rfl⟩)
    (.inr fun v hv => (hk _ hv).2.1 rfl) h2 ha hne' hs hassert names
  exact ⟨root, out, by unfold buildTree; rw [hj]; simp only; rw [hb], h6, h7⟩

/-- C19: the order of the keys does not matter (for any request). -/
theorem C19_order (j j' : Json) (m m' : List (Str × MV)) (hj : fromJson j = some (.cond m))
    (hj' : fromJson j' = some (.cond m')) (hp : m.Perm m') (k : FieldKind)
    (hk : match k with
      | .exports => ∀ kv ∈ m, ExportsKey kv.1
      | .imports => ∀ kv ∈ m, ImportsKey kv.1) (hne : m ≠ []) (request : Str) (names : List Str) :
    ∃ root root', buildTree k j = some (.ok root) ∧ buildTree k j' = some (.ok root') ∧
      fieldProcess k root request names = fieldProcess k root' request names := by
  have hlook : ∀ x, alookup x m = alookup x m' := by
    intro x
    obtain ⟨hn, -⟩ := wf_cond (fromJson_wf j _ hj)
    obtain ⟨hn', -⟩ := wf_cond (fromJson_wf j' _ hj')
    cases hl : alookup x m with
    | none =>
      rw [alookup_none] at hl
      exact (alookup_none.2 fun v hv => hl v (hp.mem_iff.2 hv)).symm
    | some v => exact (alookup_of_mem hn' (hp.mem_iff.1 (alookup_mem hl))).symm
  cases k with
  | exports =>
    obtain ⟨root, h1, h2, -⟩ := exports_represents (fromJson_wf j _ hj) (.paths hne hk)
    obtain ⟨root', h1', h2', -⟩ := exports_represents (fromJson_wf j' _ hj')
      (.paths (m := m') (fun h => hne (by subst h; exact hp.eq_nil))
        fun kv hkv => hk kv (hp.mem_iff.2 hkv))
    refine ⟨root, root', by unfold buildTree; rw [hj]; simp only; rw [h1],
      by unfold buildTree; rw [hj']; simp only; rw [h1'], fieldProcess_congr h2 ?_ _ _ _⟩
    simpa only [hlook] using h2'
  | imports =>
    obtain ⟨hn, -⟩ := wf_cond (fromJson_wf j _ hj)
    obtain ⟨hn', -⟩ := wf_cond (fromJson_wf j' _ hj')
    obtain ⟨root, hb⟩ := (buildImports_ok m Node.empty).2 hk
    obtain ⟨root', hb'⟩ := (buildImports_ok m' Node.empty).2 fun kv hkv => hk kv (hp.mem_iff.2 hkv)
    have h2 := buildImports_represents m Node.empty root _ _ represents_empty hb hn
    have h2' := buildImports_represents m' Node.empty root' _ _ represents_empty hb' hn'
    refine ⟨root, root', by unfold buildTree; rw [hj]; simp only; rw [hb],
      by unfold buildTree; rw [hj']; simp only; rw [hb'], fieldProcess_congr h2 ?_ _ _ _⟩
    simpa only [hlook] using h2'

/-- A map with an equal key, two stars and a folder. -/
def exportsA : List (Str × MV) :=
  [(cs!"./lib/*", .direct cs!"./src/*.js"), (cs!"./lib/a", .direct cs!"./a.js"),
   (cs!"./*", .direct cs!"./any/*"), (cs!"./lib/deep/", .direct cs!"./deep/")]

-- the hypotheses are met, and every kind of match occurs
example : ExportsOf (.cond exportsA) exportsA :=
  .paths (by decide) (by
    intro kv hkv
    simp only [exportsA, List.mem_cons, List.not_mem_nil, or_false] at hkv
    rcases hkv with rfl | rfl | rfl | rfl <;> exact .inr (by decide))
example : ∃ v, KeyEqual exportsA cs!"./lib/a" v :=
  ⟨_, List.mem_cons_of_mem _ (List.mem_cons_self ..), by decide, by decide⟩
example : ∃ lit v, KeyMatches exportsA cs!"./lib/b" true lit v :=
  ⟨cs!"./lib/", _, List.mem_cons_self .., by decide, by decide⟩

-- keys that are ASCII up to the star, for any request
example (request : Str) : AsciiStars exportsA request := by
  intro lit v h
  obtain ⟨h, -, -⟩ := h
  simp only [exportsA, List.mem_cons, Prod.mk.injEq, List.not_mem_nil, or_false] at h
  have key : ∀ k : Str, lit ++ (if true = true then cs!"*" else []) = k → AsciiStr k → AsciiStr lit :=
    fun k hk ha c hc => ha c (by rw [← hk]; simp [hc])
  rcases h with ⟨h, -⟩ | ⟨h, -⟩ | ⟨h, -⟩ | ⟨h, -⟩ <;> exact key _ h (by decide)

/-- The list of targets, for examples. -/
def targetsOf (m : MV) (request : Str) (names : List Str) : Option (List Str) :=
  match buildExportsMV m with
  | .ok root =>
    match fieldProcess .exports root request names with
    | some (.ok l) => some l
    | _ => none
  | _ => none

example : targetsOf (.cond exportsA) cs!"./lib/a" [] = some [cs!"./a.js"] := by decide
example : targetsOf (.cond exportsA) cs!"./lib/b" [] = some [cs!"./src/b.js"] := by decide
example : targetsOf (.cond exportsA) cs!"./lib/deep/x" [] = some [cs!"./deep/x"] := by decide
example : targetsOf (.cond exportsA) cs!"./other/x" [] = some [cs!"./any/other/x"] := by decide

/-- The request of `C19_selection_violated`: `./éé/a`. -/
def requestE : Str := cs!"./éé/a"

/-- The map of `C19_selection_violated`. -/
def exportsE : List (Str × MV) :=
  [(cs!"./éé*", .direct cs!"./x*"), (cs!"./éé/*", .direct cs!"./y*")]

/-- C19 does not hold for all requests: positions are compared as bytes in one place and as
characters in another, so `./éé*` beats the longer `./éé/*`, and the text put in is wrong. -/
theorem C19_selection_violated :
    Chosen exportsE requestE true cs!"./éé/" (.direct cs!"./y*") ∧
    targetsOf (.cond exportsE) requestE [] = some [cs!"./x"] := by
  refine ⟨⟨⟨List.mem_cons_of_mem _ (List.mem_cons_self ..), nofun, by decide⟩, ?_⟩, by decide⟩
  intro star lit v h
  obtain ⟨h1, h2, h3⟩ := h
  simp only [exportsE, List.mem_cons, Prod.mk.injEq, List.not_mem_nil, or_false] at h1
  cases star with
  | true =>
    simp only [if_true] at h1
    rcases h1 with ⟨h1, -⟩ | ⟨h1, -⟩
    · left
      rw [show cs!"./éé*" = cs!"./éé" ++ cs!"*" from rfl] at h1
      rw [List.append_cancel_right h1]
      decide
    · right
      rw [show cs!"./éé/*" = cs!"./éé/" ++ cs!"*" from rfl] at h1
      exact ⟨List.append_cancel_right h1, fun _ => rfl⟩
  | false =>
    simp only [Bool.false_eq_true, if_false, List.append_nil] at h1
    have := h2 rfl
    rcases h1 with ⟨h1, -⟩ | ⟨h1, -⟩ <;> (rw [h1] at this; simp at this)

/-! ## C20, C21 -/

/-- C20, C21: what a conditional mapping comes to, for an object of `package.json`. -/
theorem C20_depth_first (j : Json) (m : List (Str × MV)) (hj : fromJson j = some (.cond m))
    (names : List Str) (r : CondResult) (hr : Scan (· ∈ names) m r) :
    condMapping m names = some (match r with
      | .noMatch => .ok none
      | .found v => .ok (some v)
      | .badDefault => .error .defaultNotLast) := by
  rw [condMapping_scan (fromJson_wf j _ hj) names hr]
  cases r <;> rfl

/-- C20: the scan always comes to exactly one result. -/
theorem C20_scan_unique (names : List Str) (m : List (Str × MV)) :
    ∃ r, Scan (· ∈ names) m r ∧ ∀ r', Scan (· ∈ names) m r' → r' = r := by
  obtain ⟨r, hr⟩ := scan_total (· ∈ names) m
  exact ⟨r, hr, fun r' h => scan_det h hr⟩

/-- C20: only the set of `condition_names` matters, for every call of `resolve`. -/
theorem C20_order_irrelevant (e : Env) (names : List Str)
    (h : ∀ k, k ∈ names ↔ k ∈ e.opts.conditionNames) (n : Nat) (path request : Str) :
    resolve (e.withOpts { e.opts with conditionNames := names }) n path request =
      resolve e n path request := by
  have hc : ∀ k, names.contains k = e.opts.conditionNames.contains k := by
    intro k
    rw [Bool.eq_iff_iff, List.contains_iff_mem, List.contains_iff_mem]
    exact h k
  have ha := e.agree_withOpts { e.opts with conditionNames := names } rfl rfl rfl rfl rfl rfl hc
  unfold resolve resolveCtx
  rw [← ha.stats rfl rfl rfl (fun _ _ => rfl)]
  rfl

/-- C21: the error exactly if the scan reaches a `default` that is not last before a match. -/
theorem C21_bad_default (j : Json) (m : List (Str × MV)) (hj : fromJson j = some (.cond m))
    (names : List Str) :
    condMapping m names = some (.error .defaultNotLast) ↔ Scan (· ∈ names) m .badDefault := by
  constructor
  · intro h
    obtain ⟨r, hr⟩ := scan_total (· ∈ names) m
    rw [C20_depth_first j m hj names r hr] at h
    cases r with
    | noMatch => cases h
    | found v => cases h
    | badDefault => exact hr
  · intro h
    exact C20_depth_first j m hj names _ h

/-- C21: no other error comes out of a conditional mapping. -/
theorem C21_only_error (j : Json) (m : List (Str × MV)) (hj : fromJson j = some (.cond m))
    (names : List Str) (err : Err) (h : condMapping m names = some (.error err)) :
    err = .defaultNotLast := by
  obtain ⟨r, hr⟩ := scan_total (· ∈ names) m
  rw [C20_depth_first j m hj names r hr] at h
  cases r <;> simp_all

/-- Nested conditions with a dead end, then a `default` that is not last. -/
def condA : List (Str × MV) :=
  [(cs!"node", .cond [(cs!"import", .direct cs!"./a.mjs")]),
   (cs!"require", .direct cs!"./b.js"), (cs!"default", .direct cs!"./c.js"),
   (cs!"browser", .direct cs!"./d.js")]

-- backtracks out of `node`, finds `require`
example : Scan (· ∈ [cs!"node", cs!"require"]) condA (.found (.direct cs!"./b.js")) :=
  .back (.inr ⟨by decide, by decide⟩) (.skip (by decide) (by decide) .nil)
    (.leaf (.inr ⟨by decide, by decide⟩) nofun)
-- reaches the `default`
example : Scan (· ∈ [cs!"browser"]) condA .badDefault :=
  .skip (by decide) (by decide) (.skip (by decide) (by decide) (.bad (by decide)))

/-! ## C22 -/

/-- C22: for a `/` key, the rest of the request is appended to the target. -/
theorem C22_folder (k : FieldKind) (t rest : Str) :
    Subst k (.folder rest) t (targetMapping k (some rest) true t).toOption :=
  targetMapping_subst (.folder rest) trivial

/-- C22: for a `*` key, every `*` of the target becomes the matched text. Partial: for texts
without `$`. -/
theorem C22_star_partial (k : FieldKind) (t captured : Str) (h : '$' ∉ captured) :
    Subst k (.star captured) t (targetMapping k (some captured) false t).toOption :=
  targetMapping_subst (.star captured) (.inl h)

/-- C22, what the code does for every text: every `*` of the target becomes the matched text with each `$`
written twice. -/
theorem C22_dollar (k : FieldKind) (t captured : Str) :
    Subst k (.star (twice captured)) t (targetMapping k (some captured) false t).toOption :=
  targetMapping_star k t captured

theorem scan_target {cond : Str → Prop} {m : List (Str × MV)} {r : CondResult} (h : Scan cond m r) {v : MV}
    (hr : r = .found v) {t : Str} (ht : WrittenIn v t) : WrittenIn (.cond m) t := by
  have up : ∀ {kv : Str × MV} {m : List (Str × MV)}, WrittenIn (.cond m) t → WrittenIn (.cond (kv :: m)) t := by
    rintro kv m (_ | ⟨h1, h2⟩)
    exact .cond (List.mem_cons_of_mem _ h1) h2
  induction h with
  | nil => cases hr
  | bad => cases hr
  | skip _ _ _ ih => exact up (ih hr)
  | leaf => cases hr; exact .cond (List.mem_cons_self ..) ht
  | into _ _ _ ih => exact .cond (List.mem_cons_self ..) (ih hr)
  | back _ _ _ _ ih => exact up (ih hr)

theorem outputs_target {cond : Str → Prop} {f : Str → Except Err Str} {v : MV} {o : Except Err (List Str)}
    (h : Outputs cond f v o) : ∀ l, o = .ok l → ∀ s ∈ l, ∃ t, WrittenIn v t ∧ f t = .ok s := by
  induction h with
  | direct h =>
    rintro l ⟨⟩ s hs
    rw [List.mem_singleton.1 hs]
    exact ⟨_, .direct _, h⟩
  | noMatch => rintro l ⟨⟩ s hs; cases hs
  | nil => rintro l ⟨⟩ s hs; cases hs
  | found hsc _ ih =>
    intro l hl s hs
    obtain ⟨t, h1, h2⟩ := ih l hl s hs
    exact ⟨t, scan_target hsc rfl h1, h2⟩
  | cons _ _ ih1 ih2 =>
    rintro l ⟨⟩ s hs
    rcases List.mem_append.1 hs with hs | hs
    · obtain ⟨t, h1, h2⟩ := ih1 _ rfl s hs
      exact ⟨t, .arr (List.mem_cons_self ..) h1, h2⟩
    · obtain ⟨t, h1, h2⟩ := ih2 _ rfl s hs
      cases h1 with
      | arr h3 h4 => exact ⟨t, .arr (List.mem_cons_of_mem _ h3) h4, h2⟩
  | directErr => rintro l ⟨⟩
  | badDefault => rintro l ⟨⟩
  | err => rintro l ⟨⟩
  | errTail => rintro l ⟨⟩

theorem selected_substituted {k : FieldKind} {names : List Str} {m : List (Str × MV)} {request : Str} {l : List Str}
    (h : Selected k names m request (.ok l)) (hd : '$' ∉ request)
    (hx : ∀ v t, (request, v) ∈ m → WrittenIn v t → '*' ∉ t) : ∀ s ∈ l, Substituted m request s := by
  intro s hs
  cases h with
  | exact v hk hm =>
    obtain ⟨g, h1, -, h3⟩ := hm
    obtain ⟨t, ht, hg⟩ := outputs_target h3 _ rfl s hs
    have := h1 t (hx v t hk.1 ht)
    rw [hg] at this
    cases this
    exact .exact v hk.1 ht
  | star lit v _ hc hm =>
    obtain ⟨g, h1, -, h3⟩ := hm
    obtain ⟨t, ht, hg⟩ := outputs_target h3 _ rfl s hs
    have := h1 t (.inl fun h => hd (List.mem_of_mem_drop h))
    rw [hg] at this
    obtain ⟨c, rfl⟩ := hc.matches_.pre
    rw [List.drop_left] at this
    cases this
    exact .star lit c t v hc.matches_.key rfl ht rfl
  | folder lit v _ hc hm =>
    obtain ⟨g, h1, -, h3⟩ := hm
    obtain ⟨t, ht, hg⟩ := outputs_target h3 _ rfl s hs
    have := h1 t trivial
    rw [hg] at this
    obtain ⟨c, rfl⟩ := hc.matches_.pre
    rw [List.drop_left] at this
    cases this
    have hkey := hc.matches_.key
    rw [if_neg (by decide), List.append_nil] at hkey
    exact .folder lit c t v hkey (hc.matches_.slash rfl) rfl ht rfl
  | none _ _ h => cases h; cases hs

/-- C22 for exports: every target that a map gives for a request is one written for it, with the rest of the
request put in as the key says. Partial: for requests without `$`, ASCII `*` keys, and no equal key with a
`*` in a target. -/
theorem C22_exports_partial {j : Json} {v : MV} {m : List (Str × MV)} (hj : fromJson j = some v)
    (hm : ExportsOf v m) {req : Str} (hreq : req ≠ []) (ha : AsciiStars m (cs!"./" ++ req))
    (hs : req.getLast? ≠ some '/') (hd : '$' ∉ req)
    (hx : ∀ v t, (cs!"./" ++ req, v) ∈ m → WrittenIn v t → '*' ∉ t) {names : List Str} {root : Node}
    (hb : buildTree .exports j = some (.ok root)) {l : List Str}
    (hl : fieldProcess .exports root (cs!"./" ++ req) names = some (.ok l)) :
    ∀ s ∈ l, Substituted m (cs!"./" ++ req) s := by
  obtain ⟨root', out, h1, h2, h3⟩ := C19_exports_partial j v m hj hm req hreq ha hs names
  rw [hb] at h1
  cases h1
  rw [hl] at h2
  cases h2
  refine selected_substituted h3 ?_ hx
  simpa using hd

/-- C22 for imports. Partial: as for `C22_exports_partial`. -/
theorem C22_imports_partial {j : Json} {m : List (Str × MV)} (hj : fromJson j = some (.cond m))
    (hk : ∀ kv ∈ m, ImportsKey kv.1) {req : Str} (hreq : ImportsKey (cs!"#" ++ req))
    (ha : AsciiStars m (cs!"#" ++ req)) (hs : req.getLast? ≠ some '/') (hd : '$' ∉ req)
    (hx : ∀ v t, (cs!"#" ++ req, v) ∈ m → WrittenIn v t → '*' ∉ t) {names : List Str} {root : Node}
    (hb : buildTree .imports j = some (.ok root)) {l : List Str}
    (hl : fieldProcess .imports root (cs!"#" ++ req) names = some (.ok l)) :
    ∀ s ∈ l, Substituted m (cs!"#" ++ req) s := by
  obtain ⟨root', out, h1, h2, h3⟩ := C19_imports_partial j m hj hk req hreq ha hs names
  rw [hb] at h1
  cases h1
  rw [hl] at h2
  cases h2
  refine selected_substituted h3 ?_ hx
  simpa using hd

-- a map with all three kinds of keys, and what it gives
example :
    let j : Json := .obj [(cs!"./a", .str cs!"./x.js"), (cs!"./b/*", .str cs!"./y/*.js"), (cs!"./c/", .str cs!"./z/")]
    (match buildTree .exports j with
      | some (.ok root) => [cs!"./a", cs!"./b/p/q", cs!"./c/p/q"].map fun r => match fieldProcess .exports root r [] with
        | some (.ok l) => l
        | _ => []
      | _ => []) = [[cs!"./x.js"], [cs!"./y/p/q.js"], [cs!"./z/p/q"]] := by decide +kernel

example : Subst .exports (.star cs!"a/b") cs!"./x/*/*.js" (some cs!"./x/a/b/a/b.js") :=
  .star (by unfold BadTarget; decide) (by decide)
example : Subst .exports (.folder cs!"a/b") cs!"./x/" (some cs!"./x/a/b") :=
  .folder (by unfold BadTarget; decide) (by decide)

/-- `/node_modules/m` with exports `./*`: `./*`, and a file `a$b`. -/
def treeDollar : Tree :=
  .dir [(cs!"node_modules", .dir [(cs!"m", .dir [
    (cs!"package.json", jsonFile (.obj [(cs!"exports", .obj [(cs!"./*", .str cs!"./*")])])),
    (cs!"a$b", textFile), (cs!"a$$b", textFile), (cs!"ab", textFile)])])]

/-- C22 does not hold for texts with `$`: it is doubled. -/
theorem C22_star_violated :
    targetMapping .exports (some cs!"a$b") false cs!"./*" = .ok cs!"./a$$b" ∧
    ((resolve (treeEnv optsA treeDollar) 10 cs!"/" cs!"m/a$b").freshInfo.map (·.path)) =
      some cs!"/node_modules/m/a$$b" := by
  refine ⟨rfl, ?_⟩
  decide +kernel

/-- Nor is an equal key always exact: in a nested directory, a `*` in its target is replaced by a
part of the request. -/
theorem C22_exact_violated :
    KeyEqual [(cs!"./lib/aa", .direct cs!"./x*y")] cs!"./lib/aa" (.direct cs!"./x*y") ∧
    targetsOf (.cond [(cs!"./lib/aa", .direct cs!"./x*y")]) cs!"./lib/aa" [] =
      some [cs!"./x/aay"] :=
  ⟨⟨List.mem_cons_self .., by decide, by decide⟩, by decide⟩

/-! ## C23 -/

/-- C23: a target picked from exports lies at or below the package directory. Partial: targets
without empty segments; `isFile` never holds for a path that ends in `..`. -/
theorem C23_exports_partial (c : Ctx) (dir : Str) (l : List Str) (i : Info)
    (h : exportsPick c dir l = some i) (hd : isAbs dir = true)
    (hrel : isAbs i.request.target = false)
    (hfs : ∀ p, c.fs.isFile p = true → (splitC '/' p).getLast? ≠ some cs!"..")
    (hne : ∀ s ∈ (splitC '/' i.request.target).dropLast, s ≠ [])
    {loc0 loc : List Str} (h0 : Walk [] dir loc0) (hw : Walk [] i.getPath loc) : loc0 <+: loc := by
  induction l with
  | nil => cases h
  | cons t l ih =>
    rw [exportsPick] at h
    simp only at h
    split at h
    · rename_i hc
      cases h
      simp only [Bool.and_eq_true] at hc
      exact inside_of_checked hd hrel hc.1 hc.2 hfs hne h0 hw
    · exact ih h

/-- C23 for a relative target of imports. Partial as above. -/
theorem C23_imports_partial (c : Ctx) (dir : Str) (r : Request) (target : Str) (i : Info)
    (h : importsCheck c ⟨dir, r⟩ target = .resolving i) (hd : isAbs dir = true)
    (hrel : isAbs r.target = false)
    (hfs : ∀ p, c.fs.isFile p = true → (splitC '/' p).getLast? ≠ some cs!"..")
    (hne : ∀ s ∈ (splitC '/' r.target).dropLast, s ≠ [])
    {loc0 loc : List Str} (h0 : Walk [] dir loc0) (hw : Walk [] i.getPath loc) : loc0 <+: loc := by
  unfold importsCheck at h
  split at h
  · rename_i hc
    cases h
    simp only [Bool.and_eq_true] at hc
    exact inside_of_checked hd hrel hc.1 hc.2 hfs hne h0 hw
  · cases h

/-- `/node_modules/m` with exports that leave it, and `/node_modules/x.js`. -/
def treeEscape : Tree :=
  .dir [(cs!"node_modules", .dir [
    (cs!"m", .dir [
      (cs!"package.json", jsonFile (.obj [(cs!"exports", .obj [(cs!"./a", .str cs!".//../x.js"),
        (cs!"./b", .str cs!"./lib/../b.js"), (cs!"./c", .str cs!"./../x.js")])])),
      (cs!"b.js", textFile), (cs!"lib", .dir [])]),
    (cs!"x.js", textFile)])]

-- the hypotheses of the theorems are met by the second entry
example : (exportsPick (treeEnv optsA treeEscape).ctx cs!"/node_modules/m"
    [cs!"./lib/../b.js"]).isSome = true := by decide +kernel
example : ∀ p, (treeFs treeEscape []).isFile p = true → (splitC '/' p).getLast? ≠ some cs!".." :=
  fun _ h => treeFs_isFile_last h

/-- C23 does not hold with empty segments: they count as a step down. -/
theorem C23_escape_violated :
    (resolve (treeEnv optsA treeEscape) 10 cs!"/" cs!"m/a").freshInfo.map (·.path) =
      some cs!"/node_modules/x.js" := by
  decide +kernel

/-! ## C24 -/

/-- C24: building imports succeeds exactly if every key is valid. -/
theorem C24_keys (j : Json) (m : List (Str × MV)) (hj : fromJson j = some (.cond m)) :
    (∃ root, buildTree .imports j = some (.ok root)) ↔ ∀ kv ∈ m, ImportsKey kv.1 := by
  rw [← buildImports_ok m Node.empty]
  unfold buildTree
  rw [hj]
  simp only [Option.some.injEq]

/-- C24: in a package with an imports map, a `#` request goes on only with the first target that
the map gives, and fails if there is none. Partial: only for packages with an imports map. -/
theorem C24_only_map_partial (c : Ctx) (n : Nat) (pkg : Pkg) (root : Node) (info : Info)
    (hroot : pkg.importsTree = some root) (hh : cs!"#" <+: info.request.target) (s : Stats)
    (h : (importsPlugin c n (some pkg) info).Returns s) :
    (∃ err, fieldProcess .imports root info.request.target c.opts.conditionNames =
        some (.error err) ∧ s = .error err info) ∨
    (fieldProcess .imports root info.request.target c.opts.conditionNames = some (.ok []) ∧
      s = .error (.notExported info.request.target) info) ∨
    ∃ item l, fieldProcess .imports root info.request.target c.opts.conditionNames =
        some (.ok (item :: l)) ∧
      ((parseRequest item).kind ≠ .normal → (parseRequest item).kind ≠ .internal →
        s = importsCheck c ⟨pkg.absDir, parseRequest item⟩ info.request.target) := by
  cases n with
  | zero => cases h
  | succ n =>
    rw [importsPlugin] at h
    simp only [hroot] at h
    rw [if_neg (by rw [(startsWith_iff _ _).2 hh]; simp)] at h
    cases hf : fieldProcess .imports root info.request.target c.opts.conditionNames with
    | none => rw [hf] at h; cases h
    | some r =>
      rw [hf] at h
      cases r with
      | error err =>
        simp only [Prog.returns_ret] at h
        exact .inl ⟨err, rfl, h⟩
      | ok l =>
        cases l with
        | nil =>
          simp only [Prog.returns_ret] at h
          exact .inr (.inl ⟨rfl, h⟩)
        | cons item l =>
          refine .inr (.inr ⟨item, l, rfl, fun h1 h2 => ?_⟩)
          simp only at h
          rw [if_neg h1, if_neg h2, Prog.returns_ret] at h
          exact h

/-- `/package.json` without imports, and a package `#a`. -/
def treeHash : Tree :=
  .dir [(cs!"package.json", jsonFile (.obj [])),
    (cs!"node_modules", .dir [(cs!"#a", .dir [(cs!"index.js", textFile)])])]

/-- C24 does not hold in a package without imports: a `#` request is looked up in
`node_modules`. -/
theorem C24_hash_violated :
    (resolve (treeEnv optsA treeHash) 10 cs!"/" cs!"#a").freshInfo.map (·.path) =
      some cs!"/node_modules/#a/index.js" := by
  decide +kernel

/-- A package that imports `#x` from `./x.js`. -/
def treeImports : Tree :=
  .dir [(cs!"package.json", jsonFile (.obj [(cs!"imports", .obj [(cs!"#x", .str cs!"./x.js")])])),
    (cs!"x.js", textFile)]

example : (resolve (treeEnv optsA treeImports) 10 cs!"/" cs!"#x").freshInfo.map (·.path) =
    some cs!"/x.js" := by decide +kernel
example : ((buildTree .imports (.obj [(cs!"#x", .str cs!"./x.js")])).bind (·.toOption)).isSome = true := by
  decide +kernel

end Verif
