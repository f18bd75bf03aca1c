import Verif.Proofs.NodeMaps
import Verif.Props.Packages
import Verif.Props.Imports
/-!
# Agreement with Node.js: C68

`Spec/Node.lean` has the algorithm of Node.js, and says for which maps and requests the code follows it.
-/

namespace Verif

variable {cfg : Nat → Config} {ser : Json → Str} {fs : Fs} {rid : Nat} {path request : Str}

/-- The map of common exports, and that it gives what Node.js gives. -/
theorem commonExports_map {j : Json} (h : CommonExports j) :
    ∃ v m, fromJson j = some v ∧ ExportsOf v m ∧ ∀ request, ExportsKey request →
      request.getLast? ≠ some '/' → CommonRequest j.topKeys request → AsciiStars m request ∧
        ∀ names out, Selected .exports names m request out →
          ∃ targets, out = .ok targets ∧ nodeExports names request j = firstTarget targets := by
  cases h with
  | @paths l hne hk hm =>
    refine ⟨.cond (mvFields l), mvFields l, fromJson_map hm, .paths ?_ ?_, ?_⟩
    · rw [mvFields_eq]; simpa using hne
    · intro kv hkv
      obtain ⟨j, hj, -⟩ := mem_mvFields.1 (show (kv.1, kv.2) ∈ mvFields l from hkv)
      exact hk _ hj
    · intro request hr hs hc
      refine ⟨common_ascii hc, fun names out hsel => ?_⟩
      obtain ⟨targets, h1, h2⟩ := selected_node hm hc hs hsel
      refine ⟨targets, h1, ?_⟩
      have hdot : ∀ kv ∈ l, cs!".".isPrefixOf kv.1 = true := by
        intro kv hkv
        rw [List.isPrefixOf_iff_prefix]
        rcases hk kv hkv with h | ⟨x, h⟩
        · rw [h]; exact List.prefix_refl _
        · exact ⟨'/' :: x, by rw [← h]; rfl⟩
      have hany : (l.any fun kv => !cs!".".isPrefixOf kv.1) = false := by
        rw [List.any_eq_false]
        intro kv hkv
        rw [hdot kv hkv]
        simp
      have hall : (l.all fun kv => cs!".".isPrefixOf kv.1) = true := List.all_eq_true.2 hdot
      have hsome : (l.any fun kv => cs!".".isPrefixOf kv.1) = true := by
        obtain ⟨kv, hkv⟩ := List.exists_mem_of_ne_nil _ hne
        exact List.any_eq_true.2 ⟨kv, hkv, hdot kv hkv⟩
      rw [← h2]
      unfold nodeExports
      simp only [hany, hall, hsome, Bool.and_false, Bool.false_eq_true, if_false, Bool.not_true, if_true]
      split
      · rename_i hr
        subst hr
        unfold nodeMatch
        rw [if_neg (by decide)]
        cases ha : alookup cs!"." l with
        | some j => simp only; rw [if_neg (by decide)]; rfl
        | none =>
          simp only
          have hf : ((sortPatterns (l.filter fun kv => kv.1.count '*' = 1)).find? fun kv =>
              patternMatches cs!"." kv.1) = none := by
            rw [List.find?_eq_none]
            rintro ⟨key, j⟩ hin hmat
            rw [(sortPatterns_perm _).mem_iff, List.mem_filter, decide_eq_true_eq] at hin
            obtain ⟨lit, e, hl⟩ := (star_key (hm.key _ hin.1).1).1 hin.2
            simp only at e hmat
            subst e
            rw [patternMatches_star hl] at hmat
            rcases hk _ hin.1 with h | h
            · have := congrArg List.length h
              simp only [List.length_append, List.length_cons, List.length_nil] at this
              have h0 : lit = [] := List.length_eq_zero_iff.1 (by omega)
              subst h0
              exact absurd (show cs!"*" = cs!"." from h) (by decide)
            · obtain ⟨x, hx⟩ := h
              simp only at hx
              have hlen : lit.length ≤ 1 := hmat.1.length_le
              match lit, hlen, hx, hmat with
              | [], _, hx, _ => exact absurd hx (by simp)
              | [c], _, hx, hmat =>
                obtain ⟨y, hy⟩ := hmat.1
                simp only [List.cons_append, List.nil_append, List.cons.injEq] at hx
                exact absurd hx.2.1 (by decide)
          rw [hf]
          rfl
      · rfl
  | main hc ht hk =>
    have hm : CommonMap .exports [(cs!".", j)] := by
      refine ⟨by simp, ?_, ?_⟩
      · intro kv hkv
        rw [List.mem_singleton] at hkv
        subst hkv
        exact ⟨show '*' ∉ cs!".".dropLast by decide, show cs!".".getLast? ≠ some '/' by decide⟩
      · intro kv hkv
        rw [List.mem_singleton] at hkv
        subst hkv
        exact ⟨hc, fun t h => ⟨(ht t h).1, fun h' => ((ht t h).2 h').elim⟩⟩
    refine ⟨toMV j, [(cs!".", toMV j)], fromJson_common j hc, .main ?_, ?_⟩
    · intro m hv kv hkv
      obtain ⟨l, rfl, rfl⟩ := toMV_cond hv
      obtain ⟨j', hj, -⟩ := mem_mvFields.1 (show (kv.1, kv.2) ∈ mvFields l from hkv)
      exact hk l rfl _ hj
    · intro request hr hs _
      have hcr : CommonRequest ([(cs!".", j)].map Prod.fst) request := by
        intro lit rest h _
        simp only [List.map_cons, List.map_nil, List.mem_singleton] at h
        have := congrArg List.getLast? h
        rw [List.getLast?_append] at this
        exact absurd (show some '*' = some '.' from this) (by decide)
      have e : mvFields [(cs!".", j)] = [(cs!".", toMV j)] := by rw [mvFields, mvFields]
      refine ⟨e ▸ common_ascii hcr, fun names out hsel => ?_⟩
      obtain ⟨targets, h1, h2⟩ := selected_node hm hcr hs (e ▸ hsel)
      refine ⟨targets, h1, ?_⟩
      rw [← h2]
      have hr : nodeMatch false names request [(cs!".", j)] =
          if request = cs!"." then nodeTarget false names none j else .null := by
        unfold nodeMatch
        rw [if_neg hs]
        by_cases h : request = cs!"."
        · subst h; rfl
        · rw [if_neg h]
          have ha : alookup request [(cs!".", j)] = none := by
            rw [alookup_none]
            intro v hv
            rw [List.mem_singleton] at hv
            exact h (congrArg Prod.fst hv)
          rw [ha]
          rfl
      show _ = (nodeMatch false names request [(cs!".", j)]).orThrow
      rw [hr]
      cases j with
      | obj l =>
        have hany : (l.any fun kv => cs!".".isPrefixOf kv.1) = false := by
          rw [List.any_eq_false]
          intro kv hkv h
          rw [List.isPrefixOf_iff_prefix] at h
          exact (hk l rfl kv hkv).1 h
        unfold nodeExports
        simp only [hany, Bool.false_and, Bool.false_eq_true, if_false, Bool.not_false, if_true]
        split
        · rfl
        · split
          · rename_i hall
            have : l = [] := by
              cases l with
              | nil => rfl
              | cons kv l =>
                have h1 := List.any_eq_false.1 hany kv (List.mem_cons_self ..)
                exact absurd (List.all_eq_true.1 hall kv (List.mem_cons_self ..)) h1
            subst this
            unfold nodeMatch
            rw [if_neg hs]
            rfl
          · rfl
      | _ =>
        unfold nodeExports
        simp only
        split <;> rfl

/-- C68 for exports: what exports give for `.` or `./…` begins with the target that Node.js finds, and is empty if
Node.js finds none. Partial: for the maps and requests of `CommonExports` and `CommonRequest`; see the theorems
`C68_…_violated` for the others. Node.js stops at the first target, the code goes on to those after it in an array. -/
theorem C68_exports_partial {j : Json} (h : CommonExports j) {request : Str} (hr : ExportsKey request)
    (hs : request.getLast? ≠ some '/') (hc : CommonRequest j.topKeys request) (names : List Str) :
    ∃ root targets, buildTree .exports j = some (.ok root) ∧
      fieldProcess .exports root request names = some (.ok targets) ∧
      nodeExports names request j = firstTarget targets := by
  obtain ⟨v, m, h1, h2, h3⟩ := commonExports_map h
  obtain ⟨ha, h4⟩ := h3 request hr hs hc
  have key : ∃ root out, buildTree .exports j = some (.ok root) ∧
      fieldProcess .exports root request names = some out ∧ Selected .exports names m request out := by
    rcases hr with rfl | ⟨req, rfl⟩
    · exact C19_exports_main j v m h1 h2 names
    · have hne : req ≠ [] := by rintro rfl; exact hs rfl
      refine C19_exports_partial j v m h1 h2 req hne ha ?_ names
      rw [List.getLast?_append] at hs
      cases hl : req.getLast? with
      | none => nofun
      | some c => rw [hl] at hs; simpa using hs
  obtain ⟨root, out, h5, h6, h7⟩ := key
  obtain ⟨targets, rfl, h8⟩ := h4 names out h7
  exact ⟨root, targets, h5, h6, h8⟩

/-- C68 for imports. Partial: as for `C68_exports_partial`. -/
theorem C68_imports_partial {l : List (Str × Json)} (h : CommonMap .imports l) (hk : ∀ kv ∈ l, ImportsKey kv.1)
    {request : Str} (hr : ImportsKey request) (hs : request.getLast? ≠ some '/')
    (hc : CommonRequest (l.map Prod.fst) request) (names : List Str) :
    ∃ root targets, buildTree .imports (.obj l) = some (.ok root) ∧
      fieldProcess .imports root request names = some (.ok targets) ∧
      nodeImports names request (.obj l) = firstTarget targets := by
  obtain ⟨req, rfl⟩ : ∃ req, request = cs!"#" ++ req := by
    obtain ⟨req, hreq⟩ := hr.1
    exact ⟨req, hreq.symm⟩
  have hne : req ≠ [] := by rintro rfl; exact hr.2.1 rfl
  have hs' : req.getLast? ≠ some '/' := by
    rw [List.getLast?_append] at hs
    cases hl : req.getLast? with
    | none => nofun
    | some c => rw [hl] at hs; simpa using hs
  obtain ⟨root, out, h1, h2, h3⟩ := C19_imports_partial (.obj l) (mvFields l) (fromJson_map h) (by
    intro kv hkv
    obtain ⟨j, hj, -⟩ := mem_mvFields.1 (show (kv.1, kv.2) ∈ mvFields l from hkv)
    exact hk _ hj) req hr (common_ascii hc) hs' names
  obtain ⟨targets, rfl, h4⟩ := selected_node h hc hs h3
  refine ⟨root, targets, h1, h2, ?_⟩
  rw [← h4]
  unfold nodeImports
  rw [if_neg]
  · rfl
  · rw [Bool.or_eq_true, decide_eq_true_eq, List.isPrefixOf_iff_prefix]
    exact fun h => h.elim hr.2.1 hr.2.2

theorem firstTarget_found {l : List Str} {t : Str} (h : firstTarget l = .found t) : ∃ rest, l = t :: rest := by
  cases l with
  | nil => cases h
  | cons x l => cases h; exact ⟨l, rfl⟩

theorem firstTarget_throws {l : List Str} {e : NodeErr} (h : firstTarget l = .throws e) : l = [] := by
  cases l with
  | nil => rfl
  | cons x l => cases h

/-- C68 for whole calls into a package with exports: the target that Node.js finds is the answer if it is a file,
and if Node.js finds that the path is not exported, so does the call. Partial: as for `C68_exports_partial`; targets
that do not pass the containment check or that a `browser` map has an entry for; enforced extensions. -/
theorem C68_resolve_partial (hs : Static cfg ser fs) {name rest : Str} {a b : List Str} {d : Str}
    (hb : Bare (cfg rid).opts path request name rest (a ++ d :: b))
    (hl : FirstLoad (cfg rid).opts fs path (name ++ rest))
    (ha : ∀ x ∈ a, Step (cfg rid).opts fs request name rest x none) {pkg : Pkg} {m : List (Str × MV)}
    (hd : Exporting (cfg rid).opts fs d name rest pkg m) {key : Str}
    (hk : Subpath (parseRequest request).query (parseRequest request).fragment rest key)
    {j : Json} (hj : pkg.raw.get cs!"exports" = some j) (hc : CommonExports j) (hr : CommonRequest j.topKeys key)
    (he : (cfg rid).opts.enforceExtension ≠ some true) :
    (∀ t, nodeExports (cfg rid).opts.conditionNames key j = .found t → Usable fs pkg.absDir t →
      ¬ cs!"#" <+: (parseRequest t).target →
      NotCovered (cfg rid).opts (some pkg) (exportPath pkg.absDir (parseRequest t).target) →
      ∃ a, FileAnswer (cfg rid).opts fs (targetPath pkg.absDir (parseRequest t).target)
        (parseRequest t).query (parseRequest t).fragment a ∧ Yields cfg ser fs rid path request a) ∧
    (∀ e, nodeExports (cfg rid).opts.conditionNames key j = .throws e →
      Yields cfg ser fs rid path request (.error (.notExported (name ++ rest)))) := by
  obtain ⟨v, m', h1, h2, h3⟩ := commonExports_map hc
  have hkey : ExportsKey key ∧ key.getLast? ≠ some '/' := by
    have last : ∀ x : Str, x ≠ [] → x.getLast? ≠ some '/' → (cs!"./" ++ x).getLast? ≠ some '/' := by
      intro x hx h
      rw [List.getLast?_append]
      cases hl : x.getLast? with
      | none => exact (hx (List.getLast?_eq_none_iff.1 hl)).elim
      | some c => rw [hl] at h; simpa using h
    cases hk with
    | main => exact ⟨.inl rfl, by decide⟩
    | sub h h' => exact ⟨.inr (List.prefix_append ..), last _ h h'⟩
    | mainQuery h h' => exact ⟨.inr (List.prefix_append ..), last _ h h'⟩
  obtain ⟨h4, h5⟩ := h3 key hkey.1 hkey.2 hr
  obtain ⟨out, h6, h7⟩ := C25_order_partial hs hb hl ha (m := m')
    ⟨hd.modules, hd.entered, hd.loads, hd.apply, j, v, hj, h1, h2⟩ hk h4
  obtain ⟨targets, rfl, h8⟩ := h5 _ _ h6
  constructor
  · intro t ht hu hh hn
    obtain ⟨l, rfl⟩ := firstTarget_found (h8.symm.trans ht)
    exact (h7.1 t ⟨[], l, rfl, hu, nofun⟩ hh).1 hn he
  · intro e he
    have := firstTarget_throws (h8.symm.trans he)
    subst this
    exact h7.2 nofun

/-- C68 for whole calls of `#` requests. Partial: as for `C68_imports_partial` and `C65_path_partial`. -/
theorem C68_hash_partial (hs : Static cfg ser fs) {pkg : Pkg} {m : List (Str × MV)}
    (hi : Internal (cfg rid).opts fs path request pkg m)
    (hk : ImportsKey (parseRequest request).target)
    (hslash : (parseRequest request).target.getLast? ≠ some '/')
    {l : List (Str × Json)} (hj : pkg.raw.get cs!"imports" = some (.obj l)) (hc : CommonMap .imports l)
    (hr : CommonRequest (l.map Prod.fst) (parseRequest request).target)
    (hb : (cfg rid).opts.browserField = false) (he : (cfg rid).opts.enforceExtension ≠ some true) :
    (∀ t, nodeImports (cfg rid).opts.conditionNames (parseRequest request).target (.obj l) = .found t →
      IsPath (parseRequest t).target →
        (Usable fs pkg.absDir t → HitYields cfg ser fs rid path request
          (some (.file (targetPath pkg.absDir (parseRequest t).target) (parseRequest t).query
            (parseRequest t).fragment))) ∧
        (¬ Usable fs pkg.absDir t →
          Yields cfg ser fs rid path request (.error (.notExported (parseRequest request).target)))) ∧
    (∀ e, nodeImports (cfg rid).opts.conditionNames (parseRequest request).target (.obj l) = .throws e →
      Yields cfg ser fs rid path request (.error (.notExported (parseRequest request).target))) := by
  have hm : m = mvFields l := by
    obtain ⟨j, h1, h2⟩ := hi.imports
    rw [hj] at h1
    cases h1
    rw [fromJson_map hc] at h2
    cases h2
    rfl
  have hkeys : ∀ kv ∈ l, ImportsKey kv.1 := by
    intro kv hkv
    exact hi.keys (kv.1, toMV kv.2) (by rw [hm]; exact mem_mvFields.2 ⟨kv.2, hkv, rfl⟩)
  have ha : AsciiStars m (parseRequest request).target := hm ▸ common_ascii hr
  have node : ∀ out, Selected .imports (cfg rid).opts.conditionNames m (parseRequest request).target out →
      ∃ targets, out = .ok targets ∧
        nodeImports (cfg rid).opts.conditionNames (parseRequest request).target (.obj l) =
          firstTarget targets := by
    intro out hsel
    obtain ⟨targets, rfl, h4⟩ := selected_node hc hr hslash (hm ▸ hsel)
    refine ⟨targets, rfl, ?_⟩
    rw [← h4]
    unfold nodeImports
    rw [if_neg]
    · rfl
    · rw [Bool.or_eq_true, decide_eq_true_eq, List.isPrefixOf_iff_prefix]
      exact fun h => h.elim hk.2.1 hk.2.2
  constructor
  · intro t ht hp
    obtain ⟨out, h1, h2⟩ := C65_path_partial hs hi hk ha hslash hb he
    obtain ⟨targets, rfl, h3⟩ := node out h1
    obtain ⟨r, rfl⟩ := firstTarget_found (h3.symm.trans ht)
    exact h2 t r rfl hp
  · intro e ht
    obtain ⟨out, h1, h2⟩ := C65_first_partial hs hi hk ha hslash
    obtain ⟨targets, rfl, h3⟩ := node out h1
    have := firstTarget_throws (h3.symm.trans ht)
    subst this
    exact h2 _ .none

/-! ## Cases that meet the demands -/

/-- Exports with conditions, an array and a pattern. -/
def exportsNode : Json :=
  .obj [(cs!".", .obj [(cs!"import", .str cs!"./index.mjs"), (cs!"default", .arr [.str cs!"./index.js", .str cs!"./old.js"])]),
    (cs!"./lib/*", .str cs!"./src/*.js"), (cs!"./lib/a", .str cs!"./a.js")]

theorem common_exportsNode : CommonExports exportsNode := by
  refine .paths (by decide) ?_ ⟨by decide, ?_, ?_⟩
  · intro kv hkv
    simp only [List.mem_cons, List.not_mem_nil, or_false] at hkv
    rcases hkv with rfl | rfl | rfl
    · exact .inl rfl
    · exact .inr ⟨cs!"lib/*", rfl⟩
    · exact .inr ⟨cs!"lib/a", rfl⟩
  · intro kv hkv
    simp only [List.mem_cons, List.not_mem_nil, or_false] at hkv
    rcases hkv with rfl | rfl | rfl <;> decide
  · intro kv hkv
    simp only [List.mem_cons, List.not_mem_nil, or_false] at hkv
    rcases hkv with rfl | rfl | rfl <;> refine ⟨by decide, fun t ht => ?_⟩ <;>
      simp only [Json.strings, arrStrings, objStrings, List.append_nil, List.cons_append, List.nil_append,
        List.mem_cons, List.not_mem_nil, or_false] at ht
    · rcases ht with rfl | rfl | rfl <;> exact ⟨.inl ⟨⟨_, rfl⟩, by decide⟩, by decide⟩
    · subst ht; exact ⟨.inl ⟨⟨_, rfl⟩, by decide⟩, by decide⟩
    · subst ht; exact ⟨.inl ⟨⟨_, rfl⟩, by decide⟩, by decide⟩

example : ExportsKey cs!"./lib/b/c" ∧ cs!"./lib/b/c".getLast? ≠ some '/' ∧
    CommonRequest exportsNode.topKeys cs!"./lib/b/c" ∧
    nodeExports [] cs!"./lib/b/c" exportsNode = .found cs!"./src/b/c.js" := by
  refine ⟨.inr ⟨_, rfl⟩, by decide, ?_, by decide +kernel⟩
  intro lit rest h hr
  simp only [exportsNode, Json.topKeys, List.map_cons, List.map_nil, List.mem_cons, List.not_mem_nil, or_false] at h
  have hl : ∀ k : Str, lit ++ cs!"*" = k → k.getLast? = some '*' := by
    rintro k rfl; rw [List.getLast?_append]; rfl
  rcases h with h | h | h
  · exact absurd (hl _ h) (by decide)
  · have e : lit = cs!"./lib/" := List.append_inj_left' (h.trans (show _ = cs!"./lib/" ++ cs!"*" from rfl)) rfl
    subst e
    have : rest = cs!"b/c" := (List.append_cancel_left (hr.symm.trans (show _ = cs!"./lib/" ++ cs!"b/c" from rfl)))
    subst this
    exact ⟨by decide, by decide, by decide, by decide⟩
  · exact absurd (hl _ h) (by decide)

-- the array: Node.js gives the first, with `import` another; and there is no `./x`
example : nodeExports [] cs!"." exportsNode = .found cs!"./index.js" ∧
    nodeExports [cs!"import"] cs!"." exportsNode = .found cs!"./index.mjs" ∧
    nodeExports [] cs!"./x" exportsNode = .throws .notDefined ∧
    nodeExports [] cs!"./lib/a" exportsNode = .found cs!"./a.js" := by decide +kernel

-- a value for `.` alone
example : CommonExports (.obj [(cs!"node", .str cs!"./n.js"), (cs!"default", .str cs!"./d.js")]) := by
  refine .main (by decide) ?_ ?_
  · intro t ht
    simp only [Json.strings, objStrings, List.append_nil, List.cons_append, List.nil_append,
      List.mem_cons, List.not_mem_nil, or_false] at ht
    rcases ht with rfl | rfl <;> exact ⟨.inl ⟨⟨_, rfl⟩, by decide⟩, by decide⟩
  · rintro l ⟨⟩ kv hkv
    simp only [List.mem_cons, List.not_mem_nil, or_false] at hkv
    rcases hkv with rfl | rfl <;> decide

/-- Imports with a path and a package. -/
def importsNode : List (Str × Json) := [(cs!"#a", .str cs!"./a.js"), (cs!"#dep", .str cs!"dep/x")]

example : CommonMap .imports importsNode ∧ (∀ kv ∈ importsNode, ImportsKey kv.1) ∧
    (∀ request, CommonRequest (importsNode.map Prod.fst) request) ∧
    nodeImports [] cs!"#dep" (.obj importsNode) = .found cs!"dep/x" := by
  refine ⟨⟨by decide, ?_, ?_⟩, ?_, ?_, by decide +kernel⟩
  · intro kv hkv
    simp only [importsNode, List.mem_cons, List.not_mem_nil, or_false] at hkv
    rcases hkv with rfl | rfl <;> decide
  · intro kv hkv
    simp only [importsNode, List.mem_cons, List.not_mem_nil, or_false] at hkv
    rcases hkv with rfl | rfl <;> refine ⟨by decide, fun t ht => ?_⟩ <;>
      simp only [Json.strings, List.mem_cons, List.not_mem_nil, or_false] at ht <;> subst ht
    · exact ⟨.inl ⟨⟨_, rfl⟩, by decide⟩, by decide⟩
    · exact ⟨.inr ⟨rfl, by decide, by decide, by decide, by decide, by decide⟩, by decide⟩
  · intro kv hkv
    simp only [importsNode, List.mem_cons, List.not_mem_nil, or_false] at hkv
    rcases hkv with rfl | rfl <;> exact ⟨by decide, by decide, by decide⟩
  · intro request lit rest h
    simp only [importsNode, List.map_cons, List.map_nil, List.mem_cons, List.not_mem_nil, or_false] at h
    have hl : ∀ k : Str, lit ++ cs!"*" = k → k.getLast? = some '*' := by
      rintro k rfl; rw [List.getLast?_append]; rfl
    rcases h with h | h <;> exact absurd (hl _ h) (by decide)

/-- The exports of `/p/node_modules/m`, as they are in the description file. -/
def exportsPkJson : Json :=
  .obj [(cs!".", .arr [.str cs!"./none.js", .str cs!"./index.js"]), (cs!"./x/*", .str cs!"./lib/*.js")]

-- the demands of `C68_resolve_partial`, for `m/x/y`
example : Bare (cfgPk 0).opts cs!"/p" cs!"m/x/y" cs!"m" cs!"/x/y" ([] ++ cs!"/p" :: [cs!"/"]) ∧
    FirstLoad (cfgPk 0).opts (treeFs treePk []) cs!"/p" cs!"m/x/y" ∧
    ∃ pkg, Exporting (cfgPk 0).opts (treeFs treePk []) cs!"/p" cs!"m" cs!"/x/y" pkg exportsPk ∧
      Subpath [] [] cs!"/x/y" cs!"./x/y" ∧ pkg.raw.get cs!"exports" = some exportsPkJson ∧
      CommonExports exportsPkJson ∧ CommonRequest exportsPkJson.topKeys cs!"./x/y" ∧
      nodeExports [] cs!"./x/y" exportsPkJson = .found cs!"./lib/y.js" ∧
      Usable (treeFs treePk []) pkg.absDir cs!"./lib/y.js" := by
  have hp : ((pkgAt (cfgPk 0).opts (treeFs treePk []) cs!"/p/node_modules/m/x/y").map Pkg.absDir) =
      some cs!"/p/node_modules/m" := by decide +kernel
  have hg : (pkgAt (cfgPk 0).opts (treeFs treePk []) cs!"/p/node_modules/m/x/y").isSome = true := by
    decide +kernel
  have hdir : ((pkgAt (cfgPk 0).opts (treeFs treePk []) cs!"/p/node_modules/m/x/y").get hg).absDir =
      cs!"/p/node_modules/m" := by
    rw [← Option.some_get hg] at hp
    exact Option.some.inj hp
  have hexp : ((pkgAt (cfgPk 0).opts (treeFs treePk []) cs!"/p/node_modules/m/x/y").get hg).raw.get cs!"exports" =
      some exportsPkJson := by
    have h : ((pkgAt (cfgPk 0).opts (treeFs treePk []) cs!"/p/node_modules/m/x/y").bind fun p =>
        (p.raw.get cs!"exports").map serJson) = some (serJson exportsPkJson) := by decide +kernel
    rw [← Option.some_get hg, Option.bind_some] at h
    obtain ⟨j, h1, h2⟩ := Option.map_eq_some_iff.1 h
    rw [h1, serJson_inj h2]
  refine ⟨bare_pk _ _ _ (by decide) (by decide) (by unfold AsciiStr; decide)
    (.plain (rest := cs!"/x/y") (by decide) (by decide) (.inr ⟨_, rfl⟩)) (by decide),
    ⟨_, loads_of_ok (by decide +kernel), nofun⟩, (pkgAt _ _ _).get hg, ⟨by decide +kernel, .inl (by decide +kernel),
      loads_get _, .inl ?_, exportsPkJson, .cond exportsPk, hexp, rfl, .paths (by decide) ?_⟩,
    .sub (req := cs!"x/y") (by decide) (by decide), hexp, .paths (by decide) ?_ ⟨by decide, ?_, ?_⟩, ?_,
    by decide +kernel, ?_, ?_⟩
  · rw [hdir]; exact ⟨cs!"/p/", cs!"/m", rfl⟩
  · intro kv hkv
    simp only [exportsPk, List.mem_cons, List.not_mem_nil, or_false] at hkv
    rcases hkv with rfl | rfl
    · exact .inl rfl
    · exact .inr (by decide)
  · intro kv hkv
    simp only [List.mem_cons, List.not_mem_nil, or_false] at hkv
    rcases hkv with rfl | rfl
    · exact .inl rfl
    · exact .inr ⟨cs!"x/*", rfl⟩
  · intro kv hkv
    simp only [List.mem_cons, List.not_mem_nil, or_false] at hkv
    rcases hkv with rfl | rfl <;> decide
  · intro kv hkv
    simp only [List.mem_cons, List.not_mem_nil, or_false] at hkv
    rcases hkv with rfl | rfl <;> refine ⟨by decide, fun t ht => ?_⟩ <;>
      simp only [Json.strings, arrStrings, List.append_nil, List.cons_append, List.nil_append,
        List.mem_cons, List.not_mem_nil, or_false] at ht
    · rcases ht with rfl | rfl <;> exact ⟨.inl ⟨⟨_, rfl⟩, by decide⟩, by decide⟩
    · subst ht; exact ⟨.inl ⟨⟨_, rfl⟩, by decide⟩, by decide⟩
  · intro lit rest h hr
    simp only [exportsPkJson, Json.topKeys, List.map_cons, List.map_nil, List.mem_cons, List.not_mem_nil, or_false] at h
    have hl : ∀ k : Str, lit ++ cs!"*" = k → k.getLast? = some '*' := by
      rintro k rfl; rw [List.getLast?_append]; rfl
    rcases h with h | h
    · exact absurd (hl _ h) (by decide)
    · have e : lit = cs!"./x/" := List.append_inj_left' (h.trans (show _ = cs!"./x/" ++ cs!"*" from rfl)) rfl
      subst e
      have : rest = cs!"y" := (List.append_cancel_left (hr.symm.trans (show _ = cs!"./x/" ++ cs!"y" from rfl)))
      subst this
      exact ⟨by decide, by decide, by decide, by decide⟩
  · rw [hdir]; decide +kernel
  · exact (contained_iff _).1 (by decide +kernel)

/-! ## Where the code differs from Node.js -/

/-- The targets that the code gives, if it gives no error and does not panic. -/
def exportsTargets (j : Json) (request : Str) (names : List Str) : Option (List Str) :=
  match buildTree .exports j with
  | some (.ok root) =>
    match fieldProcess .exports root request names with
    | some (.ok l) => some l
    | _ => none
  | _ => none

/-- C68 does not hold for keys with text after the `*`: the code does not find them. -/
theorem C68_trailer_violated :
    nodeExports [] cs!"./features/a.js" (.obj [(cs!"./features/*.js", .str cs!"./src/*.js")]) =
      .found cs!"./src/a.js" ∧
    exportsTargets (.obj [(cs!"./features/*.js", .str cs!"./src/*.js")]) cs!"./features/a.js" [] = some [] := by
  decide +kernel

/-- Nor for a `*` that stands for nothing: to Node.js such a path is not exported. -/
theorem C68_empty_violated :
    nodeExports [] cs!"./a" (.obj [(cs!"./a*", .str cs!"./b*.js")]) = .throws .notDefined ∧
    exportsTargets (.obj [(cs!"./a*", .str cs!"./b*.js")]) cs!"./a" [] = some [cs!"./b.js"] := by
  decide +kernel

/-- Nor for keys that end in `/`: Node.js no longer knows them. -/
theorem C68_folder_violated :
    nodeExports [] cs!"./lib/a.js" (.obj [(cs!"./lib/", .str cs!"./src/")]) = .throws .notDefined ∧
    exportsTargets (.obj [(cs!"./lib/", .str cs!"./src/")]) cs!"./lib/a.js" [] = some [cs!"./src/a.js"] := by
  decide +kernel

/-- The key `/` is taken for `.`, which Node.js does not do. -/
theorem C68_slash_violated :
    nodeExports [] cs!"." (.obj [(cs!"/", .str cs!"./a.js")]) = .throws .notDefined ∧
    exportsTargets (.obj [(cs!"/", .str cs!"./a.js")]) cs!"." [] = some [cs!"./a.js"] := by
  decide +kernel

/-- `default` before another condition, `null` for a path, and conditions inside of an array that do not hold, are
allowed by Node.js. The code gives an error for the first, panics for the second, and finds nothing for the
third. -/
theorem C68_values_violated :
    nodeExports [cs!"node"] cs!"." (.obj [(cs!".", .obj [(cs!"default", .str cs!"./d.js"), (cs!"node", .str cs!"./n.js")])]) =
      .found cs!"./d.js" ∧
    exportsTargets (.obj [(cs!".", .obj [(cs!"default", .str cs!"./d.js"), (cs!"node", .str cs!"./n.js")])]) cs!"."
      [cs!"node"] = none ∧
    nodeExports [] cs!"./a" (.obj [(cs!"./a", .str cs!"./a.js"), (cs!"./p/*", .null)]) = .found cs!"./a.js" ∧
    (buildTree .exports (.obj [(cs!"./a", .str cs!"./a.js"), (cs!"./p/*", .null)])).isNone = true ∧
    nodeExports [cs!"node"] cs!"." (.obj [(cs!".", .obj [(cs!"node", .arr [.obj [(cs!"import", .str cs!"./a.js")]]),
      (cs!"default", .str cs!"./b.js")])]) = .found cs!"./b.js" ∧
    exportsTargets (.obj [(cs!".", .obj [(cs!"node", .arr [.obj [(cs!"import", .str cs!"./a.js")]]),
      (cs!"default", .str cs!"./b.js")])]) cs!"." [cs!"node"] = some [] := by
  decide +kernel

/-- Targets without `./` or into `node_modules`, and texts for `*` with `..`, are refused by Node.js and used by the
code. -/
theorem C68_targets_violated :
    nodeExports [] cs!"." (.str cs!"x/a.js") = .throws .target ∧
    exportsTargets (.str cs!"x/a.js") cs!"." [] = some [cs!"x/a.js"] ∧
    nodeExports [] cs!"." (.str cs!"./node_modules/x/a.js") = .throws .target ∧
    exportsTargets (.str cs!"./node_modules/x/a.js") cs!"." [] = some [cs!"./node_modules/x/a.js"] ∧
    nodeExports [] cs!"./a/../b" (.obj [(cs!"./*", .str cs!"./*")]) = .throws .specifier ∧
    exportsTargets (.obj [(cs!"./*", .str cs!"./*")]) cs!"./a/../b" [] = some [cs!"./a/../b"] := by
  decide +kernel

/-- A `$` in the text for `*` is doubled, and a `*` in the target of a key without one is replaced. -/
theorem C68_text_violated :
    nodeExports [] cs!"./a$b" (.obj [(cs!"./*", .str cs!"./*.js")]) = .found cs!"./a$b.js" ∧
    exportsTargets (.obj [(cs!"./*", .str cs!"./*.js")]) cs!"./a$b" [] = some [cs!"./a$$b.js"] ∧
    nodeExports [] cs!"./lib/a" (.obj [(cs!"./lib/a", .str cs!"./x*.js")]) = .found cs!"./x*.js" ∧
    exportsTargets (.obj [(cs!"./lib/a", .str cs!"./x*.js")]) cs!"./lib/a" [] = some [cs!"./xb/a.js"] := by
  decide +kernel

/-- Whole calls differ for arrays: Node.js takes the first target, whether it is a file or not; the code takes the
first that is a file. -/
theorem C68_array_violated :
    nodeExports [] cs!"." (.obj [(cs!".", .arr [.str cs!"./none.js", .str cs!"./index.js"]),
      (cs!"./x/*", .str cs!"./lib/*.js")]) = .found cs!"./none.js" ∧
    (resolve (treeEnv (cfgPk 0).opts treePk) 10 cs!"/p" cs!"m").freshInfo.map (·.path) =
      some cs!"/p/node_modules/m/index.js" := by
  decide +kernel

end Verif
