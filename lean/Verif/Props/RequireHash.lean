import Verif.Proofs.RequireHash
import Verif.Props.Require
import Verif.Props.Imports
/-!
# C83 for `#` requests
-/

namespace Verif

variable {cfg : Nat → Config} {ser : Json → Str} {fs : Fs} {rid : Nat}

/-- C83 for `#` requests: the answer is the file that Node.js finds through the imports of the package, and an error if
Node.js has one. Partial: for the options of `NodeOpts` and requests and packages as in `CommonHash`; see
`C83_hash_main_violated`, `C83_hash_hoisted_violated` and `C83_hash_again_violated`. -/
theorem C83_hash_partial (hs : Static cfg ser fs) (ho : NodeOpts (cfg rid).opts) {request : Str}
    {parts p : List Str} {l : List (Str × Json)} (h : CommonHash (cfg rid).opts fs request parts p l) :
    AsNode cfg ser fs rid (absText parts) request
      (requireHash fs (cfg rid).opts.conditionNames request parts) := by
  have hl := hs.lawful
  have hpr := parseRequest_hash h.key.1 h.marks.1 h.marks.2
  have hvalid : ∀ s ∈ parts, ValidName s := fun s hs =>
    have ⟨n1, n2, n3, n4⟩ := h.names s hs
    ⟨n1, n4, n2, n3⟩
  obtain ⟨j, hscope, himp⟩ := h.scope
  obtain ⟨hmem, hpj⟩ := packageScope_mem hscope
  have hpa := isAbs_absText parts
  have hrel : isAbs request = false := by
    obtain ⟨r, rfl⟩ := h.key.1
    rfl
  have htp : targetPath (absText parts) request = under (absText parts) request := by
    unfold targetPath
    rw [if_neg (by obtain ⟨r, rfl⟩ := h.key.1; rintro (hh | hh) <;> cases hh)]
    exact pjoin_under (abs_ne_nil hpa) hrel
  have hxa : isAbs (under (absText parts) request) = true := isAbs_under _ hpa
  -- the package
  obtain ⟨d, hcl, hd⟩ := h.own
  have hpkg : ∃ pkg, Loads (cfg rid).opts fs (under (absText parts) request) (.ok (some pkg)) := by
    obtain ⟨pkg, hok⟩ := h.loads
    cases pkg with
    | some pkg => exact ⟨pkg, hok⟩
    | none =>
      unfold Loads at hok
      rw [ho.description, findPkg_here hcl] at hok
      rcases readPkg_cases fs d (pjoin d cs!"package.json") with ⟨a, ha⟩ | ⟨s, hs⟩
      · rw [ha, Prog.ret_bind] at hok
        cases a <;> cases hok
      · rw [hs] at hok; cases hok
  obtain ⟨pkg, hload⟩ := hpkg
  obtain ⟨h1, hda, hraw, -⟩ := loads_here ho hxa hload
  rw [hcl] at h1
  have hdd : comps pkg.absDir = comps (absText p) := by
    cases h1
    exact hd
  have hj : pkg.raw = j := by
    rw [packageJson_comps hl hda hdd, hpj] at hraw
    exact (Option.some.inj hraw).symm
  -- what the code does
  have hi : Internal (cfg rid).opts fs (absText parts) request pkg (mvFields l) := {
    plain := plain_node ho _ _
    abs := hpa
    hash := by rw [hpr]; exact h.key.1
    loads := by rw [hpr]; show Loads _ _ (targetPath _ request) _; rw [htp]; exact hload
    imports := ⟨.obj l, by rw [hj]; exact himp, fromJson_map h.imports⟩
    keys := by
      intro kv hkv
      obtain ⟨v, hv, -⟩ := mem_mvFields.1 (show (kv.1, kv.2) ∈ mvFields l from hkv)
      exact h.keys _ hv }
  have hiout : importsOf j = some (.obj l) := by unfold importsOf; rw [himp]
  unfold requireHash
  rw [hscope]
  show AsNode _ _ _ _ _ _ (match importsOf j with | none => none | some imports => _)
  rw [hiout]
  have hc68 := C68_hash_partial hs hi (by rw [hpr]; exact h.key) (by rw [hpr]; exact h.slash)
    (by rw [hj]; exact himp) h.imports (by rw [hpr]; exact h.common) ho.browser ho.enforce
  rw [hpr] at hc68
  obtain ⟨hfound, hthrows⟩ := hc68
  rcases nodeImports_cases (cfg rid).opts.conditionNames request (.obj l) with ⟨t, ht⟩ | ⟨e, he⟩
  · obtain ⟨hq, hf, hcase⟩ := h.found t ht
    have hpt := parseRequest_plain hq hf
    simp only [ht]
    rcases hcase with ⟨hdot, hcont⟩ | ⟨name, rest, e, hb, hslash, hself, hmod, hexp⟩
    · -- a path
      rw [if_pos hdot]
      have hfound := hfound t ht
      rw [hpt] at hfound
      obtain ⟨hu, hnu⟩ := hfound (.inl (kind_dotSlash hdot))
      unfold fileAt
      cases hfile : fs.isFile (under (absText p) t) with
      | true =>
        rw [if_pos rfl]
        obtain ⟨k1, k2, k3, k4⟩ := target_node hl hda hdd hfile hcont hdot hq hf
        obtain ⟨a, g1, g2⟩ := hu k1
        refine ⟨a, ?_, g2⟩
        rw [k2] at g1
        exact fileAnswer_sim hl (isAbs_pjoin_left _ hda) k3 g1
      | false =>
        rw [if_neg nofun]
        refine ⟨_, hnu fun hus => ?_⟩
        have h2 := hus.1
        rw [hpt] at h2
        have htrel : isAbs t = false := by
          obtain ⟨r, rfl⟩ := hdot
          rfl
        have htp : targetPath pkg.absDir t = pjoin pkg.absDir t := by
          unfold targetPath
          rw [if_neg]
          obtain ⟨r, rfl⟩ := hdot
          rintro (hh | hh) <;> cases hh
        have hsim : Sim (pjoin pkg.absDir t) (under (absText p) t) := by
          rw [← pjoin_under (abs_ne_nil (isAbs_absText p)) htrel]
          exact sim_pjoin hda hdd t
        have h2 : fs.isFile (targetPath pkg.absDir t) = true := h2
        rw [htp, hl.file _ _ (isAbs_pjoin_left _ hda) hsim, hfile] at h2
        cases h2
    · -- a package with exports
      have hnodot : ¬ cs!"./" <+: t := by
        intro hh
        have := hb.kind
        rw [kind_dotSlash hh] at this
        cases this
      have hxrel : isAbs (name ++ rest) = false := by rw [← hb.split]; exact kind_normal_rel hb.kind
      have hrest := packageName_rest hb.isName
      have hname : packageNameOf t = name := by
        rw [hb.split]
        exact packageNameOf_eq hb.isName
      have hdrop : t.drop (packageNameOf t).length = rest := by
        rw [hname, hb.split, List.drop_left]
      rw [if_neg hnodot, hdrop, hname]
      have hnames : ∀ s ∈ p ++ [cs!"node_modules"], ValidName s := by
        intro s hs
        rcases List.mem_append.1 hs with hs | hs
        · exact hvalid s (upParts_sub hmem s hs)
        · rw [List.mem_singleton] at hs; rw [hs]; exact validName_modules
      have hpn : ∀ s ∈ p, ValidName s := fun s hs => hnames s (List.mem_append_left _ hs)
      have hra : isAbs (pjoin pkg.absDir cs!"node_modules") = true := isAbs_pjoin_left _ hda
      have hdir : comps (pjoin pkg.absDir cs!"node_modules") = comps (absText (p ++ [cs!"node_modules"])) := by
        rw [comps_absText hnames, comps_pjoin (abs_ne_nil hda) rfl, hdd, comps_absText hpn, List.map_append]
        rfl
      have hroota : isAbs (absText (p ++ [cs!"node_modules"])) = true := isAbs_absText _
      have hcont : cs!"node_modules" <:+: absText (p ++ [cs!"node_modules"]) := by
        refine (containsStr_iff _ _).1 ((contains_module_iff hroota).2 ?_)
        rw [comps_absText hnames]
        exact ⟨cs!"node_modules", by simp, List.infix_refl _⟩
      have hin0 : packageIn fs (cfg rid).opts.conditionNames name rest p =
          let dir := under (absText (p ++ [cs!"node_modules"])) name
          if fs.isDir dir then
            match (packageJson fs dir).bind exportsOf with
            | some exports => some (loadExports fs (cfg rid).opts.conditionNames dir rest exports)
            | none =>
              if rest = [] then
                match (packageJson fs dir).bind mainOf with
                | some m => some (fileAt fs (under dir m))
                | none => some .throws
              else some (fileAt fs (dir ++ rest))
          else none := rfl
      generalize absText (p ++ [cs!"node_modules"]) = root at *
      obtain ⟨jm, hjm, hg⟩ := Option.bind_eq_some_iff.1 hexp
      have hn : fs.isDir (under root name) = true := by
        unfold packageJson at hjm
        split at hjm
        · next hh => rw [Bool.and_eq_true] at hh; exact hh.1
        · cases hjm
      obtain ⟨q, hqload, hqd, hqa, hqj, hqtree⟩ := module_node ho hl hra hdir hxrel hmod hn
      have hqraw : q.raw = jm := by rw [hjm] at hqj; exact (Option.some.inj hqj).symm
      obtain ⟨hce, hcr, hef⟩ := hmod.exports e hexp
      obtain ⟨hin, targets, hmapped, h3⟩ := exports_node (o := (cfg rid).opts) hqa hqd hrest hslash hcont
        (hqraw ▸ hg) hqtree hce hcr
      -- what the imports give
      obtain ⟨troot, ts, b1, b2, b3⟩ := C68_imports_partial h.imports h.keys h.key h.slash h.common
        (cfg rid).opts.conditionNames
      have hji : OwnTree .imports (pkg.raw.get cs!"imports") pkg.importsTree := by
        have hp := hload
        unfold Loads at hp
        rw [ho.description] at hp
        obtain ⟨d, -, -, h3⟩ := findPkg_found hxa (by rw [hp]; exact .ret _)
        exact (readPkg_trees h3).2
      rw [hj, himp] at hji
      obtain ⟨tree', g1, g2⟩ := hji
      rw [b1] at g2
      cases g2
      obtain ⟨lt, rfl⟩ := firstTarget_found (b3.symm.trans ht)
      have hmap : ImportsMapped (cfg rid).opts pkg request (.ok (t :: lt)) := ⟨_, g1, b2⟩
      -- what the exports give
      have hNdir : fs.isDir (pjoin (pjoin pkg.absDir cs!"node_modules") name) = true := by
        have hnrel : isAbs name = false := by
          cases hb : isAbs name with
          | false => rfl
          | true => rw [isAbs_append hb] at hxrel; cases hxrel
        rw [hl.dir _ _ (isAbs_pjoin_left _ hra) (sim_pjoin hra hdir name).1,
          pjoin_under (abs_ne_nil hroota) hnrel]
        exact hn
      have hnode : packageResolve fs (cfg rid).opts.conditionNames name rest p =
          loadExports fs (cfg rid).opts.conditionNames (under root name) rest e := by
        unfold packageResolve
        obtain ⟨up, hup⟩ := upParts_head p
        rw [hself, Option.none_or, hup, List.findSome?_cons, hin0]
        simp only [hn, if_true, hjm, Option.bind_some, exportsOf_some hg hce, Option.getD_some]
      rw [hnode]
      have hyield : ∀ r, ImportsOut (cfg rid).opts fs (Loads (cfg rid).opts fs) pkg request (.ok (t :: lt)) r →
          HitYields cfg ser fs rid (absText parts) request r := by
        intro r hr
        refine imports_yields hs hi.plain hi.abs hi.hash hi.loads (out := .ok (t :: lt)) ?_ ?_
        · rw [hpr]; exact hmap
        · rw [hpr]; exact hr
      have hbt : BareTarget (parseRequest t).target name rest := by rw [hpt]; exact hb
      have hld : Loads (cfg rid).opts fs
          (pjoin (pjoin pkg.absDir cs!"node_modules") (parseRequest t).target) (.ok (some q)) := by
        rw [hpt]
        show Loads _ _ (pjoin _ t) _
        rw [hb.split]
        exact hqload
      have hmp : ∀ out, Mapped (cfg rid).opts q (exportsKey rest [] []) out →
          Mapped (cfg rid).opts q (exportsKey rest (parseRequest t).query (parseRequest t).fragment) out := by
        intro out h; rw [hpt]; exact h
      unfold loadExports
      cases targets with
      | nil =>
        rw [h3]
        exact ⟨_, hyield _ (.notExported hbt hld hin hNdir (hmp _ hmapped) nofun)⟩
      | cons u lu =>
        have h3 : nodeExports (cfg rid).opts.conditionNames ('.' :: rest) e = .found u := h3
        obtain ⟨k1, k2, k3, k4, k5⟩ := hef u h3
        rw [h3]
        simp only
        rw [if_pos k1]
        have hpu := parseRequest_plain k4 k5
        obtain ⟨hus, htpu, hsim, hfile⟩ := target_node hl hqa hqd k1 k2 k3 k4 k5
        have hy := hyield _ (.exported (u := u) (l' := u :: lu) (r := .got (.file (pjoin q.absDir u))) hbt hld hin hNdir
          (hmp _ hmapped) ⟨[], lu, rfl, hus, nofun⟩ (by rw [hpu]; exact .inl (kind_dotSlash k3))
          (notCovered_node ho _ _) (notCovered_node ho _ _) (.file (by
            rw [hpu]
            show FirstIn _ (fileCandidates _ (targetPath _ u)) _
            rw [htpu, node_candidates ho]
            exact ⟨[], _, by rw [List.map_cons, List.append_nil]; rfl, hfile, nofun⟩)))
        rw [hpu] at hy
        obtain ⟨a, a1, a2⟩ := hy
        exact ⟨a, fileAnswer_sim hl (isAbs_pjoin_left _ hqa) hsim a1, a2⟩
  · simp only [he]
    exact ⟨_, hthrows e he⟩

/-! ## Cases that meet the demands -/

/-- The entries of the imports of `/p` in `treeIm`. -/
def importsList : List (Str × Json) :=
  [(cs!"#a", .arr [.str cs!"./a.js", .str cs!"./b.js"]), (cs!"#gone", .arr [.str cs!"./gone.js", .str cs!"./a.js"]),
    (cs!"#b", .str cs!"#a"), (cs!"#m", .str cs!"m"), (cs!"#e", .str cs!"e"), (cs!"#x/*", .str cs!"./*.js")]

theorem common_importsList : CommonMap .imports importsList := by
  refine ⟨by decide, ?_, ?_⟩
  · intro kv hkv
    simp only [importsList, List.mem_cons, List.not_mem_nil, or_false] at hkv
    rcases hkv with rfl | rfl | rfl | rfl | rfl | rfl <;> decide
  · intro kv hkv
    simp only [importsList, List.mem_cons, List.not_mem_nil, or_false] at hkv
    rcases hkv with rfl | rfl | rfl | rfl | rfl | rfl <;> refine ⟨by decide, fun t ht => ?_⟩ <;>
      simp only [Json.strings, arrStrings, List.mem_cons, List.mem_append, List.not_mem_nil, or_false] at ht
    · rcases ht with rfl | rfl <;> exact ⟨.inl ⟨⟨_, rfl⟩, by decide⟩, by decide⟩
    · rcases ht with rfl | rfl <;> exact ⟨.inl ⟨⟨_, rfl⟩, by decide⟩, by decide⟩
    · subst ht; exact ⟨.inr (by decide), by decide⟩
    · subst ht; exact ⟨.inr (by decide), by decide⟩
    · subst ht; exact ⟨.inr (by decide), by decide⟩
    · subst ht; exact ⟨.inl ⟨⟨_, rfl⟩, by decide⟩, by decide⟩

theorem scope_im : ∃ j, packageScope (treeFs treeIm []) [cs!"p"] = some ([cs!"p"], j) ∧
    j.get cs!"imports" = some (.obj importsList) := by
  have h : (packageScope (treeFs treeIm []) [cs!"p"]).map (fun x => (x.1, (x.2.get cs!"imports").map serJson)) =
      some ([cs!"p"], some (serJson (.obj importsList))) := by decide +kernel
  cases hp : packageScope (treeFs treeIm []) [cs!"p"] with
  | none => rw [hp] at h; cases h
  | some x =>
    rw [hp] at h
    obtain ⟨p, j⟩ := x
    have h := Option.some.inj h
    have h1 : p = [cs!"p"] := congrArg Prod.fst h
    have h2 : (j.get cs!"imports").map serJson = some (serJson (.obj importsList)) := congrArg Prod.snd h
    obtain ⟨v, h3, h4⟩ := Option.map_eq_some_iff.1 h2
    exact ⟨j, by rw [h1], by rw [h3, serJson_inj h4]⟩

theorem commonHash_im {request : Str} (h1 : ImportsKey request) (h2 : '?' ∉ request ∧ '#' ∉ request.tail)
    (h3 : request.getLast? ≠ some '/') (h4 : CommonRequest (importsList.map Prod.fst) request)
    (h5 : loadOk (cfgIm 0).opts (treeFs treeIm []) (under cs!"/p" request) = true)
    (h6 : closest (treeFs treeIm []) cs!"package.json" (under cs!"/p" request) = some cs!"/p")
    (h7 : ∀ t, nodeImports (cfgIm 0).opts.conditionNames request (.obj importsList) = .found t → '?' ∉ t ∧ '#' ∉ t ∧
      (cs!"./" <+: t ∧ Contained t ∨
        ∃ name rest e, BareTarget t name rest ∧ rest.getLast? ≠ some '/' ∧
          loadSelf (treeFs treeIm []) (cfgIm 0).opts.conditionNames name rest [cs!"p"] = none ∧
          CommonModule (cfgIm 0).opts (treeFs treeIm []) name rest (absText ([cs!"p"] ++ [cs!"node_modules"])) ∧
          (packageJson (treeFs treeIm []) (under (absText ([cs!"p"] ++ [cs!"node_modules"])) name)).bind
            (·.get cs!"exports") = some e)) :
    CommonHash (cfgIm 0).opts (treeFs treeIm []) request [cs!"p"] [cs!"p"] importsList where
  key := h1
  marks := h2
  slash := h3
  names := by decide
  scope := scope_im
  keys := by
    intro kv hkv
    simp only [importsList, List.mem_cons, List.not_mem_nil, or_false] at hkv
    rcases hkv with rfl | rfl | rfl | rfl | rfl | rfl <;> exact ⟨by decide, by decide, by decide⟩
  imports := common_importsList
  common := h4
  loads := ⟨_, loads_of_ok h5⟩
  own := ⟨_, h6, rfl⟩
  found := h7

theorem nodeOpts_im : NodeOpts (cfgIm 0).opts := ⟨rfl, by decide, rfl, rfl, rfl, rfl, rfl, rfl, rfl⟩

/-- The `*` key of the imports. -/
theorem commonRequest_im {request : Str} (h : ∀ rest, request = cs!"#x/" ++ rest →
    rest ≠ [] ∧ '$' ∉ rest ∧ hasBadSegment rest = false) : CommonRequest (importsList.map Prod.fst) request := by
  intro lit rest hl hr
  simp only [importsList, List.map_cons, List.map_nil, List.mem_cons, List.not_mem_nil, or_false] at hl
  have key : ∀ k : Str, lit ++ cs!"*" = k → k.getLast? = some '*' := by
    rintro k rfl; rw [List.getLast?_append]; rfl
  rcases hl with hl | hl | hl | hl | hl | hl
  · exact absurd (key _ hl) (by decide)
  · exact absurd (key _ hl) (by decide)
  · exact absurd (key _ hl) (by decide)
  · exact absurd (key _ hl) (by decide)
  · exact absurd (key _ hl) (by decide)
  · have e : lit = cs!"#x/" := List.append_inj_left' (hl.trans (show _ = cs!"#x/" ++ cs!"*" from rfl)) rfl
    subst e
    exact ⟨by decide, h rest hr⟩

-- `#x/b` from `/p` leads to `/p/b.js`
example : AsNode cfgIm serJson (treeFs treeIm []) 0 cs!"/p" cs!"#x/b" (some (.found cs!"/p/./b.js")) := by
  have h := C83_hash_partial static_im (rid := 0) nodeOpts_im (commonHash_im (request := cs!"#x/b")
    ⟨by decide, by decide, by decide⟩ (by decide) (by decide)
    (commonRequest_im fun rest h => by
      have : rest = cs!"b" := List.append_cancel_left (h.symm.trans (show _ = cs!"#x/" ++ cs!"b" from rfl))
      subst this
      decide) (by decide +kernel) (by decide +kernel) (fun t ht => by
      have e : nodeImports (cfgIm 0).opts.conditionNames cs!"#x/b" (.obj importsList) = .found cs!"./b.js" := by
        decide +kernel
      rw [e] at ht
      cases ht
      exact ⟨by decide, by decide, .inl ⟨by decide, (contained_iff _).1 (by decide +kernel)⟩⟩))
  have e : requireHash (treeFs treeIm []) (cfgIm 0).opts.conditionNames cs!"#x/b" [cs!"p"] =
      some (.found cs!"/p/./b.js") := by decide +kernel
  rw [e] at h
  exact h

-- `#gone` from `/p` is an error, though there is a file for the second target
example : AsNode cfgIm serJson (treeFs treeIm []) 0 cs!"/p" cs!"#gone" (some .throws) := by
  have h := C83_hash_partial static_im (rid := 0) nodeOpts_im (commonHash_im (request := cs!"#gone")
    ⟨by decide, by decide, by decide⟩ (by decide) (by decide)
    (commonRequest_im fun rest h => by cases h) (by decide +kernel) (by decide +kernel) (fun t ht => by
      have e : nodeImports (cfgIm 0).opts.conditionNames cs!"#gone" (.obj importsList) = .found cs!"./gone.js" := by
        decide +kernel
      rw [e] at ht
      cases ht
      exact ⟨by decide, by decide, .inl ⟨by decide, (contained_iff _).1 (by decide +kernel)⟩⟩))
  have e : requireHash (treeFs treeIm []) (cfgIm 0).opts.conditionNames cs!"#gone" [cs!"p"] = some .throws := by
    decide +kernel
  rw [e] at h
  exact h

/-- The exports of `e` in `treeIm`. -/
def exportsIm : Json := .obj [(cs!".", .str cs!"./main.js")]

theorem common_exportsIm : CommonExports exportsIm := by
  refine .paths (by decide) ?_ ⟨by decide, ?_, ?_⟩
  · intro kv hkv
    rw [List.mem_singleton] at hkv
    subst hkv
    exact .inl rfl
  · intro kv hkv
    rw [List.mem_singleton] at hkv
    subst hkv
    decide
  · intro kv hkv
    rw [List.mem_singleton] at hkv
    subst hkv
    refine ⟨by decide, fun t ht => ?_⟩
    simp only [Json.strings, List.mem_cons, List.not_mem_nil, or_false] at ht
    subst ht
    exact ⟨.inl ⟨⟨_, rfl⟩, by decide⟩, by decide⟩

-- `#e` from `/p` leads to `/p/node_modules/e/main.js`, by the exports of `e`
example : AsNode cfgIm serJson (treeFs treeIm []) 0 cs!"/p" cs!"#e" (some (.found cs!"/p/node_modules/e/./main.js")) := by
  have hg : ((packageJson (treeFs treeIm []) (under (absText ([cs!"p"] ++ [cs!"node_modules"])) cs!"e")).bind
      (·.get cs!"exports")) = some exportsIm := by
    have : ((packageJson (treeFs treeIm []) (under (absText ([cs!"p"] ++ [cs!"node_modules"])) cs!"e")).bind
      (·.get cs!"exports")).map serJson = some (serJson exportsIm) := by decide +kernel
    obtain ⟨v, h1, h2⟩ := Option.map_eq_some_iff.1 this
    rw [h1, serJson_inj h2]
  have h := C83_hash_partial static_im (rid := 0) nodeOpts_im (commonHash_im (request := cs!"#e")
    ⟨by decide, by decide, by decide⟩ (by decide) (by decide)
    (commonRequest_im fun rest h => by cases h) (by decide +kernel) (by decide +kernel) (fun t ht => by
      have e : nodeImports (cfgIm 0).opts.conditionNames cs!"#e" (.obj importsList) = .found cs!"e" := by
        decide +kernel
      rw [e] at ht
      cases ht
      refine ⟨by decide, by decide, .inr ⟨cs!"e", [], exportsIm,
        ⟨by decide, rfl, .inr rfl, .plain (rest := []) (by decide) (by decide) (.inl rfl), by decide⟩, by decide,
        by decide +kernel, ⟨⟨_, loads_of_ok (by decide +kernel)⟩,
          fun _ => closest_of (d := cs!"/p/node_modules/e") (by decide +kernel) rfl,
          fun h => absurd h (by decide +kernel), fun h => ?_, fun e he => ?_⟩, hg⟩⟩
      · rw [hg] at h; cases h
      · rw [hg] at he
        cases he
        refine ⟨common_exportsIm, ?_, fun t ht => ?_⟩
        · intro lit rest hl
          simp only [exportsIm, Json.topKeys, List.map_cons, List.map_nil, List.mem_cons, List.not_mem_nil,
            or_false] at hl
          have : (lit ++ cs!"*").getLast? = some '*' := by rw [List.getLast?_append]; rfl
          rw [hl] at this
          exact absurd this (by decide)
        · have e : nodeExports (cfgIm 0).opts.conditionNames ('.' :: []) exportsIm = .found cs!"./main.js" := by
            decide +kernel
          rw [e] at ht
          cases ht
          exact ⟨by decide +kernel, (contained_iff _).1 (by decide +kernel), by decide, by decide, by decide⟩))
  have e : requireHash (treeFs treeIm []) (cfgIm 0).opts.conditionNames cs!"#e" [cs!"p"] =
      some (.found cs!"/p/node_modules/e/./main.js") := by decide +kernel
  rw [e] at h
  exact h

/-! ## Where the code differs from Node.js -/

/-- What Node.js comes to for a `#` request. -/
def nodeHash (t : Tree) (parts : List Str) (x : Str) : Option Required := requireHash (treeFs t []) [] x parts

/-- A package `a` with imports, and the packages `b` (next to it, or in its `node_modules`) and `c`. -/
def treeHashed : Tree :=
  .dir [(cs!"node_modules", .dir [
    (cs!"a", .dir [
      (cs!"package.json", jsonFile (.obj [(cs!"imports", .obj [(cs!"#b", .str cs!"b/x.js"), (cs!"#c", .str cs!"c"),
        (cs!"#d", .str cs!"#e"), (cs!"#e", .str cs!"./a.js")])])),
      (cs!"a.js", textFile),
      (cs!"node_modules", .dir [
        (cs!"c", .dir [(cs!"package.json", jsonFile (.obj [(cs!"main", .str cs!"./c.js")])), (cs!"c.js", textFile)])])]),
    (cs!"b", .dir [(cs!"package.json", jsonFile (.obj [])), (cs!"x.js", textFile)])])]

/-- C83 does not hold for imports that give a package without exports: the code does not look at its `main`. -/
theorem C83_hash_main_violated :
    nodeHash treeHashed [cs!"node_modules", cs!"a"] cs!"#c" =
      some (.found cs!"/node_modules/a/node_modules/c/./c.js") ∧
    (resolve (treeEnv optsA treeHashed) 20 cs!"/node_modules/a" cs!"#c").freshErr =
      some cs!"Package path #c is not exported" := by decide +kernel

/-- C83 does not hold for imports of an installed package that give a package next to it: the code looks for it only in
the `node_modules` of the installed package. -/
theorem C83_hash_hoisted_violated :
    nodeHash treeHashed [cs!"node_modules", cs!"a"] cs!"#b" = some (.found cs!"/node_modules/b/x.js") ∧
    (resolve (treeEnv optsA treeHashed) 20 cs!"/node_modules/a" cs!"#b").freshErr =
      some cs!"Package path #b is not exported" := by decide +kernel

/-- C83 does not hold for imports that give another `#` request: to Node.js that is the name of a package. -/
theorem C83_hash_again_violated :
    nodeHash treeHashed [cs!"node_modules", cs!"a"] cs!"#d" = some .throws ∧
    foundPath optsA treeHashed cs!"/node_modules/a" cs!"#d" = some cs!"/node_modules/a/a.js" := by decide +kernel

end Verif
