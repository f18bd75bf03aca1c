import Verif.Proofs.RequireSelf
import Verif.Props.RequireHash
/-!
# C83 for requests of a package for itself
-/

namespace Verif

variable {cfg : Nat → Config} {ser : Json → Str} {fs : Fs} {rid : Nat}

/-- C83 for a request of a package for itself: the answer is the file that Node.js finds through the exports of the
package the request comes from, and an error if Node.js has one. Partial: for the options of `NodeOpts` and requests
and packages as in `CommonSelf`; see `C83_self_violated` for a package without `node_modules`. -/
theorem C83_self_partial (hs : Static cfg ser fs) (ho : NodeOpts (cfg rid).opts) {request name rest : Str}
    {parts p : List Str} {e : Json} (h : CommonSelf (cfg rid).opts fs request name rest parts p e) :
    AsNode cfg ser fs rid (absText parts) request
      (requireBare fs (cfg rid).opts.conditionNames name rest parts) := by
  have hpr := parseRequest_plain h.marks.1 h.marks.2
  have hsplit := h.target.split
  have hvalid : ∀ s ∈ parts, ValidName s := fun s hs =>
    have ⟨n1, n2, n3, n4⟩ := h.names s hs
    ⟨n1, n4, n2, n3⟩
  obtain ⟨j, hscope, hname, hexp⟩ := h.scope
  obtain ⟨hmem, -⟩ := packageScope_mem hscope
  obtain ⟨l, hanc, hpairs⟩ := ancestors_parts parts (isAbs_absText parts) (comps_absText hvalid)
  obtain ⟨r, h1, h2⟩ := search_at hs.lawful hpairs
    (fun q hq s hs => hvalid s (upParts_sub hq s hs)) (upParts_sorted parts) hmem h.between
    fun d hda hdc => self_node ho hs.lawful h hda hdc
  have hrel : isAbs (name ++ rest) = false := by rw [← hsplit]; exact kind_normal_rel h.target.kind
  have hfirst := firstLoad_node ho hs.lawful hvalid hsplit hrel h.first
  have hb : Bare (cfg rid).opts (absText parts) request name rest l :=
    ⟨plain_node ho _ _, isAbs_absText _, by rw [hpr]; exact h.target.kind, by rw [hpr]; exact hsplit, h.target.ascii,
      h.target.isName, h.target.scope, hanc⟩
  have hy := bare_yields' hs hb hfirst (r := some r) (by rw [hpr]; exact h1)
  refine asNode_hit hs.lawful ?_ hy
  have hself : loadSelf fs (cfg rid).opts.conditionNames name rest parts =
      some (loadExports fs (cfg rid).opts.conditionNames (absText p) rest e) := by
    unfold loadSelf
    rw [hscope]
    simp only [exportsOf_some hexp h.exports.1, hname]
    exact if_pos rfl
  unfold requireBare
  rw [hself]
  exact h2

/-! ## Cases that meet the demands -/

/-- A package `app` in `/p` with exports and an installed package. -/
def treeSelfReq : Tree :=
  .dir [(cs!"p", .dir [
    (cs!"package.json", jsonFile (.obj [(cs!"name", .str cs!"app"), (cs!"exports", exportsReq)])),
    (cs!"index.js", textFile),
    (cs!"lib", .dir [(cs!"y.js", textFile)]),
    (cs!"src", .dir [(cs!"a.js", textFile)]),
    (cs!"node_modules", .dir [(cs!"m", .dir [(cs!"index.js", textFile)])])])]

theorem static_selfReq : Static cfgReq serJson (treeFs treeSelfReq []) :=
  static_tree rfl rfl rfl (by decide +kernel)

theorem scope_selfReq : ∃ j, packageScope (treeFs treeSelfReq []) [cs!"p", cs!"src"] = some ([cs!"p"], j) ∧
    j.get cs!"name" = some (.str cs!"app") ∧ j.get cs!"exports" = some exportsReq := by
  have h : (packageScope (treeFs treeSelfReq []) [cs!"p", cs!"src"]).map (fun x => (x.1,
      (x.2.get cs!"name").map serJson, (x.2.get cs!"exports").map serJson)) =
      some ([cs!"p"], some (serJson (.str cs!"app")), some (serJson exportsReq)) := by decide +kernel
  cases hp : packageScope (treeFs treeSelfReq []) [cs!"p", cs!"src"] with
  | none => rw [hp] at h; cases h
  | some x =>
    rw [hp] at h
    obtain ⟨p, j⟩ := x
    have h := Option.some.inj h
    have h1 : p = [cs!"p"] := congrArg Prod.fst h
    obtain ⟨v, h3, h4⟩ := Option.map_eq_some_iff.1 (congrArg (fun x => x.2.1) h)
    obtain ⟨w, h5, h6⟩ := Option.map_eq_some_iff.1 (congrArg (fun x => x.2.2) h)
    exact ⟨j, by rw [h1], by rw [h3, serJson_inj h4], by rw [h5, serJson_inj h6]⟩

theorem commonSelf_req {request rest : Str} (h1 : request = cs!"app" ++ rest) (h2 : getTargetKind request = .normal)
    (h3 : PackageName (cs!"app" ++ rest) cs!"app") (h4 : '?' ∉ request ∧ '#' ∉ request)
    (h5 : rest.getLast? ≠ some '/')
    (h6 : loadOk (cfgReq 0).opts (treeFs treeSelfReq []) (under cs!"/p/src/node_modules" request) = true)
    (h7 : loadOk (cfgReq 0).opts (treeFs treeSelfReq []) (under cs!"/p/node_modules" request) = true)
    (h8 : closest (treeFs treeSelfReq []) cs!"package.json" (under cs!"/p/node_modules" request) = some cs!"/p")
    (h9 : CommonRequest exportsReq.topKeys ('.' :: rest))
    (h10 : ∀ t, nodeExports (cfgReq 0).opts.conditionNames ('.' :: rest) exportsReq = .found t →
      (treeFs treeSelfReq []).isFile (under cs!"/p" t) = true ∧ Contained t ∧ cs!"./" <+: t ∧ '?' ∉ t ∧ '#' ∉ t) :
    CommonSelf (cfgReq 0).opts (treeFs treeSelfReq []) request cs!"app" rest [cs!"p", cs!"src"] [cs!"p"] exportsReq where
  target := ⟨h2, h1, .inl (by decide), h3, by decide⟩
  marks := h4
  slash := h5
  names := names_req
  scope := scope_selfReq
  modules := by decide +kernel
  between := by
    intro q hq
    rcases mem_parts hq with rfl | rfl | rfl
    · intro _; decide +kernel
    · intro h; exact absurd h (by decide)
    · intro h; exact absurd h (by decide)
  first := ⟨_, loads_of_ok h6⟩
  loads := ⟨_, loads_of_ok h7⟩
  own := ⟨_, h8, rfl⟩
  exports := ⟨common_exportsReq, h9, h10⟩

/-- The `*` key of the exports. -/
theorem commonRequest_exportsReq {key : Str} (h : ∀ rest, key = cs!"./x/" ++ rest →
    rest ≠ [] ∧ '$' ∉ rest ∧ hasBadSegment rest = false) : CommonRequest exportsReq.topKeys key := by
  intro lit rest hl hr
  simp only [exportsReq, Json.topKeys, List.map_cons, List.map_nil, List.mem_cons, List.not_mem_nil, or_false] at hl
  have key : ∀ k : Str, lit ++ cs!"*" = k → k.getLast? = some '*' := by
    rintro k rfl; rw [List.getLast?_append]; rfl
  rcases hl with hl | hl
  · exact absurd (key _ hl) (by decide)
  · have e : lit = cs!"./x/" := List.append_inj_left' (hl.trans (show _ = cs!"./x/" ++ cs!"*" from rfl)) rfl
    subst e
    exact ⟨by decide, h rest hr⟩

-- `app/x/y` from `/p/src` leads to `/p/lib/y.js`
example : AsNode cfgReq serJson (treeFs treeSelfReq []) 0 cs!"/p/src" cs!"app/x/y" (some (.found cs!"/p/./lib/y.js")) := by
  have h := C83_self_partial static_selfReq (rid := 0) nodeOpts_req (commonSelf_req (request := cs!"app/x/y")
    (rest := cs!"/x/y") rfl (by decide) (.plain (rest := cs!"/x/y") (by decide) (by decide) (.inr ⟨_, rfl⟩))
    (by decide) (by decide) (by decide +kernel) (by decide +kernel) (by decide +kernel)
    (commonRequest_exportsReq fun rest hr => by
      have : rest = cs!"y" := List.append_cancel_left (hr.symm.trans (show _ = cs!"./x/" ++ cs!"y" from rfl))
      subst this
      decide) fun t ht => by
      have e : nodeExports (cfgReq 0).opts.conditionNames ('.' :: cs!"/x/y") exportsReq =
          .found cs!"./lib/y.js" := by decide +kernel
      rw [e] at ht
      cases ht
      exact ⟨by decide +kernel, (contained_iff _).1 (by decide +kernel), by decide, by decide, by decide⟩)
  have e : requireBare (treeFs treeSelfReq []) (cfgReq 0).opts.conditionNames cs!"app" cs!"/x/y" [cs!"p", cs!"src"] =
      some (.found cs!"/p/./lib/y.js") := by decide +kernel
  rw [e] at h
  exact h

-- `app/lib/y.js` from `/p/src` is an error: the file is there, and not exported
example : AsNode cfgReq serJson (treeFs treeSelfReq []) 0 cs!"/p/src" cs!"app/lib/y.js" (some .throws) := by
  have h := C83_self_partial static_selfReq (rid := 0) nodeOpts_req (commonSelf_req (request := cs!"app/lib/y.js")
    (rest := cs!"/lib/y.js") rfl (by decide) (.plain (rest := cs!"/lib/y.js") (by decide) (by decide) (.inr ⟨_, rfl⟩))
    (by decide) (by decide) (by decide +kernel) (by decide +kernel) (by decide +kernel)
    (commonRequest_exportsReq fun rest hr => by cases hr) fun t ht => by
      have e : nodeExports (cfgReq 0).opts.conditionNames ('.' :: cs!"/lib/y.js") exportsReq = .throws .notDefined := by
        decide +kernel
      rw [e] at ht
      cases ht)
  have e : requireBare (treeFs treeSelfReq []) (cfgReq 0).opts.conditionNames cs!"app" cs!"/lib/y.js"
      [cs!"p", cs!"src"] = some .throws := by decide +kernel
  rw [e] at h
  exact h

/-! ## Where the code differs from Node.js -/

/-- A package with exports, and another one with its name in its `node_modules`. -/
def treeSelfTwice : Tree :=
  .dir [(cs!"q", .dir [
    (cs!"package.json", jsonFile (.obj [(cs!"name", .str cs!"q"), (cs!"exports", .str cs!"./i.js")])),
    (cs!"i.js", textFile),
    (cs!"node_modules", .dir [
      (cs!"q", .dir [
        (cs!"package.json", jsonFile (.obj [(cs!"name", .str cs!"q")])),
        (cs!"index.js", textFile)])])])]

/-- C83 does not hold for a package that asks for itself and has a package with its name installed: the code takes the
installed one, and Node.js the package itself. -/
theorem C83_self_installed_violated :
    nodeBare treeSelfTwice [cs!"q"] cs!"q" [] = some (.found cs!"/q/./i.js") ∧
    foundPath optsA treeSelfTwice cs!"/q" cs!"q" = some cs!"/q/node_modules/q/index.js" := by decide +kernel

end Verif
