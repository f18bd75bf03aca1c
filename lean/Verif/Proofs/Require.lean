import Verif.Spec.Require
import Verif.Proofs.SelfRef
import Verif.Proofs.Modules
import Verif.Proofs.Options
import Verif.Proofs.Packages
import Verif.Proofs.Normalize
import Verif.Props.Node
/-!
# Lemmas on the comparison with `require` of Node.js
-/

namespace Verif

variable {o : Opts} {fs : Fs}

theorem pjoin_under {dir x : Str} (hd : dir ≠ []) (hx : isAbs x = false) : pjoin dir x = under dir x := by
  unfold pjoin under endsWithC
  rw [hx]
  by_cases h : dir.getLast? = some '/' <;> simp [h, hd]

theorem isAbs_under {dir : Str} (x : Str) (h : isAbs dir = true) : isAbs (under dir x) = true := by
  unfold under
  split <;> exact isAbs_append h _

theorem node_candidates (ho : NodeOpts o) (p : Str) :
    fileCandidates o p = [[], cs!".js", cs!".json", cs!".node"].map (p ++ ·) := by
  unfold fileCandidates
  rw [if_neg ho.enforce, ho.extensions]
  simp

/-- The same files are found below two spellings of a path. -/
theorem find_sim (hl : fs.Lawful) {p' p : Str} (ha : isAbs p' = true) (h : Sim p' p) (l : List Str) :
    (∃ q' q, FirstIn (fun q => fs.isFile q = true) (l.map (p' ++ ·)) q' ∧ (l.map (p ++ ·)).find? fs.isFile = some q ∧
      isAbs q' = true ∧ Sim q' q) ∨
    ((∀ q' ∈ l.map (p' ++ ·), fs.isFile q' = false) ∧ (l.map (p ++ ·)).find? fs.isFile = none) := by
  induction l with
  | nil => exact .inr ⟨nofun, rfl⟩
  | cons e l ih =>
    have hs := sim_append ha h e
    have he := hl.file _ _ (isAbs_append ha e) hs
    rw [List.map_cons, List.map_cons, List.find?_cons]
    cases hf : fs.isFile (p ++ e) with
    | true =>
      rw [hf] at he
      exact .inl ⟨_, _, ⟨[], _, rfl, he, nofun⟩, rfl, isAbs_append ha e, hs⟩
    | false =>
      rw [hf] at he
      rcases ih with ⟨q', q, h1, h2, h3, h4⟩ | ⟨h1, h2⟩
      · exact .inl ⟨q', q, (firstIn_cons (by rw [he]; nofun)).2 h1, h2, h3, h4⟩
      · refine .inr ⟨fun q hq => ?_, h2⟩
        rcases List.mem_cons.1 hq with rfl | hq
        · exact he
        · exact h1 q hq

theorem loadAsFile_eq (fs : Fs) (x : Str) :
    loadAsFile fs x = ([[], cs!".js", cs!".json", cs!".node"].map (x ++ ·)).find? fs.isFile := by
  simp [loadAsFile]

theorem under_append (x a b : Str) : under x (a ++ b) = under x a ++ b := by
  unfold under; split <;> simp

theorem loadIndex_eq (fs : Fs) {x : Str} (h : fs.isDir x = true) (hi : fs.isFile (under x cs!"index") = false) :
    loadIndex fs x = ([[], cs!".js", cs!".json", cs!".node"].map (under x cs!"index" ++ ·)).find? fs.isFile := by
  unfold loadIndex
  rw [if_pos h]
  simp only [List.map_cons, List.map_nil, ← under_append, List.append_nil]
  exact (List.find?_cons_of_neg (by rw [hi]; nofun)).symm

/-- What a directory comes to agrees with what Node.js finds. -/
def GotNode (r : Option Got) (n : Option Str) : Prop :=
  (∃ p' p, r = some (.file p') ∧ n = some p ∧ isAbs p' = true ∧ Sim p' p) ∨ r = none ∧ n = none

theorem notCovered_node (ho : NodeOpts o) (pkg : Option Pkg) (x : Str) : NotCovered o pkg x := by
  intro h; rw [ho.browser] at h; cases h

theorem files_node (ho : NodeOpts o) (hl : fs.Lawful) {y x : Str} (hy : isAbs y = true) (hc : comps y = comps x)
    (hd : fs.isDir x = true) (hi : fs.isFile (under x cs!"index") = false) (pkg : Option Pkg) :
    ∃ r, FilesOut o fs pkg y o.mainFiles r ∧ GotNode r (loadIndex fs x) := by
  have hx : isAbs x = true := by rw [← isAbs_of_comps hc]; exact hy
  have hs : Sim (pjoin y (cs!"./" ++ cs!"index")) (under x cs!"index") := by
    rw [← pjoin_under (abs_ne_nil hx) (by decide)]
    exact (sim_dotSlash hy (by decide)).symm.trans (sim_pjoin hy hc _)
  rw [loadIndex_eq fs hd hi, ho.mainFiles]
  rcases find_sim hl (isAbs_pjoin_left _ hy) hs [[], cs!".js", cs!".json", cs!".node"] with
    ⟨q', q, h1, h2, h3, h4⟩ | ⟨h1, h2⟩
  · exact ⟨_, .file (.keep (notCovered_node ho _ _)) (by rw [node_candidates ho]; exact h1),
      .inl ⟨_, _, rfl, h2, h3, h4⟩⟩
  · exact ⟨_, .next (notCovered_node ho _ _) (by rw [node_candidates ho]; exact h1) .nil, .inr ⟨rfl, h2⟩⟩

/-- Another spelling of a path has the same package. -/
theorem loads_spelling {o : Opts} {fs : Fs} (hl : fs.Lawful) {x y : Str} (hy : isAbs y = true) (hc : comps y = comps x)
    {pkg : Option Pkg} (h : Loads o fs x (.ok pkg)) :
    pkg = none ∧ Loads o fs y (.ok none) ∨
      ∃ p d, pkg = some p ∧ Loads o fs y (.ok (some { p with absDir := d })) ∧ comps d = comps p.absDir ∧
        isAbs d = true := by
  unfold Loads at h ⊢
  cases hdesc : o.descriptionFile with
  | none => rw [hdesc] at h; cases h; exact .inl ⟨rfl, rfl⟩
  | some desc =>
    rw [hdesc] at h
    rcases closest_comps (desc := desc) hl hy hc with ⟨h1, h2⟩ | ⟨d, d', h1, h2, h3, h4, h5, h6⟩
    · rw [findPkg_none h2] at h
      cases h
      exact .inl ⟨rfl, findPkg_none h1⟩
    · rw [findPkg_here h2] at h
      rw [findPkg_here h1]
      rcases readPkg_cases fs d' (pjoin d' desc) with ⟨a, ha⟩ | ⟨s, hs⟩
      · rw [ha, Prog.ret_bind] at h
        cases a with
        | error e => cases h
        | ok p =>
          cases h
          have hrel := readPkg_comps (desc := desc) (G := fun _ => True) (R := fun _ _ => True) hl h4 h3
          rw [ha] at hrel
          rcases readPkg_cases fs d (pjoin d desc) with ⟨b, hb⟩ | ⟨s, hs⟩
          · rw [hb] at hrel
            have hab : ReadRel d b (.ok p) := by cases hrel; assumption
            cases b with
            | error _ => cases hab
            | ok b =>
              have hb' : b = { p with absDir := d } := hab
              subst hb'
              rw [hb]
              exact .inr ⟨p, d, rfl, rfl, by rw [readPkg_dir ha]; exact h3, h4⟩
          · rw [hs] at hrel; cases hrel
      · rw [hs] at h; cases h

theorem packageJson_eq (fs : Fs) {x : Str} (hx : isAbs x = true) :
    packageJson fs x = if fs.isDir x = true ∧ fs.isFile (pjoin x cs!"package.json") = true then
      (fs.read (pjoin x cs!"package.json")).bind Doc.json else none := by
  unfold packageJson
  rw [← pjoin_under (abs_ne_nil hx) (by decide)]
  simp only [Bool.and_eq_true]

/-- The package of a path, and where it comes from. -/
theorem loads_here (ho : NodeOpts o) {x : Str} {p : Pkg} (hx : isAbs x = true) (h : Loads o fs x (.ok (some p))) :
    closest fs cs!"package.json" x = some p.absDir ∧ isAbs p.absDir = true ∧
      packageJson fs p.absDir = some p.raw ∧
      OwnTree .exports (p.raw.get cs!"exports") p.exportsTree := by
  unfold Loads at h
  rw [ho.description] at h
  obtain ⟨d, h1, h2, h3⟩ := findPkg_found hx (by rw [h]; exact .ret _)
  obtain ⟨doc, json, h4, h5, -, h6⟩ := readPkg_fields h3
  have hp := List.find?_some h1
  rw [Bool.and_eq_true] at hp
  rw [readPkg_dir h3]
  refine ⟨h1, h2, ?_, (readPkg_trees h3).1⟩
  rw [packageJson_eq fs h2, if_pos hp, h4, h6]
  exact h5

theorem packageJson_comps (hl : fs.Lawful) {x y : Str} (hx : isAbs x = true) (hc : comps x = comps y) :
    packageJson fs x = packageJson fs y := by
  have hy : isAbs y = true := by rw [← isAbs_of_comps hc]; exact hx
  have hs := sim_pjoin hx hc cs!"package.json"
  have ha := isAbs_pjoin_left cs!"package.json" hx
  rw [packageJson_eq fs hx, packageJson_eq fs hy, hl.dir _ _ hx hc, hl.file _ _ ha hs, hl.read _ _ ha hs]

/-- A directory without a description file. -/
theorem dirOut_plain (ho : NodeOpts o) (hl : fs.Lawful) {y x : Str} (hy : isAbs y = true) (hc : comps y = comps x)
    (hd : fs.isDir x = true) (hi : fs.isFile (under x cs!"index") = false)
    (hp : fs.isFile (under x cs!"package.json") = false) (hok : LoadsOk o fs x) :
    ∃ r, DirOut o fs (Loads o fs) y r ∧ GotNode r (loadIndex fs x) := by
  have hx : isAbs x = true := by rw [← isAbs_of_comps hc]; exact hy
  obtain ⟨pkg, hok⟩ := hok
  rcases loads_spelling hl hy hc hok with ⟨-, h1⟩ | ⟨p, d, rfl, h1, h2, h3⟩
  · obtain ⟨r, h3, h4⟩ := files_node ho hl hy hc hd hi none
    exact ⟨r, .noPkg h1 h3, h4⟩
  · obtain ⟨r, h4, h5⟩ := files_node ho hl hy hc hd hi (some { p with absDir := d })
    refine ⟨r, .otherPkg h1 (fun e => ?_) h4, h5⟩
    obtain ⟨-, -, h6, -⟩ := loads_here ho hy h1
    rw [packageJson_comps hl h3 (e.symm.trans hc), packageJson, hp, Bool.and_false] at h6
    cases h6

theorem mainValues_node (ho : NodeOpts o) (p : Pkg) :
    mainValues o p = ((p.raw.get cs!"main").bind Json.asStr).toList := by
  unfold mainValues
  rw [ho.mainFields]
  cases h : (p.raw.get cs!"main").bind Json.asStr <;> simp [h]

/-- What a directory comes to. -/
theorem dirOut_node (ho : NodeOpts o) (hl : fs.Lawful) {y x : Str} (hy : isAbs y = true) (hc : comps y = comps x)
    (hd : fs.isDir x = true) (hok : LoadsOk o fs x) (h : CommonDir o fs x) :
    ∃ r, DirOut o fs (Loads o fs) y r ∧ GotNode r (loadAsDirectory fs x) := by
  have hx : isAbs x = true := by rw [← isAbs_of_comps hc]; exact hy
  have hdy : fs.isDir y = true := by rw [hl.dir _ _ hy hc]; exact hd
  cases hp : fs.isFile (under x cs!"package.json") with
  | false =>
    have : packageJson fs x = none := by rw [packageJson, hp, Bool.and_false]; rfl
    unfold loadAsDirectory
    rw [this]
    exact dirOut_plain ho hl hy hc hd h.index hp hok
  | true =>
    obtain ⟨pkg, hok⟩ := hok
    have hf : fs.isFile (pjoin y cs!"package.json") = true := by
      rw [hl.file _ _ (isAbs_pjoin_left _ hy) (sim_pjoin hy hc _), pjoin_under (abs_ne_nil hx) (by decide)]
      exact hp
    have hcl : closest fs cs!"package.json" y = some y := by rw [closest_step, if_pos ⟨hdy, hf⟩]
    have hload : ∃ p, Loads o fs y (.ok (some p)) := by
      rcases loads_spelling hl hy hc hok with ⟨-, h1⟩ | ⟨p, d, rfl, h1, -⟩
      · unfold Loads at h1
        rw [ho.description, findPkg_here hcl] at h1
        rcases readPkg_cases fs y (pjoin y cs!"package.json") with ⟨a, ha⟩ | ⟨s, hs⟩
        · rw [ha, Prog.ret_bind] at h1
          cases a <;> cases h1
        · rw [hs] at h1; cases h1
      · exact ⟨_, h1⟩
    obtain ⟨p, hload⟩ := hload
    obtain ⟨h1, -, h2, -⟩ := loads_here ho hy hload
    have hdir : p.absDir = y := by rw [hcl] at h1; cases h1; rfl
    have hcp : comps y = comps p.absDir := by rw [hdir]
    have hj : packageJson fs x = some p.raw := by
      rw [← packageJson_comps hl hy hc, ← hdir]; exact h2
    obtain ⟨r0, hfiles, hidx⟩ := files_node ho hl hy hc hd h.index (some p)
    -- no main field
    have none_case : (p.raw.get cs!"main").bind Json.asStr = none →
        ∃ r, DirOut o fs (Loads o fs) y r ∧ GotNode r (loadAsDirectory fs x) := by
      intro hm
      have hmain : mainOf p.raw = none := by
        unfold mainOf
        cases hg : p.raw.get cs!"main" with
        | none => rfl
        | some v =>
          rw [hg] at hm
          cases v <;> first | rfl | cases hm
      refine ⟨r0, .noField hload hcp ?_ hfiles, ?_⟩
      · rw [mainValues_node ho, hm]; exact .nil
      · unfold loadAsDirectory
        rw [hj, Option.bind_some, hmain]
        exact hidx
    cases hm : (p.raw.get cs!"main").bind Json.asStr with
    | none => exact none_case hm
    | some m =>
      have hg : p.raw.get cs!"main" = some (.str m) := by
        cases hg : p.raw.get cs!"main" with
        | none => rw [hg] at hm; cases hm
        | some v =>
          rw [hg] at hm
          cases v <;> first | (cases hm; rfl) | cases hm
      have hcm := h.main _ _ hj hg
      have hrel : isAbs m = false := by
        cases hb : isAbs m with
        | false => rfl
        | true => exact (hcm.rel (List.isPrefixOf_iff_prefix.1 hb)).elim
      have hmain : mainOf p.raw = some m := by
        unfold mainOf
        rw [hg]
        cases m with
        | nil => exact (hcm.ne.1 rfl).elim
        | cons c m => rfl
      have hvals : mainValues o p = [m] := by rw [mainValues_node ho, hm]; rfl
      have hload' : loadAsDirectory fs x =
          (loadAsFile fs (under x m)).or ((loadIndex fs (under x m)).or (loadIndex fs x)) := by
        unfold loadAsDirectory
        rw [hj, Option.bind_some, hmain]
      have hz : Sim (fieldPath y m) (under x m) ∧ isAbs (fieldPath y m) = true := by
        unfold fieldPath
        rw [← pjoin_under (abs_ne_nil hx) hrel]
        refine ⟨?_, isAbs_pjoin_left _ hy⟩
        split
        · exact sim_pjoin hy hc m
        · exact (sim_dotSlash hy hrel).symm.trans (sim_pjoin hy hc m)
      have hkeep : Swap o (some p) (fieldPath y m) (some (fieldPath y m)) := .keep (notCovered_node ho _ _)
      rw [hload', loadAsFile_eq]
      rcases find_sim hl hz.2 hz.1 [[], cs!".js", cs!".json", cs!".node"] with
        ⟨q', q, f1, f2, f3, f4⟩ | ⟨f1, f2⟩
      · rw [f2]
        refine ⟨_, .field hload hcp ?_, .inl ⟨q', q, rfl, rfl, f3, f4⟩⟩
        rw [hvals]
        exact .file hcm.ne.2.1 hcm.ne.2.2 hkeep (by rw [node_candidates ho]; exact f1)
      · rw [f2, Option.none_or]
        rw [← node_candidates ho] at f1
        have hdz := hl.dir _ _ hz.2 hz.1.1
        cases hdm : fs.isDir (under x m) with
        | false =>
          rw [hdm] at hdz
          refine ⟨r0, .noField hload hcp ?_ hfiles, ?_⟩
          · rw [hvals]
            exact .missing hcm.ne.2.1 hcm.ne.2.2 hkeep f1 hdz .nil
          · have : loadIndex fs (under x m) = none := by unfold loadIndex; rw [hdm]; rfl
            rw [this, Option.none_or]
            exact hidx
        | true =>
          rw [hdm] at hdz
          obtain ⟨g1, g2, g3⟩ := hcm.plain hdm
          obtain ⟨r1, hd1, hg1⟩ := dirOut_plain ho hl hz.2 hz.1.1 hdm g2 g1 g3
          rcases hg1 with ⟨q', q, rfl, e2, e3, e4⟩ | ⟨rfl, e2⟩
          · rw [e2]
            refine ⟨_, .field hload hcp ?_, .inl ⟨q', q, rfl, rfl, e3, e4⟩⟩
            rw [hvals]
            exact .dir hcm.ne.2.1 hcm.ne.2.2 hkeep f1 hdz hd1
          · rw [e2, Option.none_or]
            refine ⟨r0, .noField hload hcp ?_ hfiles, hidx⟩
            rw [hvals]
            exact .dead hcm.ne.2.1 hcm.ne.2.2 hkeep f1 hdz hd1

/-- What is at a path agrees with what Node.js finds. -/
def LocNode (r : Loc) (n : Option Str) : Prop :=
  (∃ p' p, r = .got (.file p') ∧ n = some p ∧ isAbs p' = true ∧ Sim p' p) ∨ r = .missing ∧ n = none

theorem loadAsDirectory_none {x : Str} (hd : fs.isDir x = false) : loadAsDirectory fs x = none := by
  unfold loadAsDirectory packageJson loadIndex
  rw [hd]
  rfl

theorem atPath_node (ho : NodeOpts o) (hl : fs.Lawful) {y x : Str} (hy : isAbs y = true) (hs : Sim y x)
    (hok : LoadsOk o fs x) (h : fs.isDir x = true → CommonDir o fs x) :
    ∃ r, AtPath o fs (Loads o fs) y r ∧ LocNode r (loadPath fs x) := by
  unfold loadPath
  rw [loadAsFile_eq]
  rcases find_sim hl hy hs [[], cs!".js", cs!".json", cs!".node"] with ⟨q', q, f1, f2, f3, f4⟩ | ⟨f1, f2⟩
  · rw [f2]
    exact ⟨_, .file (by rw [node_candidates ho]; exact f1), .inl ⟨q', q, rfl, rfl, f3, f4⟩⟩
  · rw [← node_candidates ho] at f1
    have hdz := hl.dir _ _ hy hs.1
    cases hd : fs.isDir x with
    | false =>
      rw [hd] at hdz
      refine ⟨_, .missing f1 hdz, .inr ⟨rfl, ?_⟩⟩
      rw [f2, loadAsDirectory_none hd]
      rfl
    | true =>
      rw [hd] at hdz
      obtain ⟨r, h1, h2⟩ := dirOut_node ho hl hy hs.1 hd hok (h hd)
      have hf := (h hd).found
      unfold loadPath at hf
      rw [loadAsFile_eq] at hf
      rw [f2, Option.none_or] at hf ⊢
      rcases h2 with ⟨q', q, rfl, e2, e3, e4⟩ | ⟨rfl, e2⟩
      · exact ⟨_, .dir f1 hdz h1, .inl ⟨q', q, rfl, e2, e3, e4⟩⟩
      · exact (hf e2).elim

/-- What is above a directory is a directory. -/
theorem isDir_above (hl : fs.Lawful) {p q : Str} (ha : isAbs p = true) (hq : isAbs q = true)
    (h : comps q <+: comps p) (hd : fs.isDir p = true) : fs.isDir q = true := by
  induction hn : p.length using Nat.strongRecOn generalizing p with
  | ind n ih =>
    subst hn
    by_cases he : comps q = comps p
    · rw [hl.dir _ _ hq he]; exact hd
    · cases hp : pparent p with
      | none =>
        rcases (pparent_eq_none p).1 hp with hc | hc
        · exact (he (by rw [hc] at h ⊢; exact List.prefix_nil.1 h)).elim
        · rw [comps_eq_root hq] at he h
          rw [hc] at he h
          rw [List.cons_prefix_cons] at h
          exact (he (by rw [List.prefix_nil.1 h.2])).elim
      | some r =>
        refine ih _ (pparent_length hp) (by rw [isAbs_pparent hp]; exact ha) ?_ (hl.parent _ _ ha hp hd) rfl
        rw [comps_pparent hp]
        refine List.prefix_of_prefix_length_le h (List.dropLast_prefix _) ?_
        rw [List.length_dropLast]
        have h1 := h.length_le
        have h2 : (comps q).length ≠ (comps p).length := fun e => he (h.eq_of_length e)
        omega

theorem comps_name {dir name rest : Str} (ha : isAbs dir = true) (hn : isAbs (name ++ rest) = false)
    (hr : rest = [] ∨ ['/'] <+: rest) : comps (pjoin dir name) <+: comps (pjoin dir (name ++ rest)) := by
  have hne := abs_ne_nil ha
  rcases hr with rfl | ⟨r, rfl⟩
  · rw [List.append_nil]; exact List.prefix_refl _
  · have hn' : isAbs name = false := by
      cases hb : isAbs name with
      | false => rfl
      | true => rw [isAbs_append hb] at hn; cases hn
    rw [comps_pjoin hne hn, comps_pjoin hne hn', body_comps_rel (isAbs_false hn), body_comps_rel (isAbs_false hn')]
    refine List.prefix_append_right_inj _ |>.2 ?_
    rw [show name ++ (['/'] ++ r) = name ++ '/' :: r from rfl, splitC_append_sep, segComps_append]
    exact List.prefix_append ..

/-- What one step of the search comes to agrees with what Node.js does. -/
def HitNode (r : Option Hit) (n : Option Required) : Prop :=
  (∃ p' p, r = some (.file p' [] []) ∧ n = some (.found p) ∧ isAbs p' = true ∧ Sim p' p) ∨
    (∃ e, r = some (.fail e) ∧ n = some .throws) ∨ r = none ∧ n = none

theorem parseRequest_plain {s : Str} (hq : '?' ∉ s) (hf : '#' ∉ s) :
    parseRequest s = ⟨s, [], [], getTargetKind s⟩ := by
  have h : IsSplit s s [] [] := ⟨by simp, hq, fun h => hf (List.mem_of_mem_tail h), .inl rfl, nofun, .inl rfl,
    fun _ _ => rfl⟩
  unfold parseRequest
  rw [parse_of_isSplit h]

theorem commonExports_null : ¬ CommonExports .null := by
  intro h
  cases h with
  | main h => cases h

theorem exportsOf_some {j e : Json} (h : j.get cs!"exports" = some e) (hc : CommonExports e) :
    exportsOf j = some e := by
  unfold exportsOf
  rw [h]
  cases e with
  | null => exact (commonExports_null hc).elim
  | _ => rfl

theorem exportsOf_none {j : Json} (h : j.get cs!"exports" = none) : exportsOf j = none := by
  unfold exportsOf
  rw [h]

theorem kind_dotSlash {t : Str} (h : cs!"./" <+: t) : getTargetKind t = .relative := by
  obtain ⟨r, rfl⟩ := h
  rfl

/-- A package in a `node_modules` directory. -/
theorem module_node (ho : NodeOpts o) (hl : fs.Lawful) {name rest r dir : Str} (hra : isAbs r = true)
    (hdir : comps r = comps dir) (hxrel : isAbs (name ++ rest) = false) (h : CommonModule o fs name rest dir)
    (hn : fs.isDir (under dir name) = true) :
    ∃ p, Loads o fs (pjoin r (name ++ rest)) (.ok (some p)) ∧ comps p.absDir = comps (under dir name) ∧
      isAbs p.absDir = true ∧ packageJson fs (under dir name) = some p.raw ∧
      OwnTree .exports (p.raw.get cs!"exports") p.exportsTree := by
  have hdira : isAbs dir = true := by rw [← isAbs_of_comps hdir]; exact hra
  have hX : Sim (pjoin r (name ++ rest)) (under dir (name ++ rest)) := by
    rw [← pjoin_under (abs_ne_nil hdira) hxrel]; exact sim_pjoin hra hdir _
  have hXa := isAbs_pjoin_left (name ++ rest) hra
  have hXUa : isAbs (under dir (name ++ rest)) = true := isAbs_under _ hdira
  obtain ⟨pkg0, hok⟩ := h.loads
  obtain ⟨dd, hcl, hdd⟩ := h.own hn
  have hpkg : ∃ p, Loads o fs (pjoin r (name ++ rest)) (.ok (some p)) ∧
      comps p.absDir = comps (under dir name) := by
    rcases loads_spelling hl hXa hX.1 hok with ⟨rfl, h1⟩ | ⟨p, d2, rfl, h1, h2, -⟩
    · unfold Loads at hok
      rw [ho.description, findPkg_here hcl] at hok
      rcases readPkg_cases fs dd (pjoin dd cs!"package.json") with ⟨a, ha⟩ | ⟨s, hs⟩
      · rw [ha, Prog.ret_bind] at hok
        cases a <;> cases hok
      · rw [hs] at hok; cases hok
    · obtain ⟨h3, -⟩ := loads_here ho hXUa hok
      rw [hcl] at h3
      cases h3
      exact ⟨_, h1, h2.trans hdd⟩
  obtain ⟨p, hload, hpd⟩ := hpkg
  obtain ⟨-, hpa, hraw, htree⟩ := loads_here ho hXa hload
  exact ⟨p, hload, hpd, hpa, by rw [← packageJson_comps hl hpa hpd]; exact hraw, htree⟩

/-- A target of exports that Node.js finds is usable, and the same file. -/
theorem target_node (hl : fs.Lawful) {dir root t : Str} (ha : isAbs dir = true) (hd : comps dir = comps root)
    (k1 : fs.isFile (under root t) = true) (k2 : Contained t) (k3 : cs!"./" <+: t) (k4 : '?' ∉ t) (k5 : '#' ∉ t) :
    Usable fs dir t ∧ targetPath dir t = pjoin dir t ∧ Sim (pjoin dir t) (under root t) ∧
      fs.isFile (pjoin dir t) = true := by
  have hpr := parseRequest_plain k4 k5
  have hra : isAbs root = true := by rw [← isAbs_of_comps hd]; exact ha
  have htrel : isAbs t = false := by
    obtain ⟨r, rfl⟩ := k3
    rfl
  have htp : targetPath dir t = pjoin dir t := by
    unfold targetPath
    rw [if_neg]
    obtain ⟨r, rfl⟩ := k3
    rintro (hh | hh) <;> cases hh
  have hsim : Sim (pjoin dir t) (under root t) := by
    rw [← pjoin_under (abs_ne_nil hra) htrel]
    exact sim_pjoin ha hd t
  have hfile : fs.isFile (pjoin dir t) = true := by
    rw [hl.file _ _ (isAbs_pjoin_left _ ha) hsim]; exact k1
  refine ⟨?_, htp, hsim, hfile⟩
  unfold Usable
  rw [hpr]
  exact ⟨by rw [htp]; exact hfile, k2⟩

/-- What the exports of a package in a `node_modules` directory give. -/
theorem exports_mapped {rest : Str} {p : Pkg} {e : Json} (hrest : rest = [] ∨ ['/'] <+: rest)
    (hslash : rest.getLast? ≠ some '/')
    (hg : p.raw.get cs!"exports" = some e) (htree : OwnTree .exports (p.raw.get cs!"exports") p.exportsTree)
    (hce : CommonExports e) (hcr : CommonRequest e.topKeys ('.' :: rest)) :
    ∃ targets, Mapped o p (exportsKey rest [] []) (.ok targets) ∧
      nodeExports o.conditionNames ('.' :: rest) e = firstTarget targets := by
  rw [hg] at htree
  obtain ⟨root, htree, hbuild⟩ := htree
  have hkey : ExportsKey ('.' :: rest) := by
    rcases hrest with rfl | ⟨r, rfl⟩
    · exact .inl rfl
    · exact .inr ⟨r, rfl⟩
  have hkl : ('.' :: rest).getLast? ≠ some '/' := by
    cases hrl : rest.getLast? with
    | none => rw [List.getLast?_eq_none_iff.1 hrl]; decide
    | some c =>
      rw [List.getLast?_cons, hrl]
      rw [hrl] at hslash
      exact hslash
  obtain ⟨root', targets, h1, h2, h3⟩ := C68_exports_partial hce hkey hkl hcr o.conditionNames
  rw [hbuild] at h1
  cases h1
  refine ⟨targets, ?_, h3⟩
  unfold exportsKey
  rw [if_pos ⟨rfl, rfl⟩]
  exact ⟨root, htree, h2⟩

theorem exports_node {name rest dir : Str} {p : Pkg} {e : Json} (hpa : isAbs p.absDir = true)
    (hpd : comps p.absDir = comps (under dir name)) (hrest : rest = [] ∨ ['/'] <+: rest)
    (hslash : rest.getLast? ≠ some '/') (hcont : cs!"node_modules" <:+: dir)
    (hg : p.raw.get cs!"exports" = some e) (htree : OwnTree .exports (p.raw.get cs!"exports") p.exportsTree)
    (hce : CommonExports e) (hcr : CommonRequest e.topKeys ('.' :: rest)) :
    cs!"node_modules" <:+: p.absDir ∧ ∃ targets, Mapped o p (exportsKey rest [] []) (.ok targets) ∧
      nodeExports o.conditionNames ('.' :: rest) e = firstTarget targets := by
  refine ⟨?_, exports_mapped hrest hslash hg htree hce hcr⟩
  rw [← containsStr_iff, show cs!"node_modules" = MODULE from rfl, contains_module_comps hpa hpd, containsStr_iff]
  unfold under
  obtain ⟨a, b, hab⟩ := hcont
  refine List.IsInfix.trans ⟨a, b, hab⟩ ?_
  split <;> exact (List.prefix_append ..).isInfix

/-- Exports that apply, and what Node.js makes of them. -/
theorem mapped_node (ho : NodeOpts o) (hl : fs.Lawful) {name rest d dir : Str} {p : Pkg} {e : Json}
    (hroot : fs.isDir (pjoin d cs!"node_modules") = true)
    (hload : Loads o fs (pjoin (pjoin d cs!"node_modules") (name ++ rest)) (.ok (some p)))
    (hent : Entered fs d name rest p) (happ : ExportsApply p (name ++ rest))
    (hpa : isAbs p.absDir = true) (hpd : comps p.absDir = comps dir)
    {targets : List Str} (hmapped : Mapped o p (exportsKey rest [] []) (.ok targets))
    (h3 : nodeExports o.conditionNames ('.' :: rest) e = firstTarget targets)
    (hfound : ∀ t, nodeExports o.conditionNames ('.' :: rest) e = .found t →
      fs.isFile (under dir t) = true ∧ Contained t ∧ cs!"./" <+: t ∧ '?' ∉ t ∧ '#' ∉ t) :
    ∃ r, StepOut o fs (Loads o fs) name rest [] [] d (some r) ∧
      HitNode (some r) (some (loadExports fs o.conditionNames dir rest e)) := by
  unfold loadExports
  cases targets with
  | nil =>
    rw [h3]
    exact ⟨_, .notExported hroot hload hent happ hmapped nofun, .inr (.inl ⟨_, rfl, rfl⟩)⟩
  | cons t l =>
    have h3 : nodeExports o.conditionNames ('.' :: rest) e = .found t := h3
    obtain ⟨k1, k2, k3, k4, k5⟩ := hfound t h3
    rw [h3]
    simp only
    rw [if_pos k1]
    have hpr := parseRequest_plain k4 k5
    obtain ⟨hus, htp, hsim, hfile⟩ := target_node hl hpa hpd k1 k2 k3 k4 k5
    have hexpath : exportPath p.absDir t = pjoin p.absDir t := by
      unfold exportPath
      rw [kind_dotSlash k3, if_neg nofun, htp]
    have hstep := StepOut.mapped (o := o) (fs := fs) (load := Loads o fs) (query := []) (fragment := [])
      (y := pjoin p.absDir t) (t := t) (r := .got (.file (pjoin p.absDir t))) hroot hload hent
      happ hmapped ⟨[], l, rfl, hus, nofun⟩ (by
        rw [hpr]
        obtain ⟨r, rfl⟩ := k3
        rintro ⟨w, hw⟩
        cases hw) (by
        rw [hpr]
        show Swap o (some p) (exportPath p.absDir t) _
        rw [hexpath]
        exact .keep (notCovered_node ho _ _)) (.file (by
        rw [node_candidates ho]
        exact ⟨[], _, by rw [List.map_cons, List.append_nil]; rfl, hfile, nofun⟩))
    rw [hpr] at hstep
    exact ⟨_, hstep, .inl ⟨_, _, rfl, rfl, isAbs_pjoin_left _ hpa, hsim⟩⟩

/-- One step of the search. -/
theorem step_node (ho : NodeOpts o) (hl : fs.Lawful) {name rest d dir : Str} (hd : isAbs d = true)
    (hdir : comps (pjoin d cs!"node_modules") = comps dir) (ht : BareTarget (name ++ rest) name rest)
    (hslash : rest.getLast? ≠ some '/') (hcont : cs!"node_modules" <:+: dir)
    (h : fs.isDir dir = true → CommonModule o fs name rest dir) :
    ∃ r, StepOut o fs (Loads o fs) name rest [] [] d r ∧ HitNode r (loadModule fs o.conditionNames name rest dir) := by
  have hra : isAbs (pjoin d cs!"node_modules") = true := isAbs_pjoin_left _ hd
  have hdira : isAbs dir = true := by rw [← isAbs_of_comps hdir]; exact hra
  have hroot := hl.dir _ _ hra hdir
  unfold loadModule
  cases hm : fs.isDir dir with
  | false =>
    rw [hm] at hroot
    exact ⟨_, .noModules hroot, .inr (.inr ⟨rfl, rfl⟩)⟩
  | true =>
    rw [hm] at hroot
    rw [if_pos rfl]
    have h := h hm
    have hxrel : isAbs (name ++ rest) = false := kind_normal_rel ht.kind
    have hnrel : isAbs name = false := by
      cases hb : isAbs name with
      | false => rfl
      | true => rw [isAbs_append hb] at hxrel; cases hxrel
    have hrest : rest = [] ∨ ['/'] <+: rest := packageName_rest ht.isName
    have hX : Sim (pjoin (pjoin d cs!"node_modules") (name ++ rest)) (under dir (name ++ rest)) := by
      rw [← pjoin_under (abs_ne_nil hdira) hxrel]; exact sim_pjoin hra hdir _
    have hXa := isAbs_pjoin_left (name ++ rest) hra
    have hN : comps (pjoin (pjoin d cs!"node_modules") name) = comps (under dir name) := by
      rw [← pjoin_under (abs_ne_nil hdira) hnrel]; exact (sim_pjoin hra hdir _).1
    have hNa := isAbs_pjoin_left name hra
    have hNdir := hl.dir _ _ hNa hN
    have hUa : isAbs (under dir name) = true := isAbs_under _ hdira
    have hXUa : isAbs (under dir (name ++ rest)) = true := isAbs_under _ hdira
    obtain ⟨pkg0, hok⟩ := h.loads
    cases hn : fs.isDir (under dir name) with
    | false =>
      rw [hn] at hNdir
      have hpj : packageJson fs (under dir name) = none := by unfold packageJson; rw [hn]; rfl
      have hXdir : fs.isDir (under dir (name ++ rest)) = false := by
        cases hb : fs.isDir (under dir (name ++ rest)) with
        | false => rfl
        | true =>
          have : fs.isDir (under dir name) = true := by
            refine isDir_above hl hXUa hUa ?_ hb
            rw [← pjoin_under (abs_ne_nil hdira) hxrel, ← pjoin_under (abs_ne_nil hdira) hnrel]
            exact comps_name hdira hxrel hrest
          rw [hn] at this; cases this
      rw [hpj]
      show ∃ r, _ ∧ HitNode r ((loadPath fs (under dir (name ++ rest))).map .found)
      have hpkg : ∃ pkg, Loads o fs (pjoin (pjoin d cs!"node_modules") (name ++ rest)) (.ok pkg) ∧
          ¬ HasPackage fs d name (name ++ rest) pkg := by
        rcases loads_spelling hl hXa hX.1 hok with ⟨-, h1⟩ | ⟨p, dd, rfl, h1, -, -⟩
        · refine ⟨_, h1, ?_⟩
          rintro (h2 | ⟨_, _, h2, -⟩)
          · rw [hNdir] at h2; cases h2
          · cases h2
        · refine ⟨_, h1, ?_⟩
          rintro (h2 | ⟨q, n, h2, h3, h4⟩)
          · rw [hNdir] at h2; cases h2
          · cases h2
            exact h.other hn p n hok h3 h4
      obtain ⟨pkg, hload, hno⟩ := hpkg
      unfold loadPath
      rw [loadAsFile_eq, loadAsDirectory_none hXdir, Option.or_none]
      rcases find_sim hl hXa hX [[], cs!".js", cs!".json", cs!".node"] with ⟨q', q, f1, f2, f3, f4⟩ | ⟨f1, f2⟩
      · rw [f2]
        exact ⟨_, .file hroot hload hno (by rw [node_candidates ho]; exact f1), .inl ⟨q', q, rfl, rfl, f3, f4⟩⟩
      · rw [f2]
        exact ⟨_, .missing hroot hload hno (by rw [node_candidates ho]; exact f1), .inr (.inr ⟨rfl, rfl⟩)⟩
    | true =>
      rw [hn] at hNdir
      obtain ⟨p, hload, hpd, hpa, hpj, htree⟩ := module_node ho hl hra hdir hxrel h hn
      rw [hpj, Option.bind_some]
      have hlive := h.live
      have hexp := h.exports
      rw [hpj, Option.bind_some] at hlive hexp
      cases hg : p.raw.get cs!"exports" with
      | none =>
        rw [exportsOf_none hg]
        rw [hg] at htree
        obtain ⟨r, h1, h2⟩ := atPath_node ho hl (y := pjoin (pjoin d cs!"node_modules") (cs!"./" ++ (name ++ rest)))
          (isAbs_pjoin_left _ hra) ((sim_dotSlash hra hxrel).symm.trans hX) ⟨_, hok⟩ (hlive hg)
        refine ⟨_, .plain hroot hload (.inl hNdir) ?_ (.keep (notCovered_node ho _ _)) h1, ?_⟩
        · rintro q hq -
          cases hq
          exact htree
        · rcases h2 with ⟨q', q, rfl, e2, e3, e4⟩ | ⟨rfl, e2⟩
          · exact .inl ⟨q', q, rfl, by rw [e2]; rfl, e3, e4⟩
          · exact .inr (.inr ⟨rfl, by rw [e2]; rfl⟩)
      | some e =>
        obtain ⟨hce, hcr, hfound⟩ := hexp e hg
        rw [exportsOf_some hg hce]
        show ∃ r, _ ∧ HitNode r (some (loadExports fs o.conditionNames (under dir name) rest e))
        obtain ⟨hin, targets, hmapped, h3⟩ := exports_node hpa hpd hrest hslash hcont hg htree hce hcr
        obtain ⟨r, g1, g2⟩ := mapped_node ho hl hroot hload (.inl hNdir) (.inl hin) hpa hpd hmapped h3 hfound
        exact ⟨_, g1, g2⟩

theorem upParts_nil : upParts [] = [[]] := rfl

theorem upParts_snoc (l : List Str) (x : Str) : upParts (l ++ [x]) = (l ++ [x]) :: upParts l := by
  unfold upParts
  rw [List.length_append, List.length_singleton, List.range_succ (n := l.length + 1), List.reverse_append,
    List.reverse_singleton, List.singleton_append, List.map_cons]
  congr 1
  · rw [List.take_of_length_le]; simp
  · apply List.map_congr_left
    intro i hi
    rw [List.mem_reverse, List.mem_range] at hi
    rw [List.take_append_of_le_length (by omega)]

/-- Two lists agree, place by place. -/
inductive Pairs {α β : Type} (R : α → β → Prop) : List α → List β → Prop where
  | nil : Pairs R [] []
  | cons {a : α} {b : β} {l : List α} {m : List β} : R a b → Pairs R l m → Pairs R (a :: l) (b :: m)

theorem upParts_sub {parts p : List Str} (h : p ∈ upParts parts) : ∀ x ∈ p, x ∈ parts := by
  unfold upParts at h
  obtain ⟨i, -, rfl⟩ := List.mem_map.1 h
  exact fun x hx => List.mem_of_mem_take hx

theorem ancestors_parts {d : Str} (parts : List Str) (ha : isAbs d = true)
    (h : comps d = .root :: parts.map Comp.normal) :
    ∃ l, Ancestors d l ∧ Pairs (fun d p => isAbs d = true ∧ comps d = .root :: p.map Comp.normal) l (upParts parts) := by
  induction hn : parts.length generalizing d parts with
  | zero =>
    have : parts = [] := List.length_eq_zero_iff.1 hn
    subst this
    exact ⟨[d], .top ((pparent_eq_none d).2 (.inr h)), .cons ⟨ha, h⟩ .nil⟩
  | succ n ih =>
    have hne : parts ≠ [] := by rintro rfl; cases hn
    obtain ⟨l, x, rfl⟩ : ∃ l x, parts = l ++ [x] := ⟨_, _, (List.dropLast_concat_getLast hne).symm⟩
    cases hp : pparent d with
    | none =>
      rcases (pparent_eq_none d).1 hp with hc | hc <;> rw [hc] at h <;> simp at h
    | some q =>
      have hq : comps q = .root :: l.map Comp.normal := by
        rw [comps_pparent hp, h, List.map_append, List.map_singleton, ← List.cons_append, List.dropLast_concat]
      have hqa : isAbs q = true := by rw [isAbs_pparent hp]; exact ha
      obtain ⟨m, h1, h2⟩ := ih l hqa hq (by simpa using hn)
      rw [upParts_snoc]
      exact ⟨d :: m, .up hp h1, .cons ⟨ha, h⟩ h2⟩

theorem comps_absText {p : List Str} (h : ∀ s ∈ p, ValidName s) : comps (absText p) = .root :: p.map Comp.normal := by
  rw [absText_eq, comps_textOf h]
  rfl

theorem isAbs_absText (p : List Str) : isAbs (absText p) = true := rfl

theorem validName_modules : ValidName cs!"node_modules" := by unfold ValidName; decide

/-- The whole search. -/
theorem search_node (ho : NodeOpts o) (hl : fs.Lawful) {name rest : Str} {request : Str} {parts : List Str}
    (h : CommonBare o fs request name rest parts) {l : List Str} {ps : List (List Str)}
    (hp : Pairs (fun d p => isAbs d = true ∧ comps d = .root :: p.map Comp.normal) l ps)
    (hps : ∀ p ∈ ps, p ∈ upParts parts) :
    ∃ r, SearchOut o fs (Loads o fs) name rest [] [] l r ∧
      HitNode r (((ps.filter fun p => p.getLast? ≠ some cs!"node_modules").map fun p =>
        absText (p ++ [cs!"node_modules"])).findSome? (loadModule fs o.conditionNames name rest)) := by
  induction hp with
  | nil => exact ⟨none, .nil, .inr (.inr ⟨rfl, rfl⟩)⟩
  | @cons d p l ps hd _ ih =>
    obtain ⟨hda, hdc⟩ := hd
    obtain ⟨r, h1, h2⟩ := ih fun q hq => hps q (List.mem_cons_of_mem _ hq)
    have hp := hps p (List.mem_cons_self ..)
    have hvalid : ∀ s ∈ p ++ [cs!"node_modules"], ValidName s := by
      intro s hs
      rcases List.mem_append.1 hs with hs | hs
      · obtain ⟨n1, n2, n3, n4⟩ := h.names s (upParts_sub hp s hs)
        exact ⟨n1, n4, n2, n3⟩
      · rw [List.mem_singleton] at hs; rw [hs]; exact validName_modules
    have hdir : comps (pjoin d cs!"node_modules") = comps (absText (p ++ [cs!"node_modules"])) := by
      rw [comps_absText hvalid, comps_pjoin (abs_ne_nil hda) rfl, hdc, List.map_append]
      rfl
    by_cases hm : p.getLast? = some cs!"node_modules"
    · rw [List.filter_cons_of_neg (by simpa using hm)]
      refine ⟨r, .next (.noModules ?_) h1, h2⟩
      rw [hl.dir _ _ (isAbs_pjoin_left _ hda) hdir]
      exact h.nested p hp hm
    · rw [List.filter_cons_of_pos (by simpa using hm), List.map_cons, List.findSome?_cons]
      have hcont : cs!"node_modules" <:+: absText (p ++ [cs!"node_modules"]) := by
        refine (containsStr_iff _ _).1 ((contains_module_iff (isAbs_absText _)).2 ?_)
        rw [comps_absText hvalid]
        exact ⟨cs!"node_modules", by simp, List.infix_refl _⟩
      obtain ⟨r', g1, g2⟩ := step_node ho hl hda hdir (h.target.split ▸ h.target) h.slash hcont (h.modules p hp)
      rcases g2 with ⟨q', q, rfl, e2, e3, e4⟩ | ⟨e, rfl, e2⟩ | ⟨rfl, e2⟩
      · rw [e2]
        exact ⟨_, .hit g1, .inl ⟨q', q, rfl, rfl, e3, e4⟩⟩
      · rw [e2]
        exact ⟨_, .hit g1, .inr (.inl ⟨e, rfl, rfl⟩)⟩
      · rw [e2]
        exact ⟨r, .next g1 h1, h2⟩

theorem comps_modules {parts : List Str} {d : Str} (ha : isAbs d = true) (h : ∀ s ∈ parts, ValidName s)
    (hd : comps d = .root :: parts.map Comp.normal) :
    comps (pjoin d cs!"node_modules") = comps (absText (parts ++ [cs!"node_modules"])) := by
  rw [comps_absText, comps_pjoin (abs_ne_nil ha) rfl, hd, List.map_append]
  · rfl
  · intro s hs
    rcases List.mem_append.1 hs with hs | hs
    · exact h s hs
    · rw [List.mem_singleton] at hs; rw [hs]; exact validName_modules

/-- The description file that is loaded at first. -/
theorem firstLoad_node (ho : NodeOpts o) (hl : fs.Lawful) {parts : List Str} {request name rest : Str}
    (hvalid : ∀ s ∈ parts, ValidName s) (hsplit : request = name ++ rest) (hrel : isAbs (name ++ rest) = false)
    (h : LoadsOk o fs (under (absText (parts ++ [cs!"node_modules"])) request)) :
    FirstLoad o fs (absText parts) (name ++ rest) := by
  obtain ⟨pkg, hok⟩ := h
  have hdir := comps_modules (isAbs_absText parts) hvalid (comps_absText hvalid)
  have hra := isAbs_pjoin_left cs!"node_modules" (isAbs_absText parts)
  have hX : comps (pjoin (pjoin (absText parts) cs!"node_modules") (name ++ rest)) =
      comps (under (absText (parts ++ [cs!"node_modules"])) request) := by
    rw [hsplit, ← pjoin_under (abs_ne_nil (isAbs_absText _)) hrel]
    exact (sim_pjoin hra hdir _).1
  have hk : ∀ pkg, NotKeyed o pkg (name ++ rest) := by
    intro pkg hb; rw [ho.browser] at hb; cases hb
  rcases loads_spelling hl (isAbs_pjoin_left _ hra) hX hok with ⟨-, g⟩ | ⟨p, d, rfl, g, -⟩
  · exact ⟨_, g, hk _⟩
  · exact ⟨_, g, hk _⟩

theorem upParts_length {parts p : List Str} (h : p ∈ upParts parts) : p.length ≤ parts.length := by
  unfold upParts at h
  obtain ⟨i, -, rfl⟩ := List.mem_map.1 h
  rw [List.length_take]
  omega

theorem upParts_sorted (parts : List Str) : (upParts parts).Pairwise fun a b => b.length < a.length := by
  induction hn : parts.length generalizing parts with
  | zero =>
    rw [List.length_eq_zero_iff.1 hn, upParts_nil]
    exact List.pairwise_singleton ..
  | succ n ih =>
    have hne : parts ≠ [] := by rintro rfl; cases hn
    obtain ⟨l, x, rfl⟩ : ∃ l x, parts = l ++ [x] := ⟨_, _, (List.dropLast_concat_getLast hne).symm⟩
    rw [upParts_snoc, List.pairwise_cons]
    refine ⟨fun p hp => ?_, ih l (by simpa using hn)⟩
    have := upParts_length hp
    rw [List.length_append, List.length_singleton]
    omega

/-- A search that ends at one directory. -/
theorem search_at (hl : fs.Lawful) {name rest : Str} {p : List Str} {P : Hit → Prop} {l : List Str} {ps : List (List Str)}
    (hp : Pairs (fun d p => isAbs d = true ∧ comps d = .root :: p.map Comp.normal) l ps)
    (hvalid : ∀ q ∈ ps, ∀ s ∈ q, ValidName s)
    (hsort : ps.Pairwise fun a b => b.length < a.length) (hmem : p ∈ ps)
    (hno : ∀ q ∈ ps, p.length < q.length → fs.isDir (absText (q ++ [cs!"node_modules"])) = false)
    (hstep : ∀ d, isAbs d = true → comps d = .root :: p.map Comp.normal →
      ∃ r, StepOut o fs (Loads o fs) name rest [] [] d (some r) ∧ P r) :
    ∃ r, SearchOut o fs (Loads o fs) name rest [] [] l (some r) ∧ P r := by
  induction hp with
  | nil => cases hmem
  | @cons d q l ps hd _ ih =>
    obtain ⟨hda, hdc⟩ := hd
    rw [List.pairwise_cons] at hsort
    rcases List.mem_cons.1 hmem with rfl | hmem
    · obtain ⟨r, h1, h2⟩ := hstep d hda hdc
      exact ⟨r, .hit h1, h2⟩
    · obtain ⟨r, h1, h2⟩ := ih (fun q hq => hvalid q (List.mem_cons_of_mem _ hq)) hsort.2 hmem
        fun q hq => hno q (List.mem_cons_of_mem _ hq)
      refine ⟨r, .next (.noModules ?_) h1, h2⟩
      rw [hl.dir _ _ (isAbs_pjoin_left _ hda) (comps_modules hda (hvalid q (List.mem_cons_self ..)) hdc)]
      exact hno q (List.mem_cons_self ..) (hsort.1 p hmem)


end Verif
