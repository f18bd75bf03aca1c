import Verif.Proofs.CostBare
import Verif.Props.CostPath
import Verif.Props.Halts
import Verif.Proofs.FileAdded
/-!
# C86 and C92: requests that lead into packages take a bounded number of steps
-/

namespace Verif.Live

variable {cfg : Nat → Config} {ser : Json → Str} {fs : Fs}

/-- A call with a bound is over after so many steps of its own. -/
theorem course_ended {V W : Fs → Prop} (hsub : ∀ fs, W fs → V fs) {K : Crash → Prop} (l1 l2 : List Event)
    (hV : ∀ fs', Versions fs l1 fs' → V fs') (hW : W ((Sys.init fs).after cfg ser l1).fs)
    (hl : ∀ fs', .change fs' ∈ l2 → W fs') {rid : Nat} (call : Call) (fuel n : Nat)
    (hb : Bound (Among W) (HaltR V) K (fun _ _ => True) (Live.prog (host (cfg rid) ser fuel) fuel call) n)
    (hn : n ≤ stepsOf ((Sys.init fs).after cfg ser l1).tasks.length l2) :
    ∃ x, ((Sys.init fs).after cfg ser (l1 ++ .start rid call fuel :: l2)).ended
      ((Sys.init fs).after cfg ser l1).tasks.length = some x ∧ ∀ c, x = .crashed c → K c := by
  have hr : Primed V W ((Sys.init fs).after cfg ser l1) :=
    ready_after (s := Sys.init fs) ⟨hist_init V, stored_init _, hV fs (.inl rfl), fun _ h => by cases h⟩
      (fun fs' h => hV fs' (.inr h)) hW
  rw [after_append]
  generalize (Sys.init fs).after cfg ser l1 = s at *
  obtain ⟨t, ht, hb⟩ := bound_primed (cfg := cfg) (ser := ser) hsub (i := s.tasks.length) l2 hl
    (s.next cfg ser (.start rid call fuel)) (hr.next hsub nofun)
    ⟨rid, s.fs, call, fuel, Live.prog (host (cfg rid) ser fuel) fuel call⟩ (by simp [Sys.next]) n hb
  rw [Nat.sub_eq_zero_of_le hn] at hb
  obtain ⟨x, hx⟩ := bound_over hb
  refine ⟨x, ?_, ?_⟩
  · show Sys.ended (Sys.after cfg ser _ l2) _ = _
    unfold Sys.ended
    rw [ht]
    exact hx
  · rintro c rfl
    exact bound_crash hb hx

theorem course_versions (l1 l2 : List Event) (fs' : Fs)
    (h : fs' = ((Sys.init fs).after cfg ser l1).fs ∨ .change fs' ∈ l2) : Versions fs (l1 ++ l2) fs' := by
  rcases h with rfl | h
  · exact (versions_after fs l1).imp id fun h => List.mem_append_left _ h
  · exact .inr (List.mem_append_right _ h)

/-- C86 for directories with main fields. Main fields lead from directory to directory at most `R` times in a row, each
time at most `d` levels down (`Modest`). Then the call ends after at most `5 * d + e + 20` steps and those in
directories, `dirSteps`. The caches may be in any state that an earlier history has left. -/
theorem C86_main (l1 l2 : List Event) (rid fuel : Nat) (path request : Str) (ha : isAbs path = true)
    (hp : Plain (cfg rid).opts path (parseRequest request).target) (hb : (cfg rid).opts.browserField = false)
    (hk : IsPath (parseRequest request).target) (E R d N : Nat)
    (hm : Modest (cfg rid).opts (Versions fs (l1 ++ l2)) E R d)
    (hN : depth (targetPath path (parseRequest request).target) + R * d ≤ N) (D F : Str → Bool)
    (hup : ∀ p q, isAbs p = true → D p = true → pparent p = some q → D q = true)
    (h0 : Layout (cfg rid).opts.descriptionFile D F ((Sys.init fs).after cfg ser l1).fs ∧
      ((Sys.init fs).after cfg ser l1).fs.Lawful)
    (hl : ∀ fs', .change fs' ∈ l2 → Layout (cfg rid).opts.descriptionFile D F fs' ∧ fs'.Lawful) (hfuel : R + 3 ≤ fuel)
    (hn : 5 * depth (targetPath path (parseRequest request).target) + (cfg rid).opts.extensions.length + 20 +
        dirSteps (5 * N + 18) (cfg rid).opts.extensions.length (cfg rid).opts.mainFields.length
          (cfg rid).opts.mainFiles.length (R + 1) ≤ stepsOf ((Sys.init fs).after cfg ser l1).tasks.length l2) :
    ∃ x, ((Sys.init fs).after cfg ser (l1 ++ .start rid (.resolve path request) fuel :: l2)).ended
        ((Sys.init fs).after cfg ser l1).tasks.length = some x ∧
      x ≠ .crashed .hang ∧ x ≠ .crashed .fuel := by
  have hs : Course (cfg rid).opts (Versions fs (l1 ++ l2))
      (fun fs' => fs' = ((Sys.init fs).after cfg ser l1).fs ∨ .change fs' ∈ l2) D F E R d :=
    { sub := course_versions l1 l2
      layout := fun fs' h => h.elim (fun e => e ▸ h0.1) fun h => (hl fs' h).1
      up := hup
      lawful := fun fs' h => h.elim (fun e => e ▸ h0.2) fun h => (hl fs' h).2
      modest := hm
      browser := hb }
  obtain ⟨x, hx, hk⟩ := course_ended (K := fun c => ∃ s, c = .panic s) hs.sub l1 l2
    (fun fs' h => h.imp id fun h => List.mem_append_left _ h) (.inl rfl) (fun fs' h => .inr h) (.resolve path request) fuel
    _ (main_steps (h := host (cfg rid) ser fuel) (fun s => ⟨s, rfl⟩) hs ha hp hk hN hfuel) hn
  refine ⟨x, hx, ?_, ?_⟩ <;>
  · rintro rfl
    obtain ⟨s, hs⟩ := hk _ rfl
    cases hs

/-- C92: a request by name ends after a number of steps that is known in advance: at every directory from that of the
request up, those of the loader, one for every target of the exports and one for every extension, and those in the
directory of the package, `dirSteps`. The caches may be in any state that an earlier history has left, contents may change
during the call, but files and directories stay in place. -/
theorem C92_bare (l1 l2 : List Event) (rid fuel : Nat) (path request : Str) (ha : isAbs path = true)
    (hp : Plain (cfg rid).opts path (parseRequest request).target) (hb : (cfg rid).opts.browserField = false)
    (hk : getTargetKind (parseRequest request).target = .normal) (E R d N : Nat)
    (hm : Modest (cfg rid).opts (Versions fs (l1 ++ l2)) E R d)
    (hN : depth path + 1 + depth (parseRequest request).target + R * d ≤ N) (D F : Str → Bool)
    (hup : ∀ p q, isAbs p = true → D p = true → pparent p = some q → D q = true)
    (h0 : Layout (cfg rid).opts.descriptionFile D F ((Sys.init fs).after cfg ser l1).fs ∧
      ((Sys.init fs).after cfg ser l1).fs.Lawful)
    (hl : ∀ fs', .change fs' ∈ l2 → Layout (cfg rid).opts.descriptionFile D F fs' ∧ fs'.Lawful)
    (hfuel : R + 3 + depth path ≤ fuel)
    (hn : 5 * N + 18 + depth path * (5 * N + 18 + E + (cfg rid).opts.extensions.length + 4 +
        dirSteps (5 * N + 18) (cfg rid).opts.extensions.length (cfg rid).opts.mainFields.length
          (cfg rid).opts.mainFiles.length (R + 1)) + 1 ≤ stepsOf ((Sys.init fs).after cfg ser l1).tasks.length l2) :
    ∃ x, ((Sys.init fs).after cfg ser (l1 ++ .start rid (.resolve path request) fuel :: l2)).ended
        ((Sys.init fs).after cfg ser l1).tasks.length = some x ∧
      x ≠ .crashed .hang ∧ x ≠ .crashed .fuel := by
  have hs : Course (cfg rid).opts (Versions fs (l1 ++ l2))
      (fun fs' => fs' = ((Sys.init fs).after cfg ser l1).fs ∨ .change fs' ∈ l2) D F E R d :=
    { sub := course_versions l1 l2
      layout := fun fs' h => h.elim (fun e => e ▸ h0.1) fun h => (hl fs' h).1
      up := hup
      lawful := fun fs' h => h.elim (fun e => e ▸ h0.2) fun h => (hl fs' h).2
      modest := hm
      browser := hb }
  obtain ⟨x, hx, hk⟩ := course_ended (K := fun c => ∃ s, c = .panic s) hs.sub l1 l2
    (fun fs' h => h.imp id fun h => List.mem_append_left _ h) (.inl rfl) (fun fs' h => .inr h) (.resolve path request) fuel
    _ (bare_steps (h := host (cfg rid) ser fuel) (fun s => ⟨s, rfl⟩) hs ha hp hk hN hfuel) hn
  refine ⟨x, hx, ?_, ?_⟩ <;>
  · rintro rfl
    obtain ⟨s, hs⟩ := hk _ rfl
    cases hs

/-! ## Examples -/

/-- Exports and imports with at most `E` targets. -/
def fewDoc (E : Nat) (doc : Doc) : Bool :=
  match doc.json with
  | some j => [cs!"exports", cs!"imports"].all fun k =>
      match j.get k with
      | some v => decide (v.strings.length ≤ E)
      | none => true
  | none => true

/-- Trees in which main fields lead to files. -/
theorem modest_trees {o : Opts} {V : Fs → Prop} {E : Nat} (ha : aliasApart o = true)
    (hV : ∀ fs, V fs → ∃ t cwd, fs = treeFs t cwd ∧ t.noJsDir = true ∧ t.allDoc (plainDoc o) = true ∧
      t.allDoc (fewDoc E) = true) : Modest o V E 0 0 := by
  have hV' : ∀ fs, V fs → ∃ t cwd, fs = treeFs t cwd ∧ t.noJsDir = true ∧ t.allDoc (plainDoc o) = true :=
    fun fs h => (hV fs h).imp fun t h => h.imp fun cwd h => ⟨h.1, h.2.1, h.2.2.1⟩
  have calm := noCycle_trees ha hV'
  refine ⟨fun fs v hv h => ⟨?_, h.elim (calm.exports fs v hv) (calm.imports fs v hv)⟩, fun _ => 0, fun _ => Nat.le_refl _,
    fun p' p h => (noMain_trees hV' p' p h).elim⟩
  have few : ∀ k ∈ [cs!"exports", cs!"imports"], IsField fs k v → v.strings.length ≤ E := by
    rintro k hk ⟨p, doc, json, hr, hj, hg⟩
    obtain ⟨t, cwd, rfl, -, -, hd⟩ := hV fs hv
    have h := allDoc_read hd hr
    simp only [fewDoc, hj, List.all_eq_true] at h
    have := h k hk
    rw [hg] at this
    exact of_decide_eq_true this
  exact h.elim (few _ (by simp)) (few _ (by simp))

/-- Packages with exports and with a main file. -/
def treeBare : Tree := .dir [(cs!"node_modules", .dir
    [(cs!"m", .dir [(cs!"package.json", jsonFile (.obj [(cs!"exports", .arr [.str cs!"./x.js", .str cs!"./y.js"])])),
      (cs!"y.js", textFile)]),
     (cs!"n", .dir [(cs!"package.json", jsonFile (.obj [(cs!"main", .str cs!"./z.js")])), (cs!"z.js", textFile)])]),
  (cs!"a", .dir [(cs!"b", .dir [])])]

/-- After how many steps a request from `/a/b` ends, with empty caches. -/
def stepsToName (request : Str) : Option Nat :=
  (List.range 90).find? fun n => (((Sys.init (treeFs treeBare [])).after (fun _ => config optsA 0) serJson
    (.start 0 (.resolve cs!"/a/b" request) 20 :: List.replicate n (.step 0 0))).ended 0).isSome

-- the bound is 359: the depths of the path and of the name are 3 and 1, and there are three extensions, one main field
-- and one main file
example : stepsToName cs!"m" = some 32 ∧ stepsToName cs!"n" = some 38 ∧ stepsToName cs!"o" = some 32 := by
  decide +kernel
example : 5 * 5 + 18 + 3 * (5 * 5 + 18 + 2 + 3 + 4 + dirSteps (5 * 5 + 18) 3 1 1 1) + 1 = 359 := by decide
example : Modest optsA (· = treeFs treeBare []) 2 0 0 :=
  modest_trees (by decide +kernel) fun fs h => ⟨treeBare, [], h, by decide +kernel, by decide +kernel, by decide +kernel⟩
example : Plain optsA cs!"/a/b" (parseRequest cs!"m").target := ⟨rfl, .inr (by decide), .inl rfl⟩
example : getTargetKind (parseRequest cs!"m").target = .normal := by decide

/-- A package whose main field leads to a directory. -/
def treeNest : Tree := .dir [(cs!"p", .dir [(cs!"package.json", jsonFile (.obj [(cs!"main", .str cs!"lib")])),
  (cs!"lib", .dir [(cs!"index.js", textFile)])])]

theorem pjoin_twice {q x : Str} (hq : q ≠ []) (hx : isAbs x = false) (he : endsWithC (pjoin q x) '/' = false) (y : Str)
    (hy : isAbs y = false) : pjoin (pjoin q x) y = pjoin q (x ++ '/' :: y) := by
  have hx' : isAbs (x ++ '/' :: y) = false ∨ x = [] := by
    cases x with
    | nil => exact .inr rfl
    | cons c x => exact .inl (by simpa [isAbs, startsWith, List.isPrefixOf] using hx)
  rcases hx' with hx' | rfl
  · obtain ⟨p0, h1, h2⟩ := pjoin_text hq hx
    obtain ⟨p1, h3, h4⟩ := pjoin_text hq hx'
    obtain ⟨p2, h5, h6⟩ := pjoin_text (pjoin_ne_nil hq hx) hy
    have : p0 = p1 := by
      rcases h1 with ⟨rfl, h1⟩ | rfl <;> rcases h3 with ⟨rfl, h3⟩ | h3
      · rfl
      · rw [h3] at h1; simp [endsWithC] at h1
      · simp [endsWithC] at h3
      · exact (List.append_cancel_right h3)
    subst this
    have : pjoin q x = p2 := by
      rcases h5 with ⟨rfl, -⟩ | h5
      · rfl
      · rw [h5] at he; simp [endsWithC] at he
    rw [h6, h4, ← this, h2]
    simp
  · obtain ⟨p0, h1, h2⟩ := pjoin_text hq hx
    rw [h2] at he
    simp [endsWithC] at he

/-- No directory `lib` has a directory `lib`. -/
theorem nest_at (l : List Str) : treeNest.at (l ++ [cs!"lib", cs!"lib"]) = none := by
  have file : ∀ d m n l, (Tree.file d m).at (n :: l) = none := fun _ _ _ _ => rfl
  have none_at : ∀ l, (Tree.dir [(cs!"index.js", textFile)]).at (l ++ [cs!"lib", cs!"lib"]) = none := by
    rintro (- | ⟨a, l⟩)
    · decide
    · simp only [List.cons_append, Tree.at, Tree.child, alookup]
      by_cases h : cs!"index.js" = a
      · simp only [if_pos h]
        rcases l with - | ⟨b, l⟩ <;> exact file _ _ _ _
      · simp only [if_neg h]
  rcases l with - | ⟨a, l⟩
  · decide
  · simp only [List.cons_append, treeNest, Tree.at, Tree.child, alookup]
    by_cases h : cs!"p" = a
    · simp only [if_pos h]
      rcases l with - | ⟨b, l⟩
      · decide
      · simp only [List.cons_append, Tree.at, Tree.child, alookup]
        by_cases h : cs!"package.json" = b
        · simp only [if_pos h]
          rcases l with - | ⟨b, l⟩ <;> exact file _ _ _ _
        · simp only [if_neg h]
          by_cases h : cs!"lib" = b
          · simp only [if_pos h, none_at]
          · simp only [if_neg h]
    · simp only [if_neg h]

theorem nest_once (q : Str) : (treeFs treeNest []).isDir (pjoin (pjoin q cs!"./lib") cs!"./lib") = false := by
  have key : treeNest.lookup [] (pjoin (pjoin q cs!"./lib") cs!"./lib") = none := by
    have hj : pjoin (pjoin q cs!"./lib") cs!"./lib" = pjoin q cs!"./lib/./lib" := by
      by_cases hq : q = []
      · subst hq; rfl
      · refine pjoin_twice hq (by decide) ?_ _ (by decide)
        obtain ⟨p0, -, h⟩ := pjoin_text hq (q := cs!"./lib") (by decide)
        rw [h]
        simp [endsWithC]
    rw [hj]
    cases hl : treeNest.lookup [] (pjoin q cs!"./lib/./lib") with
    | none => rfl
    | some loc =>
      obtain ⟨s, A, h⟩ := Tree.lookup_pjoin (by decide) (by decide) hl
      have hlib : ValidName cs!"lib" := ⟨by decide, by decide, by decide, by decide⟩
      have hdot : ∀ l, stepSeg l cs!"." = l := fun l => by simp [stepSeg, enter]
      obtain ⟨h1, h2⟩ := Tree.reach_eq h
      rw [show splitC '/' cs!"./lib/./lib" = [cs!".", cs!"lib", cs!".", cs!"lib"] by decide, List.foldl_append] at h1
      simp only [List.foldl, hdot, stepSeg_name hlib, List.append_assoc, List.cons_append, List.nil_append] at h1
      rw [h1, nest_at] at h2
      cases h2
  simp only [treeFs, Tree.node, key]

example : Modest optsA (· = treeFs treeNest []) 0 1 2 := by
  have main : ∀ p' p, MainStepAmong optsA (· = treeFs treeNest []) p' p →
      p' = pjoin p cs!"./lib" ∧ (treeFs treeNest []).isDir p' = true := by
    rintro p' p ⟨⟨fs, rfl, hdir⟩, pkg, hread, -, ht⟩
    refine ⟨?_, hdir⟩
    obtain ⟨fs', name, doc, rfl, hr, hjs⟩ := hread.file
    have hm : ∀ m, pkg.raw.get cs!"main" = some (.str m) → m = cs!"lib" := by
      intro m hm
      have h := allDoc_read (P := fun d => match d.json with
        | some j => match j.get cs!"main" with
          | some (.str m) => decide (m = cs!"lib")
          | _ => true
        | none => true) (t := treeNest) (by decide +kernel) hr
      simp only [hjs, decide_eq_true_eq, hm] at h
      exact h
    have hf : optsA.mainFields = [cs!"main"] := rfl
    rw [hf] at ht
    cases ht with
    | here hg hs hl =>
      cases hm _ hg
      rcases hl with rfl | ⟨h, -⟩
      · rfl
      · cases h
    | next _ _ h => cases h
  refine ⟨fun fs v hv h => ?_, fun p => if (treeFs treeNest []).isDir (pjoin p cs!"./lib") = true then 1 else 0,
    fun p => by dsimp only; split <;> omega, fun p' p h => ?_⟩
  · subst hv
    rcases h with ⟨p, doc, json, hr, hj, hg⟩ | ⟨p, doc, json, hr, hj, hg⟩ <;>
    · have h := allDoc_read (P := fun d => match d.json with
        | some j => (j.get cs!"exports").isNone && (j.get cs!"imports").isNone
        | none => true) (t := treeNest) (by decide +kernel) hr
      simp [hj, hg] at h
  · obtain ⟨rfl, hd⟩ := main p' p h
    dsimp only
    rw [nest_once, if_neg (by decide), if_pos hd]
    refine ⟨by omega, ?_⟩
    by_cases hp : p = []
    · subst hp; decide
    · unfold depth
      rw [comps_pjoin hp (by decide), List.length_append]
      exact Nat.add_le_add_left (by decide) _

end Verif.Live
