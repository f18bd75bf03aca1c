import Verif.Proofs.History
import Verif.Props.Termination
/-!
# C44: what calls can panic for
-/

namespace Verif

variable {cfg : Nat → Config} {ser : Json → Str} {fs : Fs}

/-- C44: on an unchanging file system, in every interleaving and every state of the caches, a panic can
be blamed on an item of the list `Blame`. Missing: the items themselves, which do lead to panics
(`C44_*_violated`), and debug builds and files that change during the run, for which see `C44_history_partial`. -/
theorem C44_sites_partial (hs : Static cfg ser fs) {l : List Event} (hl : ∀ e ∈ l, e.calm)
    {t : Task} (ht : t ∈ ((Sys.init fs).after cfg ser l).tasks) {site : Site}
    (ho : t.prog.outcome = some (.crashed (.panic site))) :
    t.call.Blame (cfg t.rid).opts (.of (cfg t.rid).opts fs) fs site := by
  obtain ⟨o', h1, h2⟩ := static_ends hs hl ht ho
  cases o' with
  | done a => exact (h2 : False).elim
  | crashed c =>
    cases (h2 : Crash.panic site = c)
    exact ((good_pure (hs.debug _) fs t.fuel t.call).ends h1).2 _ rfl

/-- C44 in every history, with any changes of files, in every interleaving, for any sharing of caches and
in debug builds: a panic can be blamed on an item of the list `Blame`, for description files as they are
or were before and the other files as they are, or it is the check of debug builds that no file is parsed
twice. Missing: the items themselves, and that check (`C33_debug_violated`). -/
theorem C44_history_partial {l : List Event} {t : Task} (ht : t ∈ ((Sys.init fs).after cfg ser l).tasks)
    {site : Site} (ho : t.prog.outcome = some (.crashed (.panic site))) :
    t.call.Blame (cfg t.rid).opts (.among fun fs' => fs' = fs ∨ .change fs' ∈ l) t.fs site ∨
      (site = .dbgReparse ∧ (cfg t.rid).debug = true) :=
  history_blame ht ho

theorem returns_of_halts (hs : Static cfg ser fs) {rid : Nat} {call : Call}
    (h : ∃ N, ∀ n, N ≤ n → Halts (call.pure (cfg rid) fs n))
    (hb : ∀ site, ¬ call.Blame (cfg rid).opts (.of (cfg rid).opts fs) fs site) : AlwaysReturns cfg ser fs rid call := by
  obtain ⟨N, hN⟩ := h
  refine ⟨N, fun ev hc i hf k t ht hr hcall hn => ?_⟩
  obtain ⟨m, x, hkm, hx, p, hp, hm⟩ := C45_progress cfg ser _ ev i hf k t ht
  cases x with
  | none => cases hx
  | some o =>
    have hl : ∀ e ∈ (List.range m).map ev, e.calm := by
      intro e he
      obtain ⟨j, -, rfl⟩ := List.mem_map.1 he
      exact hc j
    cases o with
    | done a => exact ⟨m, _, a, hkm, hm, hp⟩
    | crashed c =>
      obtain ⟨o', h1, h2⟩ := static_ends hs hl (List.mem_of_getElem? hm) hp
      simp only [hr, hcall] at h1
      rcases hN _ hn o' h1 with ⟨a, rfl⟩ | ⟨s, rfl⟩
      · exact (h2 : False).elim
      · exact (hb s (((good_pure (hs.debug _) fs _ call).ends h1).2 _ rfl)).elim

/-- C44 and C45 together: on an unchanging file system in which nothing goes round in circles and
nothing is to blame, every `resolve` returns a result or an error. Missing: as for `C44_sites_partial`
and `C45_terminates_partial`. -/
theorem C44_returns_partial (hs : Static cfg ser fs) {rid : Nat} {path request : Str}
    (hn : NoCycle (cfg rid).opts fs)
    (hb : ∀ site, ¬ Blame (cfg rid).opts (.of (cfg rid).opts fs) fs path request site) :
    AlwaysReturns cfg ser fs rid (.resolve path request) := by
  obtain ⟨N, h⟩ := resolveCtx_halts hn path request
  refine returns_of_halts hs ⟨N, fun n hn => ?_⟩ hb
  unfold Call.pure
  simp only [hs.debug]
  exact (h n hn).bind fun r => Over.halts (.inl ⟨_, rfl⟩)

/-- C44 for `load_side_effects`: only description files can be to blame. Missing: those
(`C44_side_effects_violated`). -/
theorem C44_side_effects_partial (hs : Static cfg ser fs) {rid : Nat} {path : Str}
    (he : ∀ v, IsField fs cs!"exports" v → Convertible v)
    (hi : ∀ v, IsField fs cs!"imports" v → Convertible v ∧ ∃ l, v = .obj l)
    (hb : ∀ l k, IsField fs cs!"browser" (.obj l) → (k, .bool true) ∉ l) :
    AlwaysReturns cfg ser fs rid (.sideEffects path) := by
  refine returns_of_halts hs ⟨0, fun n _ => ?_⟩ ?_
  · unfold Call.pure
    refine Halts.bind ?_ fun r => Over.halts (.inl ⟨_, rfl⟩)
    refine Halts.bind ?_ fun r => ?_
    · rcases findPkg_settles fs (cfg rid).opts.descriptionFile path with ⟨a, h⟩ | ⟨s, h⟩
      · rw [h]; exact Over.halts (.inl ⟨_, rfl⟩)
      · rw [h]; exact Over.halts (.inr ⟨_, rfl⟩)
    · rcases r with e | _ | p <;> exact Over.halts (.inl ⟨_, rfl⟩)
  · rintro site ⟨h1 | h1, h⟩ <;> subst h1
    · cases h with
      | exports h1 h2 => exact h2 (he _ h1)
      | imports h1 h2 =>
        obtain ⟨h3, l, h4⟩ := hi _ h1
        rcases h2 with h2 | h2
        · exact h2 h3
        · exact h2 l h4
    · cases h with
      | browser h1 h2 => exact hb _ _ h1 h2

/-- How calls of `load_side_effects` can crash. -/
theorem sideEffects_crash {l : List Event} {t : Task} {path : Str}
    (ht : t ∈ ((Sys.init fs).after cfg ser l).tasks) (hc : t.call = .sideEffects path) {c : Crash}
    (ho : t.prog.outcome = some (.crashed c)) : LoadCrash ((cfg t.rid).env ser t.fs) path c := by
  have key := system_good (cfg := cfg) (ser := ser) (fs := fs) (l := l)
    (B := fun t c => ∀ path, t.call = .sideEffects path → LoadCrash ((cfg t.rid).env ser t.fs) path c)
    (Q := fun _ _ => True) (fun t => ?_) ht
  · have hp : t.prog = .crash c := by
      cases h : t.prog with
      | ret a => rw [h] at ho; cases ho
      | op o k => rw [h] at ho; cases ho
      | crash c' => rw [h] at ho; cases ho; rfl
    rw [hp] at key
    exact key path hc
  · cases hcall : t.call with
    | resolve p r =>
      generalize (Call.resolve p r).prog _ _ = q
      have : ∀ q : Prog Answer, q.Good AnyRet (fun c => ∀ path, Call.resolve p r = .sideEffects path →
          LoadCrash ((cfg t.rid).env ser t.fs) path c) fun _ => True := by
        intro q
        induction q with
        | ret a => trivial
        | crash c => exact nofun
        | op o k ih => exact fun r _ => ih r
      exact this q
    | sideEffects p =>
      have h := (good_sideEffects (Y := AnyRet) ((cfg t.rid).env ser t.fs) p).bind (R := fun _ => True)
        (f := fun r => Prog.ret (Answer.sideEffects r)) fun _ _ => trivial
      refine Prog.Good.weaken h fun c hc path e => ?_
      cases e
      exact hc

/-- C44 for `load_side_effects`, in every history, with any changes of the file system and in debug
builds: a panic comes from an unreadable exports or imports field or a `browser` entry `true` of a file as
it is when the call starts, or, in debug builds, from the check that no file is parsed twice. -/
theorem C44_side_effects_sites {l : List Event} {t : Task} {path : Str}
    (ht : t ∈ ((Sys.init fs).after cfg ser l).tasks) (hc : t.call = .sideEffects path) {site : Site}
    (ho : t.prog.outcome = some (.crashed (.panic site))) :
    (site = .buildTree ∨ site = .browserTrue) ∧
        Blame (cfg t.rid).opts (.of (cfg t.rid).opts t.fs) t.fs path [] site ∨
      (site = .dbgReparse ∧ (cfg t.rid).debug = true) :=
  loadSite_blame (e := (cfg t.rid).env ser t.fs) (S := .of (cfg t.rid).opts t.fs) (fun _ _ h => h)
    (sideEffects_crash ht hc ho) path []

/-- C45 for `load_side_effects`, in every history, with any changes of the file system: a call on an
absolute path comes to an end. -/
theorem C45_side_effects_always {ev : Nat → Event} {i : Nat} (hf : Fair ev i) {k : Nat} {t : Task}
    {path : Str} (h : ((Sys.init fs).at cfg ser ev k).tasks[i]? = some t)
    (hc : t.call = .sideEffects path) (hl : t.fs.Lawful) (ha : isAbs path = true) :
    ∃ m t' o, k ≤ m ∧ ((Sys.init fs).at cfg ser ev m).tasks[i]? = some t' ∧
      t'.prog.outcome = some o ∧ ((∃ a, o = .done a) ∨ ∃ site, o = .crashed (.panic site)) := by
  obtain ⟨m, x, hkm, hx, p, hp, hm⟩ := C45_progress cfg ser _ ev i hf k t h
  cases x with
  | none => cases hx
  | some o =>
    refine ⟨m, _, o, hkm, hm, hp, ?_⟩
    cases o with
    | done a => exact .inl ⟨a, rfl⟩
    | crashed c =>
      have := sideEffects_crash (List.mem_of_getElem? hm) hc hp
      cases c with
      | panic s => exact .inr ⟨s, rfl⟩
      | fuel => exact this.elim
      | hang => exact (this ⟨hl, ha⟩).elim

/-- The second call of a run in which the file changes in between. -/
example : ∃ ev : Nat → Event, Fair ev 1 ∧ ∃ t : Task,
    ((Sys.init (treeFs treeTe [])).at (fun _ => config optsTe 0) serJson ev 10).tasks[1]? = some t ∧
      t.call = .sideEffects cs!"/p/a.js" ∧ t.fs.Lawful := by
  refine ⟨fun n => match n with
    | 0 => .start 0 (.resolve cs!"/" cs!"./p/a.js") 20
    | 1 => .step 0 0
    | 2 => .step 0 0
    | 3 => .change (treeFs (.dir []) [])
    | 4 => .start 0 (.sideEffects cs!"/p/a.js") 20
    | n => if n % 2 = 0 then .step 0 n else .step 1 n, ?_, ?_⟩
  · intro n
    refine ⟨2 * n + 5, by omega, 2 * n + 5, ?_⟩
    simp only
    rw [if_neg (by omega)]
  · refine ⟨_, rfl, ?_, ?_⟩
    · rfl
    · exact treeFs_lawful [] rfl

/-! ## A case in which nothing is to blame -/

mutual
/-- `Convertible`, in a form that can be checked. -/
def Json.readable : Json → Bool
  | .str _ => true
  | .arr l => readableArr l
  | .obj l => readableObj l
  | _ => false
/-- See `Json.readable`. -/
def readableArr : List Json → Bool
  | [] => true
  | j :: l => j.readable && j.asArr.isNone && readableArr l
/-- See `Json.readable`. -/
def readableObj : List (Str × Json) → Bool
  | [] => true
  | (_, j) :: l => j.readable && readableObj l
end

mutual
theorem readable_convertible : ∀ j : Json, j.readable = true → Convertible j
  | .str s, _ => .str s
  | .arr l, h => .arr (readableArr_spec l h).1 (readableArr_spec l h).2
  | .obj l, h => .obj (readableObj_spec l h)
  | .null, h => nomatch h
  | .bool _, h => nomatch h
  | .num _, h => nomatch h

theorem readableArr_spec : ∀ l : List Json, readableArr l = true →
    (∀ j ∈ l, Convertible j) ∧ ∀ j ∈ l, ∀ l', j ≠ .arr l'
  | [], _ => ⟨nofun, nofun⟩
  | j :: l, h => by
    simp only [readableArr, Bool.and_eq_true] at h
    have ih := readableArr_spec l h.2
    have ihj := readable_convertible j h.1.1
    refine ⟨fun x hx => ?_, fun x hx l' hl => ?_⟩
    · rcases List.mem_cons.1 hx with e | hx
      · rw [e]; exact ihj
      · exact ih.1 x hx
    · rcases List.mem_cons.1 hx with e | hx
      · rw [← e, hl] at h
        cases h.1.2
      · exact ih.2 x hx l' hl

theorem readableObj_spec : ∀ l : List (Str × Json), readableObj l = true → ∀ kv ∈ l, Convertible kv.2
  | [], _ => nofun
  | (k, j) :: l, h => by
    simp only [readableObj, Bool.and_eq_true] at h
    have ih := readableObj_spec l h.2
    have ihj := readable_convertible j h.1
    intro kv hx
    rcases List.mem_cons.1 hx with e | hx
    · rw [e]; exact ihj
    · exact ih kv hx
end

/-- A text without harm: in ASCII, and its first character is its own and no `@`. -/
def harmless (s : Str) : Bool := decide (AsciiStr s) && s.headD '*' ≠ '*' && s.headD '*' ≠ '@'

theorem harmless_spec {s : Str} (h : harmless s = true) : AsciiStr s ∧ Scoped s ∧ Headed s := by
  simp only [harmless, Bool.and_eq_true, decide_eq_true_eq] at h
  cases s with
  | nil => exact (h.1.2 rfl).elim
  | cons c r =>
    simp only [List.headD_cons] at h
    refine ⟨h.1.1, ?_, c, r, rfl, h.1.2⟩
    rintro r' h'
    cases h'
    exact (h.2 rfl).elim

/-- A description file without harm. -/
def docFine (d : Doc) : Bool :=
  match d.json with
  | none => true
  | some j =>
    (match j.get cs!"exports" with
      | none => true
      | some v => v.readable && v.strings.all harmless) &&
    (match j.get cs!"imports" with
      | none => true
      | some v => v.asObj.isSome && v.readable && v.strings.all harmless) &&
    match j.get cs!"browser" with
      | some (.obj l) => l.all fun kv => kv.2.asBool ≠ some true
      | _ => true

/-- The criterion, without aliases, `browser` maps and tsconfig. -/
theorem noBlame_fine {o : Opts} {S : Sources} {fs : Fs} {path request : Str} (ha : o.alias = [])
    (hb : o.browserField = false) (ht : o.tsconfig = none)
    (fine : ∀ {name v}, S.field name v → ∃ json, docFine ⟨some json, .ok none⟩ = true ∧ json.get name = some v)
    (hr : AsciiStr request ∧ Scoped request)
    (hm : ∀ d, MayLead o path request d → fs.isDir d = true →
      ∃ p ∈ mainCandidates o d, fs.isFile p = true) (site : Site) :
    ¬ Blame o S fs path request site := by
  have he : ∀ {v}, S.field cs!"exports" v → v.readable = true ∧ v.strings.all harmless = true := by
    intro v h
    obtain ⟨json, h1, h2⟩ := fine h
    simp only [docFine, h2, Bool.and_eq_true] at h1
    exact h1.1.1
  have hi : ∀ {v}, S.field cs!"imports" v →
      v.asObj.isSome = true ∧ v.readable = true ∧ v.strings.all harmless = true := by
    intro v h
    obtain ⟨json, h1, h2⟩ := fine h
    simp only [docFine, h2, Bool.and_eq_true] at h1
    exact ⟨h1.1.2.1.1, h1.1.2.1.2, h1.1.2.2⟩
  have hw : ∀ {s}, Written o S fs s → AsciiStr s ∧ Scoped s ∧ Headed s := by
    intro s h
    cases h with
    | alias h => rw [ha] at h; cases h
    | browser h => rw [hb] at h; cases h
    | exports h1 h2 => exact harmless_spec (List.all_eq_true.1 (he h1).2 _ h2)
    | imports h1 h2 => exact harmless_spec (List.all_eq_true.1 (hi h1).2.2 _ h2)
    | base h => exact (h ht).elim
  intro h
  cases h with
  | exports h1 h2 => exact h2 (readable_convertible _ (he h1).1)
  | @imports v h1 h2 =>
    rcases h2 with h2 | h2
    · exact h2 (readable_convertible _ (hi h1).2.1)
    · have := (hi h1).1
      cases v with
      | obj l => exact h2 l rfl
      | _ => cases this
  | @browser l k h1 h2 =>
    obtain ⟨json, h3, h4⟩ := fine h1
    simp only [docFine, h4, Bool.and_eq_true, List.all_eq_true] at h3
    have := h3.2 _ h2
    simp [Json.asBool] at this
  | slice h1 h2 =>
    rcases h1 with rfl | h1
    · exact h2 hr.1
    · exact h2 (hw h1).1
  | scope h1 h2 =>
    rcases h1 with rfl | h1
    · exact h2 hr.2
    · exact h2 (hw h1).2.1
  | head h1 h2 => exact h2 (hw h1).2.2
  | dir h1 h2 h3 =>
    obtain ⟨p, hp, h4⟩ := hm _ h1 h2
    rw [h3 p hp] at h4
    cases h4
  | covered h => rw [hb] at h; cases h
  | tsEmpty h => exact h ht
  | tsParent h => exact h ht
  | tsShape h => exact h ht
  | search h => exact h ht

theorem fine_tree {t : Tree} {cwd : List Str} (hd : t.allDoc docFine = true) {name : Str} {v : Json} :
    IsField (treeFs t cwd) name v → ∃ json, docFine ⟨some json, .ok none⟩ = true ∧ json.get name = some v := by
  rintro ⟨p, doc, json, h1, h2, h3⟩
  refine ⟨json, ?_, h3⟩
  have := allDoc_read hd h1
  simpa only [docFine, h2] using this

theorem noBlame_tree {t : Tree} {cwd : List Str} {o : Opts} {path request : Str} (ha : o.alias = [])
    (hb : o.browserField = false) (ht : o.tsconfig = none) (hd : t.allDoc docFine = true)
    (hr : AsciiStr request ∧ Scoped request)
    (hm : ∀ d, MayLead o path request d → (treeFs t cwd).isDir d = true →
      ∃ p ∈ mainCandidates o d, (treeFs t cwd).isFile p = true) (site : Site) :
    ¬ Blame o (.of o (treeFs t cwd)) (treeFs t cwd) path request site :=
  noBlame_fine ha hb ht (fun h => fine_tree hd h) hr hm site

/-- A package with exports, and one with imports. -/
def treeFine : Tree :=
  .dir [
    (cs!"p", .dir [
      (cs!"package.json", jsonFile (.obj [(cs!"imports", .obj [(cs!"#i", .str cs!"m/x")])])),
      (cs!"a.js", textFile), (cs!"lib", .dir [(cs!"b.js", textFile)])]),
    (cs!"node_modules", .dir [(cs!"@s", .dir [(cs!"m", .dir [
      (cs!"package.json", jsonFile (.obj [(cs!"exports", .arr [.str cs!"./x.js", .str cs!"./y.js"]),
        (cs!"main", .str cs!"./y.js")])),
      (cs!"y.js", textFile)])])])]

theorem static_fine : Static (fun _ => config optsLo 0) serJson (treeFs treeFine []) :=
  static_ends_tree rfl (fun l h => by cases h) rfl (by decide +kernel)

theorem noCycle_fine : NoCycle (config optsLo 0).opts (treeFs treeFine []) :=
  noCycle_tree (by decide +kernel) (by decide +kernel) (by decide +kernel)

/-- Bare requests, also for what does not exist. -/
example : ∀ site, ¬ Blame (config optsLo 0).opts (.of (config optsLo 0).opts (treeFs treeFine [])) (treeFs treeFine []) cs!"/p" cs!"@s/m" site := by
  refine noBlame_tree rfl rfl rfl (by decide +kernel) ⟨by decide, ?_⟩ ?_
  · rintro r ⟨⟩
    exact ⟨cs!"s", cs!"m", rfl, by decide⟩
  · rintro d ((h | h | h | h | h) | ⟨h, -⟩)
    · exact (h rfl).elim
    · cases h
    · cases h
    · exact (h rfl).elim
    · exact absurd h (by decide)
    · exact (h (by decide)).elim

/-- Paths. -/
example : ∀ site, ¬ Blame (config optsLo 0).opts (.of (config optsLo 0).opts (treeFs treeFine [])) (treeFs treeFine []) cs!"/p" cs!"./a.js?q" site := by
  refine noBlame_tree rfl rfl rfl (by decide +kernel) ⟨by decide, nofun⟩ ?_
  rintro d ((h | h | h | h | h) | ⟨-, h⟩) hd
  · exact (h rfl).elim
  · cases h
  · cases h
  · exact (h rfl).elim
  · exact absurd h (by decide)
  · rw [h] at hd
    exact absurd hd (by decide +kernel)

/-- The same after the exports were changed. -/
def treeFine2 : Tree :=
  .dir [
    (cs!"p", .dir [(cs!"package.json", jsonFile (.obj [(cs!"imports", .obj [(cs!"#i", .str cs!"m/y")])])),
      (cs!"a.js", textFile)]),
    (cs!"node_modules", .dir [(cs!"@s", .dir [(cs!"m", .dir [
      (cs!"package.json", jsonFile (.obj [(cs!"exports", .str cs!"./x.js")])),
      (cs!"x.js", textFile)])])])]

/-- While the files change between the two trees, no resolution of the package panics. -/
example {l : List Event} (hl : ∀ fs', .change fs' ∈ l → fs' = treeFs treeFine [] ∨ fs' = treeFs treeFine2 [])
    {t : Task} (ht : t ∈ ((Sys.init (treeFs treeFine [])).after (fun _ => config optsLo 0) serJson l).tasks)
    (hc : t.call = .resolve cs!"/p" cs!"@s/m") (site : Site) :
    t.prog.outcome ≠ some (.crashed (.panic site)) := by
  intro ho
  rcases C44_history_partial ht ho with h | ⟨-, h⟩
  · rw [hc] at h
    refine noBlame_fine rfl rfl rfl (fun {name v} h => ?_) ⟨by decide, ?_⟩ ?_ site h
    · obtain ⟨fs', h1, h2⟩ := h
      have : fs' = treeFs treeFine [] ∨ fs' = treeFs treeFine2 [] := h1.elim .inl (hl fs')
      rcases this with rfl | rfl
      · exact fine_tree (by decide +kernel) h2
      · exact fine_tree (by decide +kernel) h2
    · rintro r ⟨⟩
      exact ⟨cs!"s", cs!"m", rfl, by decide⟩
    · rintro d ((h | h | h | h | h) | ⟨h, -⟩)
      · exact (h rfl).elim
      · cases h
      · cases h
      · exact (h rfl).elim
      · exact absurd h (by decide)
      · exact (h (by decide)).elim
  · cases h

/-- It returns the file of the package. -/
example : ∃ i, i.path = cs!"/node_modules/@s/m/y.js" ∧ Yields (fun _ => config optsLo 0) serJson
    (treeFs treeFine []) 0 cs!"/p" cs!"@s/m" (.ok (.info i)) :=
  yields_path static_fine (N := 9) (by decide +kernel)

/-- The conditions of `C44_side_effects_partial`. -/
example : (∀ v, IsField (treeFs treeFine []) cs!"exports" v → Convertible v) ∧
    (∀ v, IsField (treeFs treeFine []) cs!"imports" v → Convertible v ∧ ∃ l, v = .obj l) ∧
    ∀ l k, IsField (treeFs treeFine []) cs!"browser" (.obj l) → (k, .bool true) ∉ l := by
  have hd : treeFine.allDoc docFine = true := by decide +kernel
  refine ⟨?_, ?_, ?_⟩
  · rintro v ⟨p, doc, json, h1, h2, h3⟩
    have := allDoc_read hd h1
    simp only [docFine, h2, h3, Bool.and_eq_true] at this
    exact readable_convertible _ this.1.1.1
  · rintro v ⟨p, doc, json, h1, h2, h3⟩
    have := allDoc_read hd h1
    simp only [docFine, h2, h3, Bool.and_eq_true] at this
    refine ⟨readable_convertible _ this.1.2.1.2, ?_⟩
    cases v with
    | obj l => exact ⟨l, rfl⟩
    | _ => cases this.1.2.1.1
  · rintro l k ⟨p, doc, json, h1, h2, h3⟩ hk
    have := allDoc_read hd h1
    simp only [docFine, h2, h3, Bool.and_eq_true, List.all_eq_true] at this
    have := this.2 _ hk
    simp [Json.asBool] at this

/-! ## Panics -/

/-- A package with a field. -/
def treeField (name : Str) (v : Json) : Tree :=
  .dir [(cs!"p", .dir [(cs!"package.json", jsonFile (.obj [(name, v)])), (cs!"a.js", textFile)])]

/-- C44 does not hold: exports `null` make every request to the package panic, also that for a file. -/
theorem C44_exports_violated :
    Panics (fun _ => config optsLo 0) serJson (treeFs (treeField cs!"exports" .null) []) 0
      cs!"/p" cs!"./a.js" .buildTree :=
  panics_site (static_tree rfl rfl rfl (by decide +kernel)) (N := 9) (by decide +kernel)

/-- C44 does not hold: so do exports with a list in a list. -/
theorem C44_nested_violated :
    Panics (fun _ => config optsLo 0) serJson
      (treeFs (treeField cs!"exports" (.arr [.arr [.str cs!"./a.js"]])) []) 0
      cs!"/p" cs!"./a.js" .buildTree :=
  panics_site (static_tree rfl rfl rfl (by decide +kernel)) (N := 9) (by decide +kernel)

/-- C44 does not hold: so do imports that are no object. -/
theorem C44_imports_violated :
    Panics (fun _ => config optsLo 0) serJson (treeFs (treeField cs!"imports" (.str cs!"./a.js")) []) 0
      cs!"/p" cs!"./a.js" .buildTree :=
  panics_site (static_ends_tree rfl (fun l h => by cases h) rfl (by decide +kernel)) (N := 9)
    (by decide +kernel)

theorem sidePanic : panicOf (findSideEffects (treeFs (treeField cs!"exports" .null) [])
    (config optsLo 0).opts.descriptionFile cs!"/p") = some .buildTree := by decide +kernel

/-- C44 does not hold: `load_side_effects` panics too. -/
theorem C44_side_effects_violated (l : List Event) (hl : ∀ e ∈ l, e.calm) :
    ∀ t ∈ ((Sys.init (treeFs (treeField cs!"exports" .null) [])).after (fun _ => config optsLo 0)
      serJson l).tasks, t.call = .sideEffects cs!"/p" → ∀ o, t.prog.outcome = some o →
      o = .crashed (.panic .buildTree) := by
  intro t ht hc o ho
  obtain ⟨x, h1, h2⟩ := static_ends (static_tree rfl rfl rfl (by decide +kernel)) hl ht ho
  rw [hc, Call.pure, panicOf_some sidePanic] at h1
  cases h1
  cases o with
  | done b => exact (h2 : False).elim
  | crashed c => cases (h2 : c = .panic .buildTree); rfl

/-- Modules with odd names. -/
def treeOdd : Tree :=
  .dir [(cs!"node_modules", .dir [
    (cs!"@x", .dir [(cs!"package.json", jsonFile (.obj [(cs!"exports", .str cs!"./a.js")])),
      (cs!"a.js", textFile)]),
    (cs!"é", .dir [(cs!"a.js", textFile)])])]

theorem static_odd : Static (fun _ => config optsLo 0) serJson (treeFs treeOdd []) :=
  static_tree rfl rfl rfl (by decide +kernel)

/-- C44 does not hold: a scope without name panics. -/
theorem C44_scope_violated :
    Panics (fun _ => config optsLo 0) serJson (treeFs treeOdd []) 0 cs!"/" cs!"@x" .scopedNoSlash :=
  panics_site static_odd (N := 9) (by decide +kernel)

/-- C44 does not hold: a module name outside ASCII panics, though the file is there. -/
theorem C44_slice_violated : (treeFs treeOdd []).isFile cs!"/node_modules/é/a.js" = true ∧
    Panics (fun _ => config optsLo 0) serJson (treeFs treeOdd []) 0 cs!"/" cs!"é/a.js" .moduleSlice :=
  ⟨by decide +kernel, panics_site static_odd (N := 9) (by decide +kernel)⟩

/-- A tsconfig. -/
def treeTc (tsconfig : Tree) : Tree := .dir [(cs!"t.json", tsconfig), (cs!"a.js", textFile)]

/-- C44 does not hold: an empty tsconfig panics. -/
theorem C44_ts_empty_violated :
    Panics (fun _ => config optsLt 0) serJson (treeFs (treeTc (.file (some ⟨none, .ok none⟩) 0)) []) 0
      cs!"/" cs!"./a.js" .tsEmpty :=
  panics_site (static_ends_tree rfl (fun l h => by cases h; rfl) rfl (by decide +kernel)) (N := 9)
    (by decide +kernel)

/-- C44 does not hold: a tsconfig whose `baseUrl` is `null` panics. -/
theorem C44_ts_shape_violated :
    Panics (fun _ => config optsLt 0) serJson
      (treeFs (treeTc (jsonFile (.obj [(cs!"compilerOptions", .obj [(cs!"baseUrl", .null)])]))) []) 0
      cs!"/" cs!"./a.js" .tsShape :=
  panics_site (static_ends_tree rfl (fun l h => by cases h; rfl) rfl (by decide +kernel)) (N := 9)
    (by decide +kernel)

def jsonAccent : Json :=
  .obj [(cs!"compilerOptions", .obj [(cs!"baseUrl", .str cs!"."),
    (cs!"paths", .obj [(cs!"x*", .arr [.str cs!"*"])])])]

def treeAccent : Tree := treeTc (jsonFile jsonAccent)

theorem read_accent : (treeFs treeAccent []).read cs!"/t.json" = some ⟨some jsonAccent, .ok (some jsonAccent)⟩ := by
  rfl

/-- Whether a program draws one number and then panics, whatever it is, shown for a number. -/
def seedPanic {α : Type} (p : Prog α) (seed : Nat) : Option Site :=
  match p with
  | .op .seed k => panicOf (k seed)
  | _ => none

theorem seedPanic_ends {α : Type} {p : Prog α} {site : Site} (h : ∀ seed, seedPanic p seed = some site)
    (x : Outcome α) (hx : p.Ends x) : x = .crashed (.panic site) := by
  cases p with
  | ret a => cases h 0
  | crash c => cases h 0
  | op o k =>
    cases o with
    | seed =>
      cases hx with
      | op r hx =>
        rw [panicOf_some (h r)] at hx
        cases hx
        rfl
    | _ => cases h 0

theorem permute_one {α : Type} (seed : Nat) (a : α) : permute seed [a] = [a] := by
  simp [permute, permuteAux, Nat.mod_one]

theorem accent_value (c : Ctx) (hc : c.fs = treeFs treeAccent []) :
    tsValue c 1 cs!"/t.json" = .ret (.ok jsonAccent) := by
  unfold tsValue
  rw [hc, read_accent]
  rfl

/-- C44 does not hold: a request outside ASCII panics with the patterns of a tsconfig. -/
theorem C44_star_violated :
    Panics (fun _ => config optsLt 0) serJson (treeFs treeAccent []) 0 cs!"/" cs!"é" .starSlice := by
  refine panics_of_ends (static_ends_tree rfl (fun l h => by cases h; rfl) rfl (by decide +kernel))
    (N := 1) (seedPanic_ends fun seed => ?_)
  unfold resolveCtx resolveStats
  simp only [show (pureCtx (config optsLt 0).opts (treeFs treeAccent []) false).opts.tsconfig =
    some cs!"/t.json" from rfl]
  unfold resolveWithTsconfig
  rw [accent_value _ rfl]
  have h1 : tsInfoOf jsonAccent = some ⟨some cs!".", some [(cs!"x*", [cs!"*"])]⟩ := by rfl
  have h2 : createMatchList cs!"/t.json" ⟨some cs!".", some [(cs!"x*", [cs!"*"])]⟩ =
      some [(cs!"x*", [cs!"/./*"])] := by decide +kernel
  simp only [Prog.ret_bind, h1, h2]
  rw [Prog.bind]
  unfold seedPanic
  simp only [permute_one]
  unfold tsEntries
  have h3 : (parseRequest cs!"é").target = cs!"é" := by decide +kernel
  simp only [h3]
  rfl

end Verif
