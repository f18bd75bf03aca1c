import Verif.Proofs.Debug
import Verif.Proofs.TreeNames
import Verif.Props.Panics
/-!
# C63: debug builds behave like release builds
-/

namespace Verif

section
variable {cfg : Nat → Config} {ser : Json → Str} {F : Fs → Prop} {fs : Fs}

/-- C63: if no call starts while another is in progress and all description files are well-formed, no
call ever panics because a description file is parsed twice. Files may change at any time. Missing:
description files that are not well-formed (`C33_debug_violated`); calls at the same time
(`C63_race_violated`); description files with an absolute name (`C63_absolute_violated`). -/
theorem C63_once_partial
    (hF : ∀ fs rid desc, F fs → (cfg rid).opts.descriptionFile = some desc → PlainName desc ∧ SoundFiles fs desc)
    (hfs : F fs) {l : List Event} (hl : OneAtATime cfg ser F (Sys.init fs) l) (t : Task)
    (ht : t ∈ ((Sys.init fs).after cfg ser l).tasks) :
    t.prog.outcome ≠ some (.crashed (.panic .dbgReparse)) := by
  have rel : ∀ l', ∀ t ∈ (relSys cfg ser fs l').tasks, t.prog.outcome ≠ some (.crashed (.panic .dbgReparse)) := by
    intro l' t ht h
    rcases C44_history_partial (cfg := released cfg) ht h with hb | ⟨-, hb⟩
    · revert hb
      cases t.call with
      | resolve path request => exact fun hb => nomatch hb
      | sideEffects path => exact fun hb => nomatch hb.2
    · cases hb
  obtain ⟨l', -, h⟩ := fine_after (l := []) hF (fine_init hfs) hl
  rcases h with h | ⟨old, t', p, sh, w, h⟩
  · rw [← h.tasks] at ht
    exact rel _ t ht
  · rw [h.here] at ht
    rcases List.mem_append.1 ht with ht | ht
    · exact rel l' t (by rw [h.tasks]; exact List.mem_append_left _ ht)
    · intro ho
      rw [List.mem_singleton.1 ht] at ho
      obtain ⟨l'', -, h''⟩ := h.finish hF ho
      exact rel l'' { t' with prog := p } (by rw [h''.tasks, h.here]; simp) ho

/-- C63: in the same setting, whenever no call is in progress, the release build can have got, with the
same calls and the same changes of files, to the same answers and the same caches. Missing: as for
`C63_once_partial`. -/
theorem C63_release_partial
    (hF : ∀ fs rid desc, F fs → (cfg rid).opts.descriptionFile = some desc → PlainName desc ∧ SoundFiles fs desc)
    (hfs : F fs) {l : List Event} (hl : OneAtATime cfg ser F (Sys.init fs) l)
    (hi : ((Sys.init fs).after cfg ser l).Idle) :
    ∃ l', inputs l' = inputs l ∧
      let s := (Sys.init fs).after cfg ser l
      let s' := (Sys.init fs).after (fun rid => (cfg rid).release) ser l'
      s'.tasks = s.tasks ∧ s'.fs = s.fs ∧ s'.shared.caches = s.shared.caches ∧
        s'.shared.files = s.shared.files := by
  obtain ⟨l1, h1, h⟩ := fine_after (l := []) hF (fine_init hfs) hl
  obtain ⟨l2, h2, h⟩ := h.calm hF hi
  exact ⟨l2, h2.trans h1, h.tasks, h.fs, h.caches, h.files⟩

end

/-! ## Examples -/

section
variable {cfg : Nat → Config} {ser : Json → Str} {F : Fs → Prop}

theorem oneAtATime_steps {s : Sys} {l : List Event} (k i seed : Nat)
    (h : OneAtATime cfg ser F (s.after cfg ser (List.replicate k (.step i seed))) l) :
    OneAtATime cfg ser F s (List.replicate k (.step i seed) ++ l) := by
  induction k generalizing s with
  | zero => exact h
  | succ k ih => exact ⟨trivial, ih h⟩

theorem idle_of_all {s : Sys} (h : s.tasks.all (fun t => t.prog.outcome.isSome) = true) : s.Idle :=
  fun t ht => Option.isSome_iff_exists.1 (List.all_eq_true.1 h t ht)

end

/-- A package with imports, and one with exports and a browser map; in the second version the exports
are different. -/
def treeDbg (target : Str) (mtime : Nat) : Tree :=
  .dir [(cs!"p", .dir [
    (cs!"package.json", jsonFile (.obj [(cs!"imports", .obj [(cs!"#x", .str cs!"./a.js")])])),
    (cs!"a.js", textFile),
    (cs!"node_modules", .dir [(cs!"b", .dir [
      (cs!"package.json", .file (let j := .obj [
        (cs!"exports", .obj [(cs!"./y", .str target)]),
        (cs!"browser", .obj [(cs!"./z", .bool false)])]
        some ⟨some j, .ok (some j)⟩) mtime),
      (cs!"y.js", textFile),
      (cs!"z.js", textFile)])])])]

/-- The file systems of the example. -/
def FsDbg (fs : Fs) : Prop := fs = treeFs (treeDbg cs!"./y.js" 0) [] ∨ fs = treeFs (treeDbg cs!"./z.js" 5) []

/-- Debug builds that do not hold on to file contents. -/
def cfgDbg (_ : Nat) : Config := { config optsA 0 with debug := true, duration := 0 }

theorem sound_of_docs {t : Tree} {cwd : List Str} {desc : Str} (hd : '/' ∉ desc)
    (h : ∀ doc ∈ t.docs desc, ∀ fs : Fs, ∀ dir file, fs.read file = doc → (fs.mtime file).isSome = true →
      ∃ p, readPkg fs dir file = .ret (.ok p)) : SoundFiles (treeFs t cwd) desc := by
  intro dir hf
  have hs : ∃ l, splitC '/' (pjoin dir desc) = l ++ [desc] := by
    have hself := splitC_of_not_mem hd
    by_cases hn : dir = []
    · subst hn
      refine ⟨[], ?_⟩
      unfold pjoin
      split <;> exact hself
    · have h0 := splitC_pjoin_last hn (t := desc) (by
        cases desc with
        | nil => rfl
        | cons c desc =>
          have : c ≠ '/' := fun e => hd (by rw [e]; exact List.mem_cons_self)
          simp [isAbs, startsWith, List.isPrefixOf, Ne.symm this])
      rw [hself] at h0
      exact List.getLast?_eq_some_iff.1 h0
  obtain ⟨l, hs⟩ := hs
  obtain ⟨h1, h2⟩ := treeFs_file_doc hf hs
  exact h _ h1 _ dir _ rfl h2

theorem soundDbg (fs : Fs) (rid : Nat) (desc : Str) (h : FsDbg fs)
    (hd : (cfgDbg rid).opts.descriptionFile = some desc) : PlainName desc ∧ SoundFiles fs desc := by
  have hd : some cs!"package.json" = some desc := hd
  cases hd
  refine ⟨⟨rfl, fun l h => by cases h⟩, ?_⟩
  have key : ∀ target mtime, SoundFiles (treeFs (treeDbg target mtime) []) cs!"package.json" := by
    intro target mtime
    refine sound_of_docs (by decide) fun doc hdoc fs dir file hr hm => ?_
    obtain ⟨m, hm⟩ := Option.isSome_iff_exists.1 hm
    have hdoc : doc ∈ [_, _] := hdoc
    simp only [List.mem_cons, List.not_mem_nil, or_false] at hdoc
    rcases hdoc with rfl | rfl
    · exact ⟨_, by simp only [readPkg, hr, hm]; rfl⟩
    · exact ⟨_, by simp only [readPkg, hr, hm]; rfl⟩
  rcases h with rfl | rfl
  · exact key _ _
  · exact key _ _

/-- A call, a change of a description file and the same call again. -/
def histDbg : List Event :=
  .start 0 (.resolve cs!"/p" cs!"b/y") 20 :: (List.replicate 60 (.step 0 0) ++
    .start 1 (.resolve cs!"/p" cs!"#x") 20 :: (List.replicate 60 (.step 1 0) ++
      .change (treeFs (treeDbg cs!"./z.js" 5) []) ::
        .start 0 (.resolve cs!"/p" cs!"b/y") 20 :: (List.replicate 60 (.step 2 0) ++ [])))

example : OneAtATime cfgDbg serJson FsDbg (Sys.init (treeFs (treeDbg cs!"./y.js" 0) [])) histDbg ∧
    ((Sys.init (treeFs (treeDbg cs!"./y.js" 0) [])).after cfgDbg serJson histDbg).Idle := by
  refine ⟨⟨nofun, oneAtATime_steps _ _ _ ⟨idle_of_all (by decide +kernel), oneAtATime_steps _ _ _
    ⟨.inr rfl, idle_of_all (by decide +kernel), oneAtATime_steps _ _ _ trivial⟩⟩⟩, idle_of_all (by decide +kernel)⟩

example :
    let s := (Sys.init (treeFs (treeDbg cs!"./y.js" 0) [])).after cfgDbg serJson histDbg
    (s.info 0).map Info.path = some cs!"/p/node_modules/b/y.js" ∧
      (s.info 1).map Info.path = some cs!"/p/a.js" ∧
      (s.info 2).map Info.path = some cs!"/p/node_modules/b/z.js" := by
  decide +kernel

/-! ## Where debug builds differ -/

/-- C63 does not hold for calls at the same time: both parse the description file, and the second panics. -/
theorem C63_race_violated :
    let s (debug : Bool) := (Sys.init (treeFs (treeDbg cs!"./y.js" 0) [])).after
      (fun _ => { config optsA 0 with debug := debug }) serJson
      (.start 0 (.resolve cs!"/p" cs!"b/y") 20 :: .start 0 (.resolve cs!"/p" cs!"b/y") 20 :: .step 0 0 ::
        (List.replicate 60 [.step 0 0, .step 1 0]).flatten)
    (s true).crash 1 = some (.panic .dbgReparse) ∧
      ((s false).info 1).map Info.path = some cs!"/p/node_modules/b/y.js" := by
  decide +kernel

/-- Two directories with a file each; the only description file is somewhere else. -/
def treeAbs : Tree :=
  .dir [(cs!"d.json", jsonFile (.obj [])), (cs!"p", .dir [(cs!"a.js", textFile)]),
    (cs!"q", .dir [(cs!"a.js", textFile)])]

/-- C63 does not hold for a description file with an absolute name: it belongs to every directory, and is
parsed again for each. -/
theorem C63_absolute_violated :
    let s (debug : Bool) := (Sys.init (treeFs treeAbs [])).after
      (fun _ => { config { optsA with descriptionFile := some cs!"/d.json" } 0 with debug := debug }) serJson
      (oneByOne 40 0 [(0, .resolve cs!"/p" cs!"./a"), (0, .resolve cs!"/q" cs!"./a")])
    ((s true).info 0).map Info.path = some cs!"/p/a.js" ∧
      (s true).crash 1 = some (.panic .dbgReparse) ∧
      ((s false).info 1).map Info.path = some cs!"/q/a.js" := by
  decide +kernel

end Verif
