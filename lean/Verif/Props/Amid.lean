import Verif.Spec.Amid
import Verif.Proofs.Debug
import Verif.Props.Live
import Verif.Props.Heal
import Verif.Props.Panics
import Verif.Props.RequireHash
/-!
# C95: what calls come to on files that stay as they are, they come to between updates
-/

namespace Verif.Live

variable {cfg : Nat → Config} {ser : Json → Str} {F : Fs → Prop} {fs : Fs} {rid : Nat}

theorem steps_calm {l : List Event} (h : inputs l = []) : ∀ e ∈ l, e.calm := by
  intro e he
  cases e with
  | step => trivial
  | start rid call fuel =>
    have : Event.start rid call fuel ∈ inputs l := List.mem_filter.2 ⟨he, rfl⟩
    rw [h] at this
    cases this
  | change fs =>
    have : Event.change fs ∈ inputs l := List.mem_filter.2 ⟨he, rfl⟩
    rw [h] at this
    cases this

/-- A call in a fresh resolver is a history, in which files do not change. -/
theorem fresh_calm (cfg : Nat → Config) (ser : Json → Str) (fs : Fs) (rid : Nat) (call : Call) (fuel : Nat)
    (ha : call.abs) (seeds : Nat → Nat) :
    ∃ l, (∀ e ∈ l, e.calm) ∧ ∃ t ∈ ((Verif.Sys.init fs).after cfg ser l).tasks, t.rid = rid ∧ t.call = call ∧
      t.fuel = fuel ∧
      t.prog.outcome = some ((call.prog ((cfg rid).env ser fs) fuel).run (World.init seeds)).1 := by
  obtain ⟨l, h1, h2⟩ := steps_run cfg ser (call.prog ((cfg rid).env ser fs) fuel)
    ((Verif.Sys.init fs).next cfg ser (.start rid call fuel)) 0
    ⟨rid, fs, call, fuel, call.prog ((cfg rid).env ser fs) fuel⟩ rfl rfl (World.init seeds) rfl
  refine ⟨.start rid call fuel :: l, ?_,
    ⟨rid, fs, call, fuel, ((call.prog ((cfg rid).env ser fs) fuel).run (World.init seeds)).1.leaf⟩, ?_,
    rfl, rfl, rfl, ?_⟩
  · intro e he
    rcases List.mem_cons.1 he with rfl | he
    · exact ha
    · exact steps_calm h1 e he
  · rw [after_cons, h2]
    exact List.mem_singleton.2 rfl
  · show ((call.prog ((cfg rid).env ser fs) fuel).run (World.init seeds)).1.leaf.outcome = _
    cases ((call.prog ((cfg rid).env ser fs) fuel).run (World.init seeds)).1 <;> rfl

/-- A call between updates ends as some call on the same files ends in a history in which they do not
change. -/
theorem amid_calm (hF : Changing cfg ser F) {fs₀ : Fs} {l : List Event} (hfs : F fs₀)
    (hl : Turns cfg ser F (Sys.init fs₀) l) {i : Nat} {t : Task}
    (ht : ((Sys.init fs₀).after cfg ser l).tasks[i]? = some t) {o : Outcome Answer}
    (ho : outcome t.prog = some o) :
    ∃ l', (∀ e ∈ l', e.calm) ∧ ∃ t' ∈ ((Verif.Sys.init t.fs).after cfg ser l').tasks, t'.rid = t.rid ∧
      t'.call = t.call ∧ t'.fuel = t.fuel ∧ ∃ x, t'.prog.outcome = some x ∧ o.Like Answer.Sim x := by
  obtain ⟨l', h1, -, h3⟩ := turns_freeze (s := Sys.init fs₀) (s' := Verif.Sys.init fs₀) rfl rfl rfl
    (fun _ h => by cases h) hl
  have hm : t.freeze ∈ ((Verif.Sys.init fs₀).after cfg ser l').tasks := by
    rw [h3]; exact List.mem_map_of_mem (List.mem_of_getElem? ht)
  have ha : t.freeze.call.abs := ((turns_after hF (orderly_init hfs) h1).2.1 _ hm).2.1
  obtain ⟨⟨seeds, h⟩, -⟩ := C55_turns_partial hF hfs l hl i t ht o ho
  obtain ⟨l'', g1, t', g2, g3, g4, g5, g6⟩ := fresh_calm cfg ser t.fs t.rid t.call t.fuel ha seeds
  exact ⟨l'', g1, t', g2, g3, g4, g5, _, g6, h⟩

theorem like_fuel {x : Outcome Answer} (h : Outcome.Like Answer.Sim (.crashed .fuel) x) : x = .crashed .fuel := by
  cases x with
  | done => cases h
  | crashed c => cases h; rfl

theorem like_crashed {o : Outcome Answer} {c : Crash} (h : Outcome.Like Answer.Sim o (.crashed c)) :
    o = .crashed c := by
  cases o with
  | done => cases h
  | crashed c => cases h; rfl

/-- C95 in general: what holds for the ends of a call on files that stay as they are, with any calls before and at the
same time, holds for its ends between updates of the files, if it does not depend on how the paths in errors
and of the description file with the side effects are spelled. -/
theorem C95_calls (hF : Changing cfg ser F) {call : Call} {P : Nat → Outcome Answer → Prop}
    (hP : ∀ n o o', o.Like Answer.Sim o' → P n o' → P n o)
    (h : ∀ (l : List Event), (∀ e ∈ l, e.calm) → ∀ t ∈ ((Verif.Sys.init fs).after cfg ser l).tasks,
      t.rid = rid → t.call = call → ∀ o, t.prog.outcome = some o → P t.fuel o)
    {fs₀ : Fs} {l : List Event} (hfs : F fs₀) (hl : Turns cfg ser F (Sys.init fs₀) l) {i : Nat} {t : Task}
    (ht : ((Sys.init fs₀).after cfg ser l).tasks[i]? = some t) (hft : t.fs = fs) (hr : t.rid = rid)
    (hc : t.call = call) {o : Outcome Answer} (ho : outcome t.prog = some o) : P t.fuel o := by
  obtain ⟨l', h1, t', h2, h3, h4, h5, x, h6, h7⟩ := amid_calm hF hfs hl ht ho
  rw [hft] at h2
  exact hP _ _ _ h7 (h5 ▸ h l' h1 t' h2 (h3.trans hr) (h4.trans hc) x h6)

/-- C95: if a call always comes to some answer on files that stay as they are, with any calls before and at
the same time, it comes to this answer too when it is made between updates of the files, and looks at
them one by one: whatever the files were before. -/
theorem C95_answers (hF : Changing cfg ser F) {path request : Str} {answer : Except Err Result}
    (h : Yields cfg ser fs rid path request answer) :
    YieldsAmid cfg ser F fs rid path request answer := by
  constructor
  · intro fs₀ l hfs hl i t ht hft hr hc o ho
    obtain ⟨l', h1, t', h2, h3, h4, h5, x, h6, h7⟩ := amid_calm hF hfs hl ht ho
    rw [hft] at h2
    rcases h.right l' h1 t' h2 (h3.trans hr) (h4.trans hc) x h6 with rfl | ⟨a, rfl, ha⟩
    · exact .inl (like_crashed h7)
    · cases o with
      | crashed c => cases h7
      | done b =>
        cases b with
        | sideEffects => cases h7
        | resolve b => exact .inr ⟨b, rfl, AnsSim.trans h7 ha⟩
  · obtain ⟨n, hn⟩ := h.enough
    refine ⟨n, fun fs₀ l hfs hl i t ht hft hr hc hfuel o ho => ?_⟩
    obtain ⟨l', h1, t', h2, h3, h4, h5, x, h6, h7⟩ := amid_calm hF hfs hl ht ho
    rw [hft] at h2
    rintro rfl
    exact hn l' h1 t' h2 (h3.trans hr) (h4.trans hc) (h5 ▸ hfuel) x h6 (like_fuel h7)

/-- C95 for calls that panic. -/
theorem C95_panics (hF : Changing cfg ser F) {path request : Str} {site : Site}
    (h : Panics cfg ser fs rid path request site) : PanicsAmid cfg ser F fs rid path request site := by
  constructor
  · intro fs₀ l hfs hl i t ht hft hr hc o ho
    obtain ⟨l', h1, t', h2, h3, h4, h5, x, h6, h7⟩ := amid_calm hF hfs hl ht ho
    rw [hft] at h2
    rcases h.right l' h1 t' h2 (h3.trans hr) (h4.trans hc) x h6 with rfl | rfl
    · exact .inl (like_crashed h7)
    · exact .inr (like_crashed h7)
  · obtain ⟨n, hn⟩ := h.enough
    refine ⟨n, fun fs₀ l hfs hl i t ht hft hr hc hfuel o ho => ?_⟩
    obtain ⟨l', h1, t', h2, h3, h4, h5, x, h6, h7⟩ := amid_calm hF hfs hl ht ho
    rw [hft] at h2
    rintro rfl
    exact hn l' h1 t' h2 (h3.trans hr) (h4.trans hc) (h5 ▸ hfuel) x h6 (like_fuel h7)

/-- C95 after any history `l1`, with changes at any moment: once all description files have got later times while no
call was in progress, as in C94, the call comes to the answer. -/
theorem C95_healed (hF : Changing cfg serJson F) {path request : Str} {answer : Except Err Result}
    (ha : isAbs path = true) (h : Yields cfg serJson fs rid path request answer) :
    ∃ n, ∀ fs₀ fs1 (l1 l2 : List Event), F fs1 → ((Sys.init fs₀).after cfg serJson l1).Idle →
      (∀ rid desc, (cfg rid).opts.descriptionFile = some desc →
        Touched (Versions fs₀ l1) fs1 desc (cfg rid).duration) →
      (NotMixed fun f => Versions fs₀ l1 f ∨ F f) →
      Turns cfg serJson F ((Sys.init fs₀).after cfg serJson (l1 ++ [.change fs1])) l2 →
      ∀ (i : Nat) (t : Task), ((Sys.init fs₀).after cfg serJson l1).tasks.length ≤ i →
        ((Sys.init fs₀).after cfg serJson (l1 ++ .change fs1 :: l2)).tasks[i]? = some t →
        t.fs = fs → t.rid = rid → t.call = .resolve path request → n ≤ t.fuel →
        ∀ o, outcome t.prog = some o → ∃ a, o = .done (.resolve a) ∧ AnsSim a answer := by
  obtain ⟨n, hn⟩ := h.enough
  refine ⟨n, fun fs₀ fs1 l1 l2 h1 hidle htouch hapart hl2 i t hi ht hft hr hc hfuel o ho => ?_⟩
  obtain ⟨⟨seeds, h7⟩, -⟩ := C94_heal hF h1 l1 l2 hidle htouch hapart hl2 i t hi ht o ho
  obtain ⟨l', g1, t', g2, g3, g4, g5, g6⟩ := fresh_calm cfg serJson t.fs t.rid t.call t.fuel
    (by rw [hc]; exact ha) seeds
  rw [hft] at g2
  have hne := hn l' g1 t' g2 (g3.trans hr) (g4.trans hc) (g5 ▸ hfuel) _ g6
  rcases h.right l' g1 t' g2 (g3.trans hr) (g4.trans hc) _ g6 with hx | ⟨a, hx, ha⟩
  · exact absurd hx hne
  · rw [hx] at h7
    cases o with
    | crashed c => cases h7
    | done b =>
      cases b with
      | sideEffects => cases h7
      | resolve b => exact ⟨b, rfl, AnsSim.trans h7 ha⟩

/-- As `AsNode`, for a call between updates. -/
def AsNodeAmid (cfg : Nat → Config) (ser : Json → Str) (F : Fs → Prop) (fs : Fs) (rid : Nat) (path request : Str) :
    Option Required → Prop
  | some (.found p) =>
    ∃ a, FileAnswer (cfg rid).opts fs p [] [] a ∧ YieldsAmid cfg ser F fs rid path request a
  | some .throws => ∃ e, YieldsAmid cfg ser F fs rid path request (.error e)
  | none => YieldsAmid cfg ser F fs rid path request (.error (.failed request path))

/-- C95 for what Node.js finds (C83): a call between updates comes to the file that Node.js finds among the
files as they are at that time. -/
theorem C95_require (hF : Changing cfg ser F) {path request : Str} {n : Option Required}
    (h : AsNode cfg ser fs rid path request n) : AsNodeAmid cfg ser F fs rid path request n := by
  match n, h with
  | some (.found p), h =>
    obtain ⟨a, h1, h2⟩ := h
    exact ⟨a, h1, C95_answers hF h2⟩
  | some .throws, h =>
    obtain ⟨e, h⟩ := h
    exact ⟨e, C95_answers hF h⟩
  | none, h => exact C95_answers hF h

/-! ## An example -/

/-- The directory `/p` with a `main`, written at time `m`. -/
def treeAmid (main : Str) (m : Nat) : Tree :=
  .dir [(cs!"package.json", timedFile (.obj []) 0), (cs!"p", .dir [
    (cs!"package.json", timedFile (.obj [(cs!"main", .str main)]) m),
    (cs!"a.js", timedFile (.obj []) 0), (cs!"b.js", timedFile (.obj []) 0)])]

/-- Before and after an edit of the description file. -/
def FsAmid (fs : Fs) : Prop :=
  ∃ t ∈ [treeAmid cs!"./a.js" 0, treeAmid cs!"./b.js" 2000000000], fs = treeFs t []

/-- Files with nothing but a `main`. -/
def onlyMain (d : Option Doc) : Bool :=
  match d with
  | some ⟨some (.obj []), _⟩ => true
  | some ⟨some (.obj [(k, .str _)]), _⟩ => k == cs!"main"
  | _ => false

theorem readable_main {t : Tree} (h : t.allFile onlyMain = true) (desc : Str) :
    Readable (treeFs t []) desc := by
  intro d _ hh
  have hf := hh.2
  have key : ∀ n, t.node [] (pjoin d desc) = some n → n.allFile onlyMain = true := by
    intro n hn
    unfold Tree.node at hn
    split at hn
    · exact allFile_at h hn
    · cases hn
  simp only [treeFs] at hf
  split at hf
  · rename_i doc m hn
    have hP : onlyMain doc = true := key _ hn
    unfold onlyMain at hP
    split at hP
    · refine ⟨⟨d, none, none, [], none, none, none, .obj []⟩, ?_⟩
      simp only [readPkg, treeFs, hn]
      rfl
    · rename_i k b jc
      obtain rfl : k = cs!"main" := by simpa using hP
      refine ⟨⟨d, none, none, [], none, none, none, .obj [(cs!"main", .str b)]⟩, ?_⟩
      simp only [readPkg, treeFs, hn]
      rfl
    · cases hP
  · cases hf

theorem changing_amid : Changing cfgReq serJson FsAmid where
  static fs h := by
    obtain ⟨t, ht, rfl⟩ := h
    simp only [List.mem_cons, List.not_mem_nil, or_false] at ht
    rcases ht with rfl | rfl <;> exact static_tree rfl rfl rfl (by decide +kernel)
  relative rid desc h := by
    obtain rfl : cs!"package.json" = desc := Option.some.inj h
    decide
  readable fs rid desc h _ := by
    obtain ⟨t, ht, rfl⟩ := h
    refine readable_main ?_ desc
    simp only [List.mem_cons, List.not_mem_nil, or_false] at ht
    rcases ht with rfl | rfl <;> decide +kernel
  mix fs fs' v tr _ h _ hi _ := by
    obtain ⟨t, ht, rfl⟩ := h
    obtain ⟨p, doc, json, hr, hj, hv⟩ := hi
    have hall : t.allDoc (fun d => match d.json with
        | none => true
        | some j => (j.get cs!"imports").isNone) = true := by
      simp only [List.mem_cons, List.not_mem_nil, or_false] at ht
      rcases ht with rfl | rfl <;> decide +kernel
    have := allDoc_read hall hr
    simp only [hj, hv] at this
    cases this

/-- Whatever has happened before, `/p` is what Node.js finds there after the edit: `/p/b.js`. -/
example : AsNodeAmid cfgReq serJson FsAmid (treeFs (treeAmid cs!"./b.js" 2000000000) []) 0 cs!"/" cs!"./p"
    (some (.found cs!"/./p/./b.js")) := by
  have hF : FsAmid (treeFs (treeAmid cs!"./b.js" 2000000000) []) := ⟨_, by simp, rfl⟩
  have h := C83_path_partial (changing_amid.static _ hF) (rid := 0) (path := cs!"/") (request := cs!"./p")
    nodeOpts_req rfl (.inl ⟨_, rfl⟩) (by decide) (by decide) ⟨_, loads_of_ok (by decide +kernel)⟩
    (fun _ => commonDir_main (m := cs!"./b.js") (by decide +kernel) (by decide +kernel) (by decide) (by decide)
      (fun h => absurd h (by decide +kernel)) (by decide +kernel))
  have e : loadPath (treeFs (treeAmid cs!"./b.js" 2000000000) []) (requestPath cs!"/" cs!"./p") =
      some cs!"/./p/./b.js" := by decide +kernel
  rw [e] at h
  exact C95_require changing_amid h

theorem evolves_amid : Evolves 1000000000 (treeAmid cs!"./a.js" 0) (treeAmid cs!"./b.js" 2000000000) := by
  intro loc
  rcases loc with _ | ⟨a, loc⟩
  · exact ⟨fun l _ => ⟨_, rfl⟩, nofun⟩
  · simp only [treeAmid, timedFile, Tree.at, Tree.child, alookup]
    by_cases h1 : cs!"package.json" = a
    · simp only [h1, if_true]
      cases loc with
      | nil => exact ⟨nofun, fun d m h => ⟨d, m, h, Nat.le_refl _, .inl rfl⟩⟩
      | cons b loc => exact ⟨nofun, nofun⟩
    · simp only [h1, if_false]
      by_cases h2 : cs!"p" = a
      · simp only [h2, if_true]
        rcases loc with _ | ⟨b, loc⟩
        · exact ⟨fun l h => ⟨_, rfl⟩, nofun⟩
        · simp only [Tree.at, Tree.child, alookup]
          by_cases h3 : cs!"package.json" = b
          · simp only [h3, if_true]
            cases loc with
            | nil => exact ⟨nofun, fun d m h => by cases h; exact ⟨_, _, rfl, by omega, .inr (by omega)⟩⟩
            | cons b loc => exact ⟨nofun, nofun⟩
          · simp only [h3, if_false]
            exact ⟨fun l h => ⟨l, h⟩, fun d m h => ⟨d, m, h, Nat.le_refl _, .inl rfl⟩⟩
      · simp only [h2, if_false]
        exact ⟨nofun, nofun⟩

theorem live_turns_append (l l' : List Event) (s : Sys) :
    Turns cfg ser F s (l ++ l') ↔ Turns cfg ser F s l ∧ Turns cfg ser F (s.after cfg ser l) l' := by
  induction l generalizing s with
  | nil => exact ⟨fun h => ⟨trivial, h⟩, fun h => h.2⟩
  | cons e l ih =>
    show _ ∧ Turns _ _ _ _ (l ++ l') ↔ (_ ∧ _) ∧ _
    rw [ih, and_assoc]
    exact Iff.rfl

/-- One call, number `i`, that runs to its end. -/
def askAmid (i : Nat) : List Event :=
  .start 0 (.resolve cs!"/" cs!"./p") 20 :: List.replicate 40 (.step i 0)

/-- A call, the edit, and another call. -/
def histAmid : List Event :=
  askAmid 0 ++ .change (treeFs (treeAmid cs!"./b.js" 2000000000) []) :: askAmid 1

theorem ask_amid_fs (i : Nat) (s : Sys) : (s.after cfg ser (askAmid i)).fs = s.fs :=
  after_still (fun e he f => by
    rcases List.mem_cons.1 he with rfl | he
    · nofun
    · rw [List.eq_of_mem_replicate he]; nofun) s

/-- This history meets the hypotheses. -/
example : Turns cfgReq serJson FsAmid (Sys.init (treeFs (treeAmid cs!"./a.js" 0) [])) histAmid := by
  have hidle : ((Sys.init (treeFs (treeAmid cs!"./a.js" 0) [])).after cfgReq serJson (askAmid 0)).Idle :=
    idle_of_all (by decide +kernel)
  have hfs : ((Sys.init (treeFs (treeAmid cs!"./a.js" 0) [])).after cfgReq serJson (askAmid 0)).fs =
      treeFs (treeAmid cs!"./a.js" 0) [] := ask_amid_fs 0 _
  unfold histAmid
  rw [live_turns_append]
  refine ⟨⟨⟨nofun, rfl⟩, turns_steps 40 0 _⟩, ?_⟩
  generalize (Sys.init (treeFs (treeAmid cs!"./a.js" 0) [])).after cfgReq serJson (askAmid 0) = s at hidle hfs
  refine ⟨⟨hidle, ⟨_, by simp, rfl⟩, fun rid desc h => ?_⟩, ⟨hidle, rfl⟩, turns_steps 40 1 _⟩
  obtain rfl : cs!"package.json" = desc := Option.some.inj h
  rw [hfs]
  exact evolves_amid.update rfl (by decide) (by unfold Fs.Has; decide +kernel)

/-- And its calls come to their ends: the first before the edit, the second after it. -/
example : let s := (Sys.init (treeFs (treeAmid cs!"./a.js" 0) [])).after cfgReq serJson histAmid
    s.path 0 = some cs!"/p/a.js" ∧ s.path 1 = some cs!"/p/b.js" := by
  decide +kernel

end Verif.Live
