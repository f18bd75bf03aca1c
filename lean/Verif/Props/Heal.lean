import Verif.Proofs.Heal
import Verif.Props.Live
import Verif.Props.Current
import Verif.Proofs.EndSep
import Verif.Proofs.TreeNames
import Verif.Proofs.LinkFs
/-!
# C94: touching all description files makes up for everything
-/

namespace Verif.Live

open Verif (treeFs)

variable {cfg : Nat → Config} {fs fs1 : Fs} {F : Fs → Prop}

theorem turns_mono {ser : Json → Str} {G : Fs → Prop} (hFG : ∀ f, F f → G f) {l : List Event} {s : Sys}
    (h : Turns cfg ser F s l) : Turns cfg ser G s l := by
  induction l generalizing s with
  | nil => trivial
  | cons e l ih =>
    refine ⟨?_, ih h.2⟩
    cases e with
    | start rid call fuel => exact h.1
    | change f => exact ⟨h.1.1, hFG _ h.1.2.1, h.1.2.2⟩
    | step i seed => trivial

/-- C94: after any history `l1`, with changes at any moment, in whatever state it has left the caches, all description
files get times at least one delay later than any they had before, while no call is in progress. From then on, if calls
and changes take turns, every call ends as in a fresh resolver on the files of its time. -/
theorem C94_heal (hF : Changing cfg serJson F) (h1 : F fs1) (l1 l2 : List Event)
    (hidle : ((Sys.init fs).after cfg serJson l1).Idle)
    (htouch : ∀ rid desc, (cfg rid).opts.descriptionFile = some desc →
      Touched (Versions fs l1) fs1 desc (cfg rid).duration)
    (hapart : NotMixed fun f => Versions fs l1 f ∨ F f)
    (hl2 : Turns cfg serJson F ((Sys.init fs).after cfg serJson (l1 ++ [.change fs1])) l2) (i : Nat) (t : Task)
    (hi : ((Sys.init fs).after cfg serJson l1).tasks.length ≤ i)
    (ht : ((Sys.init fs).after cfg serJson (l1 ++ .change fs1 :: l2)).tasks[i]? = some t)
    (o : Outcome Answer) (ho : outcome t.prog = some o) :
    (∃ seeds, o.Like Answer.Sim
      ((t.call.prog ((cfg t.rid).env serJson t.fs) t.fuel).run (World.init seeds)).1) ∧
    (TsClear (cfg t.rid).opts t.fs t.call → ∀ seeds, o.Like Answer.Sim
      ((t.call.prog ((cfg t.rid).env serJson t.fs) t.fuel).run (World.init seeds)).1) := by
  have hj := stored_after cfg fs l1
  have hF' := changing_noted hF h1 hapart
  have hfresh := freshS_touched (F := F) (hF.static fs1 h1) hj htouch
  rw [after_append] at hl2
  rw [after_append] at ht
  generalize (Sys.init fs).after cfg serJson l1 = s at *
  have hl2 : Turns cfg serJson F ⟨s.shared, fs1, s.tasks ++ []⟩ l2 := by rw [List.append_nil]; exact hl2
  have ht : (Sys.after cfg serJson ⟨s.shared, fs1, s.tasks ++ []⟩ l2).tasks[i]? = some t := by
    rw [List.append_nil]; exact ht
  obtain ⟨sh', f', r', h3, h4⟩ := after_without (cfg := cfg) (ser := serJson) hidle l2 s.shared fs1 []
  rw [h3] at ht
  simp only at ht
  rw [List.getElem?_append_right hi] at ht
  have hturns := turns_mono (G := Noted (Versions fs l1) F) (fun f h => .inl h) (turns_without hidle l2 s.shared fs1 [] hl2)
  obtain ⟨l', h5, -, h6⟩ := turns_freeze (s := ⟨s.shared, fs1, []⟩) (s' := ⟨s.shared, fs1, []⟩) rfl rfl rfl
    (fun _ h => by cases h) hturns
  rw [h4] at h6
  have hord := turns_after hF' (s := ⟨s.shared, fs1, []⟩) ⟨.inl h1, nofun, .inl ⟨nofun, hfresh⟩⟩ h5
  obtain ⟨h7, hc, h8⟩ := hord.2.1 t.freeze (by rw [h6]; exact List.mem_map_of_mem (List.mem_of_getElem? ht))
  obtain ⟨o', h9, h10⟩ := h8 o (outcome_freeze ho)
  have hs := hF'.static t.fs h7
  have hrel := call_rel hs t.rid hc t.fuel
  have hw : ∀ seeds, FaithWo t.fs (cfg t.rid).opts.descriptionFile serJson (World.init seeds) :=
    fun seeds d _ => faithW_init t.fs d serJson seeds
  constructor
  · obtain ⟨seeds, h⟩ := hrel.run_exists (hw fun _ => 0) h9
    exact ⟨seeds, Answer.like_join h10 h⟩
  · intro hts seeds
    obtain ⟨x, hx⟩ := call_sure hs t.rid hts t.fuel
    obtain ⟨o'', h11, h12⟩ := hrel.run (hw seeds)
    have h9 : (t.call.pure (cfg t.rid) t.fs t.fuel).Ends o' := h9
    rw [hx _ h9] at h10
    rw [hx _ h11] at h12
    exact Answer.like_join h10 h12

/-! ## An example -/

theorem file_spelled {t : Tree} (hn : t.names.all (fun s => (segComp s).isSome) = true) {p q desc : Str}
    (hv : segComp desc = some (.normal desc)) (hp : isAbs p = true) (hq : lastSeg q = some desc)
    (h : comps p = comps q) (hf : (treeFs t []).isFile p = true) : Sim p q := by
  refine ⟨h, ?_⟩
  have hq' : isAbs q = true := by rw [← isAbs_of_comps h]; exact hp
  obtain ⟨A, x, hA, hx⟩ := snoc_segs p
  obtain ⟨B, y, hB, hy⟩ := snoc_segs q
  rw [hq] at hy
  obtain rfl := Option.some.inj hy
  rw [hx, hq]
  obtain ⟨c, hc⟩ := Option.isSome_iff_exists.1 (List.all_eq_true.1 hn x (treeFs_file_name hf hA))
  rw [comps_eq_root hp, comps_eq_root hq', hA, hB, segComps_append, segComps_append] at h
  have h1 : segComps [x] = [c] := by simp [segComps, hc]
  have h2 : segComps [desc] = [.normal desc] := by simp [segComps, hv]
  rw [h1, h2] at h
  have h3 := (List.append_inj' (List.cons.inj h).2 rfl).2
  cases h3
  rw [segComp_inj hc hv]

theorem touched_trees {ts : List Tree} {t : Tree} {k : Nat} (h : ts.all (fun u => u.fits k t) = true)
    (hn : ts.all (fun u => u.names.all (fun s => (segComp s).isSome)) = true) (ht : t.isDir = true)
    (hd : ts.all Tree.isDir = true) {V : Fs → Prop}
    (hV : ∀ f, V f → ∃ u ∈ ts, f = treeFs u []) : Touched V (treeFs t []) cs!"package.json" k where
  stays f d hf _ h' := by rw [← place_fits h hV d hf]; exact h'
  above := .of_place fun f d hf _ => place_fits h hV d hf
  dir d ha hf := by
    have hne : d ≠ [] := by rintro rfl; cases ha
    obtain ⟨d0, h0, h1⟩ := pjoin_text (q := cs!"package.json") hne rfl
    have hL := treeFs_lawful (t := t) [] ht
    have hc : comps d = comps (d0 ++ cs!"/") := by
      rcases h0 with ⟨rfl, -⟩ | rfl
      · rw [comps_append_sep_of_ne hne]; simp [splitC, segComps]
      · rfl
    rw [hL.dir d _ ha hc]
    refine treeFs_solid t [] d0 _ ?_ (h1 ▸ hf)
    rw [← isAbs_of_comps hc]; exact ha
  read f d p doc hf ha hc hr := by
    obtain ⟨u, hu, rfl⟩ := hV f hf
    have hap : isAbs p = true := by rw [isAbs_of_comps hc]; exact isAbs_pjoin_left _ ha
    have hfile : (treeFs u []).isFile p = true := by
      simp only [treeFs] at hr ⊢
      split at hr
      · rfl
      · cases hr
    have := file_spelled (List.all_eq_true.1 hn u hu) (desc := cs!"package.json") (by decide) hap
      ((lastSeg_pjoin (by rintro rfl; cases ha) rfl).trans (by decide)) hc hfile
    rw [← (treeFs_lawful (t := u) [] (List.all_eq_true.1 hd u hu)).file p _ hap this]
    exact hfile
  time f d p m m' hf ha hc hft hm hm' := by
    obtain ⟨u, hu, rfl⟩ := hV f hf
    have hal := fits_node (List.all_eq_true.1 h u hu) (pjoin d cs!"package.json")
    have hap : isAbs p = true := by rw [isAbs_of_comps hc]; exact isAbs_pjoin_left _ ha
    simp only [treeFs] at hm hm' hft
    cases h1 : u.node [] p with
    | none => rw [h1] at hm; cases hm
    | some a =>
      cases h2 : u.node [] (pjoin d cs!"package.json") with
      | none =>
        rw [h2] at hal
        cases h3 : t.node [] (pjoin d cs!"package.json") with
        | none => rw [h3] at hm'; cases hm'
        | some b => rw [h3] at hal; exact hal.elim
      | some b =>
        obtain rfl := node_comps hap hc h1 h2
        rw [h1] at hm
        rw [h2] at hal
        cases h3 : t.node [] (pjoin d cs!"package.json") with
        | none => rw [h3] at hm'; cases hm'
        | some c =>
          rw [h3] at hal hm' hft
          cases c with
          | dir l => cases hft
          | file d' n' =>
            cases a with
            | dir l => exact hal.elim
            | file d n => cases hm; cases hm'; exact hal

/-- `/package.json` is malformed. -/
def treeBad : Tree :=
  .dir [(cs!"package.json", .file (some ⟨none, .error cs!"not json"⟩) 1000000000), (cs!"p", .dir [])]

/-- A call has read `/package.json` when it is replaced by a malformed file a second later, and stores the old contents
with the new time. Another call starts before that one is over. -/
def histHeal : List Event :=
  .start 0 (.sideEffects cs!"/p") 20 :: List.replicate 9 (.step 0 0) ++
    .change (treeFs treeBad []) ::
    (.start 1 (.sideEffects cs!"/p") 20 :: List.replicate 20 (.step 0 0)) ++ List.replicate 20 (.step 1 0)

/-- One more call, with number `i`. -/
def askHeal (i : Nat) : List Event := .start 0 (.sideEffects cs!"/p") 20 :: List.replicate 20 (.step i 0)

/-- What a call for `sideEffects` has found. -/
def Sys.effects (s : Sys) (i : Nat) : Option SideEffects :=
  match s.tasks[i]?.bind fun t => outcome t.prog with
  | some (.done (.sideEffects (.ok (some (_, e))))) => e
  | _ => none

theorem versions_heal (f : Fs) (h : Versions (treeFs treeCh0 []) histHeal f) : ∃ u ∈ [treeCh0, treeBad], f = treeFs u [] := by
  rcases h with rfl | h
  · exact ⟨_, List.mem_cons_self, rfl⟩
  · simp only [histHeal, List.cons_append, List.mem_cons, List.mem_append, List.mem_replicate, reduceCtorEq,
      and_false, false_or, or_false, Event.change.injEq] at h
    subst h
    exact ⟨_, by simp, rfl⟩

theorem idle_of_all {s : Sys} (h : (s.tasks.all fun t => (outcome t.prog).isSome) = true) : s.Idle :=
  fun t ht => Option.isSome_iff_exists.1 (List.all_eq_true.1 h t ht)

theorem turns_steps {ser : Json → Str} (k i : Nat) (s : Sys) : Turns cfg ser F s (List.replicate k (.step i 0)) := by
  induction k generalizing s with
  | zero => trivial
  | succ k ih => exact ⟨trivial, ih _⟩

theorem noImports_heal {u : Tree} (hu : u ∈ [treeCh0, treeBad, treeCh1, treeCh2]) : u.allDoc (fun d => match d.json with
    | none => true
    | some j => (j.get cs!"imports").isNone) = true := by
  simp only [List.mem_cons, List.not_mem_nil, or_false] at hu
  rcases hu with rfl | rfl | rfl | rfl <;> decide +kernel

-- the hypotheses of `C94_heal`
example : Changing cfgCh serJson FsCh ∧ FsCh (treeFs treeCh1 []) ∧
    ((Sys.init (treeFs treeCh0 [])).after cfgCh serJson histHeal).Idle ∧
    (∀ rid desc, (cfgCh rid).opts.descriptionFile = some desc →
      Touched (Versions (treeFs treeCh0 []) histHeal) (treeFs treeCh1 []) desc (cfgCh rid).duration) ∧
    NotMixed (fun f => Versions (treeFs treeCh0 []) histHeal f ∨ FsCh f) ∧
    Turns cfgCh serJson FsCh
      ((Sys.init (treeFs treeCh0 [])).after cfgCh serJson (histHeal ++ [.change (treeFs treeCh1 [])])) (askHeal 2) := by
  have hidle : ((Sys.init (treeFs treeCh0 [])).after cfgCh serJson histHeal).Idle := idle_of_all (by decide +kernel)
  refine ⟨changing_ch, ⟨_, by simp, rfl⟩, hidle, fun rid desc h => ?_, ?_, ?_⟩
  · obtain rfl : cs!"package.json" = desc := Option.some.inj h
    have hfit : [treeCh0, treeBad].all (fun u => u.fits 1000000000 treeCh1) = true := by decide +kernel
    exact touched_trees (ts := [treeCh0, treeBad]) hfit (by decide +kernel) rfl (by decide +kernel)
      versions_heal
  · intro f f' v t _ hf' _ h _
    have : ∃ u ∈ [treeCh0, treeBad, treeCh1, treeCh2], f' = treeFs u [] := by
      rcases hf' with hf' | ⟨u, hu, rfl⟩
      · obtain ⟨u, hu, rfl⟩ := versions_heal f' hf'
        exact ⟨u, by simp at hu ⊢; grind, rfl⟩
      · exact ⟨u, by simp at hu ⊢; grind, rfl⟩
    obtain ⟨u, hu, rfl⟩ := this
    obtain ⟨p, doc, json, hr, hj, hv⟩ := h
    have := allDoc_read (noImports_heal hu) hr
    simp only [hj, hv] at this
    cases this
  · rw [after_append]
    generalize (Sys.init (treeFs treeCh0 [])).after cfgCh serJson histHeal = s at hidle
    exact ⟨⟨hidle, rfl⟩, turns_steps 20 2 _⟩

/-- C94: before the file is touched, a call finds the old contents though the file is malformed; afterwards it finds the
new contents. It is sharp that the new time is a whole delay later: with a nanosecond less, the old contents are used for
as long as the file is not changed again. -/
theorem C94_touch_sharp :
    ((Sys.init (treeFs treeCh0 [])).after cfgCh serJson (histHeal ++ askHeal 2)).effects 2 = some (.bool true) ∧
    ((Sys.init (treeFs treeCh0 [])).after cfgCh serJson
      (histHeal ++ .change (treeFs treeCh1 []) :: askHeal 2)).effects 2 = some (.bool false) ∧
    ((Sys.init (treeFs treeCh0 [])).after cfgCh serJson
      (histHeal ++ .change (treeFs (treeRoot false 1999999999 []) []) :: askHeal 2)).effects 2 = some (.bool true) := by
  decide +kernel

end Verif.Live
