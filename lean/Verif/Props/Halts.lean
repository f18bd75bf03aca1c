import Verif.Proofs.HaltsCall
import Verif.Proofs.NoCycle
import Verif.Proofs.LiveHistory
import Verif.Props.Termination
/-!
# C45: calls come to an end while files change
-/

namespace Verif.Live

variable {cfg : Nat → Config} {ser : Json → Str}

theorem versions_after (fs : Fs) (l : List Event) : Versions fs l ((Sys.init fs).after cfg ser l).fs := by
  have key : ∀ (l : List Event) (s : Sys), (s.after cfg ser l).fs = s.fs ∨ .change (s.after cfg ser l).fs ∈ l := by
    intro l
    induction l with
    | nil => exact fun s => .inl rfl
    | cons e l ih =>
      intro s
      rcases ih (s.next cfg ser e) with h | h
      · have h : (s.after cfg ser (e :: l)).fs = (s.next cfg ser e).fs := h
        rw [h]
        cases e with
        | start rid call fuel => exact .inl rfl
        | change fs => exact .inr (List.mem_cons_self ..)
        | step i seed =>
          left
          unfold Sys.next
          dsimp only
          split
          · rfl
          · split <;> rfl
      · exact .inr (List.mem_cons_of_mem _ h)
  exact key l (Sys.init fs)

/-- C45 while files change, for both calls: any number of changes and other calls before it and while it
runs, with caches filled from older versions. Nothing goes round in circles in all versions taken together (in
each for itself is not enough: `C45_stale_violated`);
from the start of the call directories and places of description files stay as they are (contents and all
other files may change, even without end), and its thread gets to run again and again. Then it returns or
panics. Missing: versions that go round in circles (`C45_*_violated`), relative paths
(`C45_hang_violated`), and directories that come and go during the call (`C54_*_violated`). -/
theorem C45_changes_partial {fs : Fs} {l : List Event} {rid : Nat} {call : Call} {ev : Nat → Event}
    (hn : NoCycleAmong (cfg rid).opts (AllVersions fs l ev)) (ha : call.abs)
    (ht : ∀ f, (cfg rid).opts.tsconfig = some f → isAbs f = true) {D F : Str → Bool}
    (hD : ∀ fs', LaterVersions cfg ser fs l ev fs' → Layout (cfg rid).opts.descriptionFile D F fs')
    (hup : ∀ p q, isAbs p = true → D p = true → pparent p = some q → D q = true)
    (hf : Fair ev ((Sys.init fs).after cfg ser l).tasks.length) : StopsAfter cfg ser fs l rid call ev :=
  call_stops (V := AllVersions fs l ev) (W := LaterVersions cfg ser fs l ev) (D := D) (F := F)
    ⟨fun fs' h => h.elim (fun h => .inl (h ▸ versions_after fs l)) .inr, hD, hup, hn⟩ ha ht (.inl (.inl rfl))
    (fun fs h => .inl (.inr h)) (.inl rfl) hf fun n fs h => .inr ⟨n, h⟩

/-! ## An example -/

/-- In trees as in the criterion of `noCycle_tree` main fields do not lead to directories. -/
theorem noMain_trees {o : Opts} {V : Fs → Prop}
    (hV : ∀ fs, V fs → ∃ t cwd, fs = treeFs t cwd ∧ t.noJsDir = true ∧ t.allDoc (plainDoc o) = true) (d' d : Str) :
    ¬ MainStepAmong o V d' d := by
  rintro ⟨⟨fs, hv, hdir⟩, pkg, hread, -, ht⟩
  obtain ⟨t, cwd, rfl, hj, -⟩ := hV fs hv
  refine dir_not_js hj hdir ?_
  obtain ⟨fs', name, doc, hv', hr, hjs⟩ := hread.file
  have h : plainJson o pkg.raw = true := by
    obtain ⟨t, cwd, rfl, -, hd⟩ := hV fs' hv'
    have h := allDoc_read hd hr
    simp only [plainDoc, hjs, Bool.and_eq_true] at h
    exact h.1
  have hb : ∀ k t, (k, .target t) ∈ pkg.aliasFields → cs!".js" <:+ t := by
    intro k t hm
    cases hread.browser k _ hm with
    | target hg hm =>
      simp only [plainJson, hg, Bool.and_eq_true, List.all_eq_true] at h
      have := h.1.1.1 _ hm
      simp only [Bool.and_eq_true] at this
      exact List.isSuffixOf_iff_suffix.1 this.1
  have hm : ∀ f ∈ o.mainFields, ∀ m, pkg.raw.get f = some (.str m) → ¬ SelfValue m →
      cs!".js" <:+ m := by
    intro f hf m hm hself
    simp only [plainJson, Bool.and_eq_true, List.all_eq_true] at h
    have := h.2 f hf
    simp only [hm, Bool.or_eq_true, decide_eq_true_eq] at this
    exact List.isSuffixOf_iff_suffix.1 (this.resolve_left hself)
  clear hdir hread
  generalize o.mainFields = l at ht hm
  induction ht with
  | here hg hself hl =>
    rcases hl with rfl | ⟨-, k, t, hk, rfl⟩
    · exact pjoin_suffix (dotted_suffix (hm _ (List.mem_cons_self ..) _ hg hself))
    · exact targetPath_suffix (hb _ _ hk)
  | next _ _ _ ih => exact ih fun f hf => hm f (List.mem_cons_of_mem _ hf)

/-- The criterion of `noCycle_tree` for several versions. -/
theorem noCycle_trees {o : Opts} {V : Fs → Prop} (ha : aliasApart o = true)
    (hV : ∀ fs, V fs → ∃ t cwd, fs = treeFs t cwd ∧ t.noJsDir = true ∧ t.allDoc (plainDoc o) = true) :
    NoCycleAmong o V := by
  have calm : ∀ fs, V fs → NoCycle o fs := by
    intro fs hv
    obtain ⟨t, cwd, rfl, hj, hd⟩ := hV fs hv
    exact noCycle_tree ha hj hd
  refine ⟨alias_wf ha, fun hb fs p doc json hv => (calm fs hv).browser hb p doc json,
    fun fs v hv => (calm fs hv).exports v, fun fs v hv => (calm fs hv).imports v, ?_, fun ht => ?_⟩
  · exact wf_of_short fun d'' d' d h1 _ => noMain_trees hV _ _ h1
  · refine wf_of_short fun a b c h1 _ => ?_
    obtain ⟨fs, doc, json, s, _, _, _, _, hv, hr, hjs, he, -⟩ := h1
    obtain ⟨t, cwd, rfl, -, hd⟩ := hV fs hv
    have h := allDoc_read hd hr
    simp only [plainDoc, hjs, he, Bool.and_eq_true] at h
    cases h.2

/-- `treeTe` with nothing but `{}` in all files. -/
def treeBlank : Tree := treeTe.mapDoc fun _ => ⟨some (.obj []), .ok (some (.obj []))⟩

/-- The files change after every step. -/
def evBlink (n : Nat) : Event :=
  match n % 4 with
  | 1 => .change (treeFs treeBlank [])
  | 3 => .change (treeFs treeTe [])
  | _ => .step 0 0

theorem evBlink_change {n : Nat} {fs : Fs} (h : evBlink n = .change fs) :
    fs = treeFs treeBlank [] ∨ fs = treeFs treeTe [] := by
  unfold evBlink at h
  split at h <;> cases h
  · exact .inl rfl
  · exact .inr rfl

-- the files are blanked and restored for ever while the call runs
example : StopsAfter (fun _ => config optsTe 0) serJson (treeFs treeTe []) [] 0 (.resolve cs!"/p" cs!"q") evBlink := by
  have hV : ∀ fs', AllVersions (treeFs treeTe []) [] evBlink fs' → fs' = treeFs treeBlank [] ∨ fs' = treeFs treeTe [] := by
    rintro fs' ((h | h) | ⟨n, h⟩)
    · exact .inr h
    · cases h
    · exact evBlink_change h
  refine C45_changes_partial (D := (treeFs treeTe []).isDir)
    (F := fun d => (treeFs treeTe []).isFile (pjoin d cs!"package.json")) (noCycle_trees (by decide +kernel)
      fun fs' h => ?_) rfl (fun f h => by cases h; rfl) (fun fs' h => ?_)
    (fun p q ha hd hq => (treeFs_lawful _ rfl).parent p q ha hq hd) fun n => ⟨4 * n, by omega, 0, ?_⟩
  · rcases hV fs' h with rfl | rfl
    · exact ⟨_, _, rfl, by decide +kernel, by decide +kernel⟩
    · exact ⟨_, _, rfl, by decide +kernel, by decide +kernel⟩
  · rcases hV fs' (h.elim (fun h => .inl (.inl h)) .inr) with rfl | rfl
    · rw [treeBlank, treeFs_mapDoc]
      exact ⟨fun _ _ => rfl, fun d name h _ => by cases h; rfl⟩
    · exact ⟨fun _ _ => rfl, fun d name h _ => by cases h; rfl⟩
  · unfold evBlink
    rw [Nat.mul_mod_right]
    rfl

end Verif.Live
