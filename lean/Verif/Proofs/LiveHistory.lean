import Verif.Proofs.LiveSuccess
import Verif.Proofs.Ignored
/-!
# Where packages and ignored results come from, while files change
-/

namespace Verif.Live

/-- The answers given by the file systems `F`. -/
def Among (F : Fs → Prop) (q : Query) (r : q.Ret) : Prop := ∃ fs, F fs ∧ q.answer fs = r

section
variable {h : Host} {F : Fs → Prop}

theorem load_hist (path : Str) :
    (loadPkg h path).Sat (Among F) (HistG F) (HistR F) (fun _ => True) fun r =>
      ∀ p, r = .ok (some p) → comps p.absDir <+: comps path ∧ Origin F p := by
  refine (loadAux_sat (fun o ho => ?_) (fun _ _ => trivial) (fun _ => trivial) trivial (fun _ => True)
    (fun _ _ _ _ => trivial) (fun _ _ _ => cacheNone_sat (fun _ _ => nofun) trivial _ _)
    (fun d p => comps p.absDir = comps d ∧ Origin F p) ?_ (fun d p _ h => h p rfl) _ path trivial).mono
    fun r hr p hp => ?_
  · cases o with
    | putPkg d v => exact ho.elim
    | putExports key t =>
      obtain ⟨v, -, h⟩ := ho
      rcases h with ⟨⟨file, doc, json, ⟨fs, hF, h1⟩, h2, h3⟩, h4⟩ | ⟨⟨file, doc, json, ⟨fs, hF, h1⟩, h2, h3⟩, h4⟩
      · exact ⟨v, _, .inl ⟨fs, hF, file, doc, json, h1, h2, h3⟩, h4⟩
      · exact ⟨v, _, .inr ⟨fs, hF, file, doc, json, h1, h2, h3⟩, h4⟩
    | _ => trivial
  · rintro desc d p _ _ ⟨doc, ⟨fs, hF, h1⟩, hp⟩
    have := parsed_origin (F := F) (fun doc' hd => ⟨fs, hF, by cases hd; exact h1⟩) hp
    refine ⟨⟨by rw [hp.dir], this⟩, fun q hq => ?_⟩
    cases hq
    exact ⟨by rw [hp.dir], this⟩
  · obtain ⟨d, h1, -, h2, h3⟩ := hr.1 p hp
    exact ⟨h2 ▸ h1.1, h3⟩

theorem ign_inv (h : Host) (F : Fs → Prop) :
    Inv h (Among F) (HistG F) (HistR F) (fun _ => True) (fun _ => True) (Origin F)
      (fun _ => True) (fun _ => True) (fun _ => True) (SaysIgnored h.opts F) where
  load p _ := (load_hist p).mono fun _ h => ⟨fun pkg hp => (h pkg hp).2, fun _ _ => trivial⟩
  errTag := trivial
  errPkg := fun _ _ => .of_all (fun _ => trivial) (fun _ _ _ _ _ => trivial) fun _ _ _ _ _ => trivial
  ask := fun _ _ => trivial
  askModule := fun _ _ => trivial
  pathGet := fun _ _ => trivial
  pathPkg := fun _ _ _ _ => trivial
  pathModule := fun _ _ => trivial
  pathParent := fun _ _ _ _ _ _ => trivial
  target := fun _ _ _ => trivial
  file := fun _ _ => resolveAsFile_sat trivial fun _ _ _ _ => trivial
  exports := fun _ _ _ _ => trivial
  imports := fun _ _ _ _ => ⟨trivial, trivial⟩
  ignAlias k h := .alias k h
  ignField pkg k hp hb hk := by
    obtain ⟨fs, file, doc, h1, h2, h3⟩ := hp.file
    cases hp.browser k _ hk with
    | ignored h4 h5 => exact .browser fs file doc _ _ k hb h1 h2 h3 h4 h5
  panics := fun _ _ => trivial
  fuel := trivial

theorem stats_ign (n : Nat) (path request : Str) :
    (resolveStats h n path request).Sat (Among F) (HistG F) (HistR F) (fun _ => True)
      (FinalInv (fun _ => True) (fun _ => True) (SaysIgnored h.opts F) ⟨path, parseRequest request⟩) :=
  stats_sat (ign_inv h F) n path request trivial fun _ _ =>
    ⟨trivial, .of_all ⟨fun _ => trivial, fun _ _ => trivial, fun _ _ => trivial⟩,
      ⟨fun _ => True, trivial, fun _ _ _ _ _ => trivial, fun _ _ => trivial⟩,
      fun _ _ _ _ _ => trivial⟩

/-- Every call stores packages made from files, if it finds them so. -/
theorem prog_hist (h : Host) (fuel : Nat) (call : Call) :
    (Live.prog h fuel call).Sat (Among F) (HistG F) (HistR F) (fun _ => True) fun _ => True := by
  cases call with
  | resolve path request =>
    unfold Live.prog
    refine Sat.bind (P := fun _ => True) ?_ fun _ _ => trivial
    unfold resolve
    refine Sat.bind (stats_ign fuel path request) fun s hs => ?_
    cases s with
    | error err j => trivial
    | resolving j => trivial
    | success r => exact (normalizeResult_was r fun _ _ _ => trivial).mono fun _ _ => trivial
  | sideEffects path =>
    unfold Live.prog
    refine Sat.bind (P := fun _ => True) ?_ fun _ _ => trivial
    unfold loadSideEffects
    refine Sat.bind (load_hist path) fun s _ => ?_
    rcases s with e | (_ | pkg)
    · trivial
    · trivial
    · dsimp only
      split <;> trivial

/-- In any history, what is found in the caches comes from files. -/
theorem got_hist {cfg : Nat → Config} {ser : Json → Str} {fs : Fs} {l : List Event} {i : Nat} (o : Op)
    (r : o.Ret) (hg : Got cfg ser fs l i o r) : HistR (Versions fs l) o r :=
  live_got (F := Versions fs l) (A := Among (Versions fs l)) (fun fs _ hF => ⟨fs, hF, rfl⟩)
    (fun s rid o seeds hs hg => hist_step s rid o seeds hs hg) (hist_init _)
    (fun h fuel call => prog_hist h fuel call) (fun _ h => h) hg

theorem versions_during {cfg : Nat → Config} {ser : Json → Str} {fs fs' : Fs} {l : List Event} {i : Nat}
    (h : During cfg ser fs l i fs') : Versions fs l fs' := by
  obtain ⟨l1, l2, rfl, rfl, -⟩ := h
  have key : ∀ (l : List Event) (s : Sys), (s.after cfg ser l).fs = s.fs ∨ .change (s.after cfg ser l).fs ∈ l := by
    intro l
    induction l with
    | nil => exact fun s => .inl rfl
    | cons e l ih =>
      intro s
      rcases ih (s.next cfg ser e) with h | h
      · have h : (s.after cfg ser (e :: l)).fs = (s.next cfg ser e).fs := h
        rw [h]
        cases e with
        | start rid call fuel => exact .inl rfl
        | change fs => exact .inr (List.mem_cons_self ..)
        | step i seed =>
          left
          unfold Sys.next
          dsimp only
          split
          · rfl
          · split <;> rfl
      · exact .inr (List.mem_cons_of_mem _ h)
  rcases key l1 (Sys.init fs) with h | h
  · exact .inl h
  · exact .inr (List.mem_append_left _ h)

theorem seen_among {cfg : Nat → Config} {ser : Json → Str} {fs : Fs} {l : List Event} {i : Nat} (q : Query)
    (r : q.Ret) (h : Seen cfg ser fs l i q r) : Among (Versions fs l) q r := by
  obtain ⟨fs', h1, h2⟩ := h
  exact ⟨fs', versions_during h1, h2⟩

theorem resolve_ignored {n : Nat} {path request : Str}
    (hr : Ends (Among F) (HistR F) (resolve h n path request) (.done (.ok .ignored))) :
    SaysIgnored h.opts F := by
  unfold resolve at hr
  obtain ⟨s, h1, h2⟩ := Ends.done_bind hr
  have hs := (stats_ign n path request).returns h1
  cases s with
  | error err j => cases h2
  | resolving j => cases h2
  | success r =>
    cases r with
    | ignored => exact hs
    | info j =>
      exfalso
      replace h2 : Ends (Among F) (HistR F) (normalizeResult h (.info j)) (.done (.ok .ignored)) := h2
      unfold normalizeResult at h2
      dsimp only at h2
      by_cases hd : (h.debug && decide (j.request.target ≠ [])) = true
      · rw [if_pos hd] at h2
        cases h2
      · rw [if_neg hd] at h2
        obtain ⟨a, -, h3⟩ := Ends.done_bind h2
        cases a <;> cases h3

end
end Verif.Live
