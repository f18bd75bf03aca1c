import Verif.Proofs.Reads
import Verif.Proofs.LiveHistory
/-!
# Description files that are not read again
-/

namespace Verif.Live

section
variable {α : Type} {A : (q : Query) → q.Ret → Prop} {R : (o : Op) → o.Ret → Prop}
  {Q : Query → Prop} {O : Op → Prop}

theorem Looks.sat {p : Live α} (h : p.Looks A R Q O) : p.Sat A O R (fun _ => True) fun _ => True := by
  induction p with
  | ret a => trivial
  | crash c => trivial
  | ask q k ih => exact fun r hr => ih r (h.2 r hr)
  | op o k ih => exact ⟨h.1, fun r hr => ih r (h.2 r hr)⟩

end

section
variable {cfg : Nat → Config} {ser : Json → Str} {fs : Fs}

/-! ## Times that are stored -/

theorem after_append (s : Sys) (l l' : List Event) :
    s.after cfg ser (l ++ l') = (s.after cfg ser l).after cfg ser l' := List.foldl_append ..

/-- A call stays the call of its resolver. -/
theorem task_rid {i : Nat} (l : List Event) (s : Sys) (u : Task) (h1 : s.tasks[i]? = some u) :
    ∃ t, (s.after cfg ser l).tasks[i]? = some t ∧ t.rid = u.rid := by
  induction l generalizing s u with
  | nil => exact ⟨u, h1, rfl⟩
  | cons e l ih =>
    have : ∃ u', (s.next cfg ser e).tasks[i]? = some u' ∧ u'.rid = u.rid := by
      obtain ⟨hlt, -⟩ := List.getElem?_eq_some_iff.1 h1
      cases e with
      | start rid call fuel =>
        refine ⟨u, ?_, rfl⟩
        show (s.tasks ++ _)[i]? = _
        rw [List.getElem?_append_left hlt, h1]
      | change fs => exact ⟨u, h1, rfl⟩
      | step j seed =>
        unfold Sys.next
        dsimp only
        split
        · exact ⟨u, h1, rfl⟩
        · rename_i v hv
          have key : ∀ p, ∃ u', (s.tasks.set j { v with prog := p })[i]? = some u' ∧ u'.rid = u.rid := by
            intro p
            by_cases hij : j = i
            · subst hij
              rw [h1] at hv
              cases hv
              exact ⟨_, List.getElem?_set_self hlt, rfl⟩
            · exact ⟨u, by rw [List.getElem?_set_ne hij]; exact h1, rfl⟩
          split
          · exact key _
          · exact key _
          · exact ⟨u, h1, rfl⟩
    obtain ⟨u', h3, h4⟩ := this
    obtain ⟨t, h5, h6⟩ := ih _ u' h3
    exact ⟨t, h5, h6.trans h4⟩

/-- As `live_got`, with demands on the operations of single resolvers. -/
theorem live_got_rid {F : Fs → Prop} {A : (q : Query) → q.Ret → Prop}
    (hA : ∀ fs q, F fs → A q (q.answer fs)) {G : Nat → Op → Prop}
    {R : Nat → (o : Op) → o.Ret → Prop} {J : Shared → Prop} (hJ : ∀ (s : Shared) rid o seeds, J s → G rid o →
      J (s.store cfg rid (Op.exec (s.view cfg rid seeds) o).2) ∧ R rid o (Op.exec (s.view cfg rid seeds) o).1)
    (hinit : J Shared.init)
    (hcall : ∀ rid fuel call, (Live.prog (host (cfg rid) ser fuel) fuel call).Sat A (G rid) (R rid)
      (fun _ => True) fun _ => True)
    {l : List Event} (hF : ∀ fs', Versions fs l fs' → F fs') {i : Nat} {o : Op} {r : o.Ret}
    (h : Got cfg ser fs l i o r) {u : Task} (hu : ((Sys.init fs).after cfg ser l).tasks[i]? = some u) :
    R u.rid o r := by
  have key : ∀ (l : List Event) (s : Sys), (∀ fs', .change fs' ∈ l → F fs') →
      (J s.shared ∧ F s.fs ∧ ∀ t ∈ s.tasks, t.prog.Sat A (G t.rid) (R t.rid) (fun _ => True) fun _ => True) →
      (J (s.after cfg ser l).shared ∧ ∀ t ∈ (s.after cfg ser l).tasks,
        t.prog.Sat A (G t.rid) (R t.rid) (fun _ => True) fun _ => True) := by
    intro l
    induction l with
    | nil => exact fun s _ h => ⟨h.1, h.2.2⟩
    | cons e l ih =>
      intro s hl hs
      refine ih (s.next cfg ser e) (fun _ h => hl _ (List.mem_cons_of_mem _ h)) ?_
      obtain ⟨h1, h2, h3⟩ := hs
      cases e with
      | start rid call fuel =>
        refine ⟨h1, h2, fun t ht => ?_⟩
        rcases List.mem_append.1 ht with ht | ht
        · exact h3 t ht
        · rw [List.mem_singleton.1 ht]; exact hcall _ _ _
      | change fs => exact ⟨h1, hl fs (List.mem_cons_self ..), h3⟩
      | step i seed =>
        unfold Sys.next
        dsimp only
        split
        · exact ⟨h1, h2, h3⟩
        · rename_i t hi
          have ht := h3 t (List.mem_of_getElem? hi)
          split
          · rename_i q k hp
            rw [hp] at ht
            refine ⟨h1, h2, fun t' ht' => ?_⟩
            rcases List.mem_or_eq_of_mem_set ht' with ht' | rfl
            · exact h3 t' ht'
            · exact ht _ (hA _ _ h2)
          · rename_i o k hp
            rw [hp] at ht
            obtain ⟨hj, hr⟩ := hJ s.shared t.rid o (fun _ => seed) h1 ht.1
            refine ⟨hj, h2, fun t' ht' => ?_⟩
            rcases List.mem_or_eq_of_mem_set ht' with ht' | rfl
            · exact h3 t' ht'
            · exact ht.2 _ hr
          · exact ⟨h1, h2, h3⟩
  obtain ⟨l1, seed, l2, t, k, rfl, h2, h3, h4⟩ := h
  obtain ⟨h5, h6⟩ := key l1 (Sys.init fs) (fun fs' h => hF fs' (.inr (List.mem_append_left _ h)))
    ⟨hinit, hF fs (.inl rfl), fun _ h => by cases h⟩
  have ht := h6 t (List.mem_of_getElem? h2)
  rw [h3] at ht
  have hrid : t.rid = u.rid := by
    rw [after_append] at hu
    obtain ⟨t', h4, h5⟩ := task_rid (cfg := cfg) (ser := ser) (.step i seed :: l2) _ t h2
    rw [hu] at h4
    cases h4
    exact h5.symm
  rw [← h4, ← hrid]
  exact (hJ _ t.rid o (fun _ => seed) h5 ht.1).2

/-- `m` is the time of the description file of resolver `rid` at a path spelled like `f`. -/
def TimeOf (cfg : Nat → Config) (F : Fs → Prop) (rid : Nat) (f : List Comp) (m : Nat) : Prop :=
  ∃ fs desc d, F fs ∧ (cfg rid).opts.descriptionFile = some desc ∧ comps (pjoin d desc) = f ∧
    fs.mtime (pjoin d desc) = some m

/-- Every stored time is that of a description file. -/
def TimesOf (cfg : Nat → Config) (F : Fs → Prop) (s : Shared) : Prop :=
  ∀ rid p m, s.files rid p = some m → TimeOf cfg F rid p m

/-- Answers to questions for stored times. -/
def TimeR (cfg : Nat → Config) (F : Fs → Prop) (rid : Nat) : (o : Op) → o.Ret → Prop
  | .getFile p, r => ∀ m, (r : Option Nat) = some m → TimeOf cfg F rid (comps p) m
  | _, _ => True

/-- Only times of description files are stored. -/
def TimeG (cfg : Nat → Config) (F : Fs → Prop) (rid : Nat) : Op → Prop
  | .putFile p m => TimeOf cfg F rid (comps p) m
  | _ => True

theorem time_step {F : Fs → Prop} (s : Shared) (rid : Nat) (o : Op) (seeds : Nat → Nat)
    (hs : TimesOf cfg F s) (hg : TimeG cfg F rid o) :
    TimesOf cfg F (s.store cfg rid (Op.exec (s.view cfg rid seeds) o).2) ∧
      TimeR cfg F rid o (Op.exec (s.view cfg rid seeds) o).1 := by
  constructor
  · intro rid' p m h
    by_cases hr : rid' = rid
    · subst hr
      cases o with
      | putFile p' m' =>
        simp only [Op.exec, Shared.store, Shared.view, upd, if_true] at h
        split at h
        · rename_i hc
          cases h
          rw [hc]
          exact hg
        · exact hs rid' p m h
      | _ =>
        simp only [Op.exec, Shared.store, Shared.view, upd, if_true] at h
        exact hs rid' p m h
    · refine hs rid' p m ?_
      simp only [Shared.store, upd, if_neg hr] at h
      exact h
  · cases o with
    | getFile p => exact fun m h => hs rid _ m h
    | _ => trivial

theorem prog_times {F : Fs → Prop} (rid fuel : Nat) (call : Call) :
    (Live.prog (host (cfg rid) ser fuel) fuel call).Sat (Among F) (TimeG cfg F rid) (TimeR cfg F rid)
      (fun _ => True) fun _ => True := by
  have hO : ∀ o : Op, o.mild → TimeG cfg F rid o := fun o ho => by
    cases o with
    | putFile p m => exact ho.elim
    | _ => trivial
  refine (looks_prog (Q := fun _ => True) (fun _ _ => trivial) hO (fun p => ?_) fuel call
    (fun _ _ _ _ _ => ⟨trivial, fun _ _ => trivial⟩) fun _ _ _ _ _ _ => trivial).sat
  exact looks_load (fun _ _ => trivial) hO
    (fun _ _ _ _ _ => ⟨trivial, fun _ => trivial, fun _ => trivial, fun _ _ _ _ _ _ => trivial⟩)
    (fun desc d m hd ⟨fs, hF, hm⟩ => ⟨fs, desc, d, hF, hd, rfl, hm⟩) (fun _ _ => trivial)
    (fun _ _ _ _ _ _ => trivial) _ p

/-- In any history, times found are those of files. -/
theorem got_times {l : List Event} {i : Nat} {o : Op} {r : o.Ret} (hg : Got cfg ser fs l i o r)
    {t : Task} (ht : ((Sys.init fs).after cfg ser l).tasks[i]? = some t) :
    TimeR cfg (Versions fs l) t.rid o r :=
  live_got_rid (F := Versions fs l) (A := Among (Versions fs l)) (fun fs _ hF => ⟨fs, hF, rfl⟩)
    (fun s rid o seeds hs hg => time_step s rid o seeds hs hg) (fun _ _ _ h => by cases h)
    prog_times (fun _ h => h) hg ht

/-! ## Entries stay -/

/-- There is an entry for a directory, and a time for a file. -/
def Known (c rid : Nat) (d f : List Comp) (s : Shared) : Prop :=
  (s.caches c).pkg d ≠ none ∧ s.files rid f ≠ none

theorem pkg_store {c : Nat} {d : List Comp} (s : Shared) (rid : Nat) (o : Op) (seeds : Nat → Nat)
    (h : (s.caches c).pkg d ≠ none) :
    ((s.store cfg rid (Op.exec (s.view cfg rid seeds) o).2).caches c).pkg d ≠ none := by
  by_cases hc : c = (cfg rid).cache
  · subst hc
    cases o with
    | putPkg d' v =>
      simp only [Op.exec, Shared.store, Shared.view, upd, if_true]
      split
      · exact nofun
      · exact h
    | _ =>
      simp only [Op.exec, Shared.store, Shared.view, upd, if_true]
      exact h
  · simp only [Shared.store, upd, if_neg hc]
    exact h

theorem file_store {r : Nat} {f : List Comp} (s : Shared) (rid : Nat) (o : Op) (seeds : Nat → Nat)
    (h : s.files r f ≠ none) :
    (s.store cfg rid (Op.exec (s.view cfg rid seeds) o).2).files r f ≠ none := by
  by_cases hc : r = rid
  · subst hc
    cases o with
    | putFile p v =>
      simp only [Op.exec, Shared.store, Shared.view, upd, if_true]
      split
      · exact nofun
      · exact h
    | _ =>
      simp only [Op.exec, Shared.store, Shared.view, upd, if_true]
      exact h
  · simp only [Shared.store, upd, if_neg hc]
    exact h

/-- What every operation keeps, stays. -/
theorem stays {P : Shared → Prop} (hP : ∀ s rid o seeds, P s →
    P (s.store cfg rid (Op.exec (s.view cfg rid seeds) o).2)) (l : List Event) (s : Sys) (h : P s.shared) :
    P (s.after cfg ser l).shared := by
  induction l generalizing s with
  | nil => exact h
  | cons e l ih =>
    refine ih (s.next cfg ser e) ?_
    cases e with
    | start rid call fuel => exact h
    | change fs => exact h
    | step i seed =>
      unfold Sys.next
      dsimp only
      split
      · exact h
      · split
        · exact h
        · exact hP _ _ _ _ h
        · exact h

/-- After an operation, what it has brought about. -/
theorem got_done {l : List Event} {i : Nat} {o : Op} {r : o.Ret} (hg : Got cfg ser fs l i o r)
    {t : Task} (ht : ((Sys.init fs).after cfg ser l).tasks[i]? = some t) {P : Shared → Prop}
    (hP : ∀ (s : Shared) rid o seeds, P s → P (s.store cfg rid (Op.exec (s.view cfg rid seeds) o).2))
    (hdo : ∀ (s : Shared) seeds, P (s.store cfg t.rid (Op.exec (s.view cfg t.rid seeds) o).2)) :
    P ((Sys.init fs).after cfg ser l).shared := by
  obtain ⟨l1, seed, l2, u, k, rfl, h2, h3, -⟩ := hg
  have hrid : u.rid = t.rid := by
    rw [after_append] at ht
    obtain ⟨t', h4, h5⟩ := task_rid (cfg := cfg) (ser := ser) (.step i seed :: l2) _ u h2
    rw [ht] at h4
    cases h4
    exact h5.symm
  rw [after_append]
  show P (Sys.after cfg ser (Sys.next cfg ser _ (.step i seed)) l2).shared
  refine stays hP l2 _ ?_
  simp only [Sys.next, h2, h3]
  rw [hrid]
  exact hdo _ _

/-- Who stores a package has stored the time of its file. -/
theorem stored_known {l : List Event} {rid : Nat} {d desc : Str}
    (hdesc : (cfg rid).opts.descriptionFile = some desc) (h : StoredBy cfg ser fs l rid d) :
    Known (cfg rid).cache rid (comps d) (comps (pjoin d desc)) ((Sys.init fs).after cfg ser l).shared := by
  obtain ⟨j, t, pkg, ht, rfl, hg⟩ := h
  refine ⟨got_done hg ht (P := fun s => (s.caches (cfg t.rid).cache).pkg (comps d) ≠ none)
    (fun s rid o seeds hs => pkg_store s rid o seeds hs) ?_, ?_⟩
  · intro s seeds
    simp only [Op.exec, Shared.store, Shared.view, upd, if_true]
    exact nofun
  · -- the call has stored the time
    have hfile : ∃ m, Got cfg ser fs l j (.putFile (pjoin d desc) m) () := by
      obtain ⟨l1, seed, l2, u, k, rfl, h2, h3, -⟩ := hg
      let O : Op → Prop := fun o => match o with
        | .putPkg d' (some _) => ∃ desc m, (cfg u.rid).opts.descriptionFile = some desc ∧
            Got cfg ser fs l1 j (.putFile (pjoin d' desc) m) ()
        | _ => True
      have hO : ∀ o : Op, o.mild → O o := fun o ho => by
        cases o with
        | putPkg p m => exact ho.elim
        | _ => trivial
      have h4 : (Live.prog (host (cfg u.rid) ser u.fuel) u.fuel u.call).Looks (Looked cfg ser fs l1 j)
          (Got cfg ser fs l1 j) (fun _ => True) O := by
        refine looks_prog (fun _ _ => trivial) hO (fun p => ?_) _ _
          (fun _ _ _ _ _ => ⟨trivial, fun _ _ => trivial⟩) fun _ _ _ _ _ _ => trivial
        exact looks_load (fun _ _ => trivial) hO
          (fun _ _ _ _ _ => ⟨trivial, fun _ => trivial, fun _ => trivial, fun _ _ _ _ _ _ => trivial⟩)
          (fun _ _ _ _ _ => trivial) (fun _ _ => trivial) (fun desc d m pkg h1 h2 => ⟨desc, m, h1, h2⟩) _ p
      have h5 := looks_reach h4 (live_reach cfg ser fs l1 j u h2)
      rw [h3] at h5
      obtain ⟨desc', m, h6, l1', seed', l2', t', k', h7, h8⟩ := h5.1
      have hrid : u.rid = t.rid := by
        rw [after_append] at ht
        obtain ⟨t', h4, h5⟩ := task_rid (cfg := cfg) (ser := ser) (.step j seed :: l2) _ u h2
        rw [ht] at h4
        cases h4
        exact h5.symm
      rw [hrid, hdesc] at h6
      cases h6
      exact ⟨m, l1', seed', l2' ++ .step j seed :: l2, t', k', by rw [h7]; simp, h8⟩
    obtain ⟨m, hm⟩ := hfile
    refine got_done hm ht (P := fun s => s.files t.rid (comps (pjoin d desc)) ≠ none)
      (fun s rid o seeds hs => file_store s rid o seeds hs) ?_
    intro s seeds
    simp only [Op.exec, Shared.store, Shared.view, upd, if_true]
    exact nofun

/-! ## Later calls -/

/-- What a later call finds, at any moment. -/
theorem later_got {l l' : List Event} {i : Nat} (hlater : Later cfg ser fs l i) {P : Shared → Prop}
    (hP : ∀ (s : Shared) rid o seeds, P s → P (s.store cfg rid (Op.exec (s.view cfg rid seeds) o).2))
    (h : P ((Sys.init fs).after cfg ser l).shared) {o : Op} {r : o.Ret}
    (hg : Got cfg ser fs (l ++ l') i o r) {t : Task}
    (ht : ((Sys.init fs).after cfg ser (l ++ l')).tasks[i]? = some t) :
    ∃ s seed, P s ∧ (Op.exec (s.view cfg t.rid fun _ => seed) o).1 = r := by
  obtain ⟨l1, seed, l2, u, k, h1, h2, h3, h4⟩ := hg
  have hrid : u.rid = t.rid := by
    rw [h1, after_append] at ht
    obtain ⟨t', h4, h5⟩ := task_rid (cfg := cfg) (ser := ser) (.step i seed :: l2) _ u h2
    rw [ht] at h4
    cases h4
    exact h5.symm
  refine ⟨_, seed, ?_, by rw [← hrid]; exact h4⟩
  rcases List.append_eq_append_iff.1 h1 with ⟨a, h5, -⟩ | ⟨a, h5, -⟩
  · rw [h5, after_append]
    exact stays hP a _ h
  · exfalso
    unfold Later at hlater
    rw [h5, after_append] at hlater
    obtain ⟨t', h6, -⟩ := task_rid (cfg := cfg) (ser := ser) a _ u h2
    rw [h6] at hlater
    cases hlater

theorem looked_among {l : List Event} {i : Nat} {q : Query} {r : q.Ret} (h : Looked cfg ser fs l i q r) :
    Among (Versions fs l) q r := by
  obtain ⟨fs', h1, h2⟩ := looked_seen q r h
  exact ⟨fs', versions_during h1, h2⟩

/-- The directory of a description file. -/
theorem comps_of_desc {d d' desc : Str} (hrel : isAbs desc = false) (hd : isAbs d = true)
    (h : comps (pjoin d' desc) = comps (pjoin d desc)) : comps d' = comps d := by
  have hne : d ≠ [] := by rintro rfl; cases hd
  by_cases hd' : d' = []
  · exfalso
    subst hd'
    have h1 : isAbs (pjoin d desc) = true := isAbs_pjoin_left desc hd
    rw [← isAbs_of_comps h] at h1
    simp [pjoin, hrel] at h1
  · rw [comps_pjoin hd' hrel, comps_pjoin hne hrel] at h
    exact List.append_cancel_right h

/-- A later call reads a description file that is known, and has not changed, only as a tsconfig. -/
theorem later_reads {l l' : List Event} {i : Nat} (hlater : Later cfg ser fs l i) {t : Task}
    (ht : ((Sys.init fs).after cfg ser (l ++ l')).tasks[i]? = some t) {d desc : Str}
    (hdesc : (cfg t.rid).opts.descriptionFile = some desc) (hrel : isAbs desc = false)
    (hd : isAbs d = true) (hs : StoredBy cfg ser fs l t.rid d)
    (hset : Settled fs (l ++ l') d desc (cfg t.rid).duration) {p : Str}
    (hp : comps p = comps (pjoin d desc))
    (hq : ((Sys.init fs).after cfg ser (l ++ l')).look i = some (.read p)) :
    TsconfigOf cfg ser fs (l ++ l') i t p := by
  have hk := stored_known hdesc hs
  let Q : Query → Prop := fun q => match q with
    | .read p => comps p = comps (pjoin d desc) → TsconfigOf cfg ser fs (l ++ l') i t p
    | _ => True
  have hQ : ∀ q, q.mild → Q q := fun q h => by cases q <;> first | trivial | exact h.elim
  let h := host (cfg t.rid) ser t.fuel
  have hload : ∀ p, (loadPkg h p).Looks (Looked cfg ser fs (l ++ l') i) (Got cfg ser fs (l ++ l') i) Q
      (fun _ => True) := by
    intro p
    refine looks_load hQ (fun _ _ => trivial) (fun desc' d' h1 h2 h3 => ⟨trivial, ?_, ?_, ?_⟩)
      (fun _ _ _ _ _ => trivial) (fun _ _ => trivial) (fun _ _ _ _ _ _ => trivial) _ p
    · intro hg hc
      exfalso
      have hdd : desc' = desc := Option.some.inj (h1.symm.trans hdesc)
      subst hdd
      obtain ⟨s, seed, h4, h5⟩ := later_got hlater
        (P := fun s => (s.caches (cfg t.rid).cache).pkg (comps d) ≠ none)
        (fun s rid o seeds hs => pkg_store s rid o seeds hs) hk.1 hg ht
      refine h4 ?_
      rw [← comps_of_desc hrel hd hc]
      exact h5
    · intro hg hc
      exfalso
      obtain ⟨s, seed, h4, h5⟩ := later_got hlater
        (P := fun s => s.files t.rid (comps (pjoin d desc)) ≠ none)
        (fun s rid o seeds hs => file_store s rid o seeds hs) hk.2 hg ht
      refine h4 ?_
      rw [← hc]
      exact h5
    · intro stored now hg hl _ hdur hc
      exfalso
      have hdd : desc' = desc := Option.some.inj (h1.symm.trans hdesc)
      subst hdd
      obtain ⟨fs1, desc1, d1, hv1, hd1, hp1, hm1⟩ := got_times hg ht stored rfl
      have hdd : desc1 = desc' := Option.some.inj (hd1.symm.trans h1)
      subst hdd
      obtain ⟨fs2, hv2, hm2⟩ := looked_among hl
      have := hset fs2 fs1 hv2 hv1 _ _ (comps_of_desc hrel hd hc)
        (comps_of_desc hrel hd (hp1.trans hc)) now stored hm2 hm1
      have hdur' : (cfg t.rid).duration ≤ now - stored := hdur
      omega
  have hpr : (Live.prog h t.fuel t.call).Looks (Looked cfg ser fs (l ++ l') i)
      (Got cfg ser fs (l ++ l') i) Q (fun _ => True) := by
    refine looks_prog hQ (fun _ _ => trivial) hload _ _ ?_ fun _ _ _ _ _ _ => trivial
    exact fun path request location hc hl => ⟨fun _ => ⟨⟨path, request, hc⟩, location, hl, .inl rfl⟩,
      fun p hs _ => ⟨⟨path, request, hc⟩, location, hl, .inr hs⟩⟩
  have h1 := looks_reach hpr (live_reach cfg ser fs (l ++ l') i t ht)
  unfold Sys.look at hq
  rw [ht] at hq
  dsimp only at hq
  split at hq
  · rename_i q' k hk
    cases hq
    rw [hk] at h1
    exact h1.1 hp
  · cases hq

end
end Verif.Live
