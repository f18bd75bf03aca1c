import Verif.Proofs.LiveLoad
import Verif.Spec.SideEffects
/-!
# Systems on files that change at any moment
-/

namespace Verif.Live

/-- A call gets this far with answers `A` and `R`. -/
inductive Reach {α : Type} (A : (q : Query) → q.Ret → Prop) (R : (o : Op) → o.Ret → Prop) (p : Live α) :
    Live α → Prop where
  | refl : Reach A R p p
  | ask {q : Query} {k : q.Ret → Live α} (r : q.Ret) :
      Reach A R p (.ask q k) → A q r → Reach A R p (k r)
  | op {o : Op} {k : o.Ret → Live α} (r : o.Ret) : Reach A R p (.op o k) → R o r → Reach A R p (k r)

section
variable {α : Type} {A A' : (q : Query) → q.Ret → Prop} {R R' : (o : Op) → o.Ret → Prop} {p p' : Live α}

theorem Reach.mono (h : Reach A R p p') (hA : ∀ q r, A q r → A' q r) (hR : ∀ o r, R o r → R' o r) :
    Reach A' R' p p' := by
  induction h with
  | refl => exact .refl
  | ask r _ ha ih => exact .ask r ih (hA _ _ ha)
  | op r _ ho ih => exact .op r ih (hR _ _ ho)

theorem Reach.ends (h : Reach A R p p') {x : Outcome α} (hx : Ends A R p' x) : Ends A R p x := by
  induction h with
  | refl => exact hx
  | ask r _ ha ih => exact ih (.ask r ha hx)
  | op r _ ho ih => exact ih (.op r ho hx)

theorem ends_of_outcome {x : Outcome α} (h : outcome p = some x) : Ends A R p x := by
  cases p with
  | ret a => cases h; exact .ret a
  | crash c => cases h; exact .crash c
  | ask q k => cases h
  | op o k => cases h

theorem Ends.of_bind {β : Type} {f : α → Live β} {x : Outcome β} (h : Ends A R (p.bind f) x) :
    (∃ a, Ends A R p (.done a) ∧ Ends A R (f a) x) ∨ ∃ c, Ends A R p (.crashed c) ∧ x = .crashed c := by
  induction p with
  | ret a => exact .inl ⟨a, .ret a, h⟩
  | crash c =>
    cases h
    exact .inr ⟨c, .crash c, rfl⟩
  | ask q k ih =>
    cases h with
    | ask r hr h =>
      rcases ih r h with ⟨a, h1, h2⟩ | ⟨c, h1, h2⟩
      · exact .inl ⟨a, .ask r hr h1, h2⟩
      · exact .inr ⟨c, .ask r hr h1, h2⟩
  | op o k ih =>
    cases h with
    | op r hr h =>
      rcases ih r h with ⟨a, h1, h2⟩ | ⟨c, h1, h2⟩
      · exact .inl ⟨a, .op r hr h1, h2⟩
      · exact .inr ⟨c, .op r hr h1, h2⟩

theorem Ends.done_bind {β : Type} {f : α → Live β} {b : β} (h : Ends A R (p.bind f) (.done b)) :
    ∃ a, Ends A R p (.done a) ∧ Ends A R (f a) (.done b) := by
  rcases Ends.of_bind h with h | ⟨c, -, h⟩
  · exact h
  · cases h

end

theorem after_snoc (cfg : Nat → Config) (ser : Json → Str) (s : Sys) (l : List Event) (e : Event) :
    s.after cfg ser (l ++ [e]) = (s.after cfg ser l).next cfg ser e := by
  simp [Sys.after, List.foldl_append]

theorem looked_snoc {cfg : Nat → Config} {ser : Json → Str} {fs : Fs} {l : List Event} {i : Nat} {e : Event}
    (q : Query) (r : q.Ret) (h : Looked cfg ser fs l i q r) : Looked cfg ser fs (l ++ [e]) i q r := by
  obtain ⟨l1, seed, l2, t, k, rfl, h2⟩ := h
  exact ⟨l1, seed, l2 ++ [e], t, k, by simp, h2⟩

theorem got_snoc {cfg : Nat → Config} {ser : Json → Str} {fs : Fs} {l : List Event} {i : Nat} {e : Event}
    (o : Op) (r : o.Ret) (h : Got cfg ser fs l i o r) : Got cfg ser fs (l ++ [e]) i o r := by
  obtain ⟨l1, seed, l2, t, k, rfl, h2⟩ := h
  exact ⟨l1, seed, l2 ++ [e], t, k, by simp, h2⟩

theorem looked_seen {cfg : Nat → Config} {ser : Json → Str} {fs : Fs} {l : List Event} {i : Nat}
    (q : Query) (r : q.Ret) (h : Looked cfg ser fs l i q r) : Seen cfg ser fs l i q r := by
  obtain ⟨l1, seed, l2, t, k, rfl, h2, h3, h4⟩ := h
  exact ⟨_, ⟨l1, _, rfl, rfl, t, h2, by rw [h3]; rfl⟩, h4⟩

/-- A call gets as far as it does with the answers it has got. -/
theorem live_reach (cfg : Nat → Config) (ser : Json → Str) (fs : Fs) (l : List Event) (i : Nat) (t : Task)
    (ht : ((Sys.init fs).after cfg ser l).tasks[i]? = some t) :
    Reach (Looked cfg ser fs l i) (Got cfg ser fs l i) (Live.prog (host (cfg t.rid) ser t.fuel) t.fuel t.call) t.prog := by
  suffices H : ∀ (n : Nat) (l : List Event), l.length = n → ∀ i t,
      ((Sys.init fs).after cfg ser l).tasks[i]? = some t →
      Reach (Looked cfg ser fs l i) (Got cfg ser fs l i) (Live.prog (host (cfg t.rid) ser t.fuel) t.fuel t.call) t.prog from
    H _ l rfl i t ht
  intro n
  induction n with
  | zero =>
    intro l hl i t ht
    cases List.length_eq_zero_iff.1 hl
    cases ht
  | succ n ih =>
    intro l hl i t ht
    obtain ⟨l, e, rfl⟩ : ∃ l' e, l = l' ++ [e] :=
      ⟨l.dropLast, l.getLast (by intro h; rw [h] at hl; cases hl), (List.dropLast_concat_getLast _).symm⟩
    have hl : l.length = n := by simpa using hl
    have ih := ih l hl
    rw [after_snoc] at ht
    generalize hs : (Sys.init fs).after cfg ser l = s at ht ih
    have old : ∀ {t}, s.tasks[i]? = some t → Reach (Looked cfg ser fs (l ++ [e]) i)
        (Got cfg ser fs (l ++ [e]) i)
        (Live.prog (host (cfg t.rid) ser t.fuel) t.fuel t.call) t.prog :=
      fun h => (ih i _ h).mono looked_snoc got_snoc
    cases e with
    | start rid call fuel =>
      simp only [Sys.next, List.getElem?_append] at ht
      split at ht
      · exact old ht
      · obtain ⟨-, rfl⟩ := List.getElem?_eq_some_iff.1 ht
        simp only [List.getElem_singleton]
        exact .refl
    | change fs => exact old ht
    | step j seed =>
      unfold Sys.next at ht
      dsimp only at ht
      split at ht
      · exact old ht
      · rename_i u hu
        split at ht
        · rename_i q k hp
          simp only [List.getElem?_set] at ht
          split at ht
          · rename_i hij
            subst hij
            split at ht
            · cases ht
              have h1 := old hu
              rw [hp] at h1
              exact .ask _ h1 ⟨l, seed, [], u, k, rfl, by rw [hs]; exact hu, hp, by rw [hs]⟩
            · cases ht
          · exact old ht
        · rename_i o k hp
          simp only [List.getElem?_set] at ht
          split at ht
          · rename_i hij
            subst hij
            split at ht
            · cases ht
              have h1 := old hu
              rw [hp] at h1
              exact .op _ h1 ⟨l, seed, [], u, k, rfl, by rw [hs]; exact hu, hp, by rw [hs]⟩
            · cases ht
          · exact old ht
        · exact old ht

/-- In any history, a call that is over has ended with the answers it has got. -/
theorem live_looked (cfg : Nat → Config) (ser : Json → Str) (fs : Fs) (l : List Event) (i : Nat) (t : Task)
    (ht : ((Sys.init fs).after cfg ser l).tasks[i]? = some t) (x : Outcome Answer)
    (hx : outcome t.prog = some x) :
    Ends (Looked cfg ser fs l i) (Got cfg ser fs l i) (Live.prog (host (cfg t.rid) ser t.fuel) t.fuel t.call) x :=
  (live_reach cfg ser fs l i t ht).ends (ends_of_outcome hx)

/-- In any history, a call that is over has ended with answers of moments at which it was in
progress. -/
theorem live_ends (cfg : Nat → Config) (ser : Json → Str) (fs : Fs) (l : List Event) (i : Nat) (t : Task)
    (ht : ((Sys.init fs).after cfg ser l).tasks[i]? = some t) (x : Outcome Answer)
    (hx : outcome t.prog = some x) :
    Ends (Seen cfg ser fs l i) (Got cfg ser fs l i) (Live.prog (host (cfg t.rid) ser t.fuel) t.fuel t.call) x :=
  ((live_reach cfg ser fs l i t ht).mono looked_seen fun _ _ h => h).ends (ends_of_outcome hx)

/-- Who gets all answers from one file system is a call on that file system. -/
theorem Ends.freeze {α : Type} {A : (q : Query) → q.Ret → Prop} {R : (o : Op) → o.Ret → Prop} {p : Live α} {x : Outcome α}
    (h : Ends A R p x) {fs : Fs} (hA : ∀ q r, A q r → q.answer fs = r) : (p.freeze fs).Ends x := by
  induction h with
  | ret a => exact .ret a
  | crash c => exact .crash c
  | ask r hr _ ih => cases hA _ _ hr; exact ih
  | op r _ _ ih => exact .op r ih

/-! ## What the caches hold -/

/-- If every call keeps to `G`, under the condition that operations are answered by `R`, then they
are. -/
theorem live_got {cfg : Nat → Config} {ser : Json → Str} {F : Fs → Prop}
    {A : (q : Query) → q.Ret → Prop} (hA : ∀ fs q, F fs → A q (q.answer fs)) {G : Op → Prop}
    {R : (o : Op) → o.Ret → Prop} {J : Shared → Prop} (hJ : ∀ s rid o seeds, J s → G o →
      J (s.store cfg rid (Op.exec (s.view cfg rid seeds) o).2) ∧ R o (Op.exec (s.view cfg rid seeds) o).1)
    (hinit : J Shared.init)
    (hcall : ∀ h fuel call, (Live.prog h fuel call).Sat A G R (fun _ => True) fun _ => True)
    {fs : Fs} {l : List Event} (hF : ∀ fs', Versions fs l fs' → F fs') {i : Nat} {o : Op} {r : o.Ret} (h : Got cfg ser fs l i o r) : R o r := by
  have key : ∀ (l : List Event) (s : Sys), (∀ fs', .change fs' ∈ l → F fs') → (J s.shared ∧ F s.fs ∧ ∀ t ∈ s.tasks,
      t.prog.Sat A G R (fun _ => True) fun _ => True) →
      (J (s.after cfg ser l).shared ∧ ∀ t ∈ (s.after cfg ser l).tasks,
        t.prog.Sat A G R (fun _ => True) fun _ => True) := by
    intro l
    induction l with
    | nil => exact fun s _ h => ⟨h.1, h.2.2⟩
    | cons e l ih =>
      intro s hl hs
      refine ih (s.next cfg ser e) (fun _ h => hl _ (List.mem_cons_of_mem _ h)) ?_
      obtain ⟨h1, h2, h3⟩ := hs
      cases e with
      | start rid call fuel =>
        refine ⟨h1, h2, fun t ht => ?_⟩
        rcases List.mem_append.1 ht with ht | ht
        · exact h3 t ht
        · rw [List.mem_singleton.1 ht]; exact hcall _ _ _
      | change fs => exact ⟨h1, hl fs (List.mem_cons_self ..), h3⟩
      | step i seed =>
        unfold Sys.next
        dsimp only
        split
        · exact ⟨h1, h2, h3⟩
        · rename_i t hi
          have ht := h3 t (List.mem_of_getElem? hi)
          split
          · rename_i q k hp
            rw [hp] at ht
            refine ⟨h1, h2, fun t' ht' => ?_⟩
            rcases List.mem_or_eq_of_mem_set ht' with ht' | rfl
            · exact h3 t' ht'
            · exact ht _ (hA _ _ h2)
          · rename_i o k hp
            rw [hp] at ht
            obtain ⟨hj, hr⟩ := hJ s.shared t.rid o (fun _ => seed) h1 ht.1
            refine ⟨hj, h2, fun t' ht' => ?_⟩
            rcases List.mem_or_eq_of_mem_set ht' with ht' | rfl
            · exact h3 t' ht'
            · exact ht.2 _ hr
          · exact ⟨h1, h2, h3⟩
  obtain ⟨l1, seed, l2, t, k, rfl, h2, h3, h4⟩ := h
  obtain ⟨h5, h6⟩ := key l1 (Sys.init fs) (fun fs' h => hF fs' (.inr (List.mem_append_left _ h)))
    ⟨hinit, hF fs (.inl rfl), fun _ h => by cases h⟩
  have ht := h6 t (List.mem_of_getElem? h2)
  rw [h3] at ht
  rw [← h4]
  exact (hJ _ t.rid o (fun _ => seed) h5 ht.1).2

/-! ## Calls that notice no change -/

theorem set_same {α : Type} {l : List α} {i : Nat} {a : α} (h : l[i]? = some a) : l.set i a = l := by
  induction l generalizing i with
  | nil => rfl
  | cons b l ih =>
    cases i with
    | zero => cases h; rfl
    | succ i => rw [List.set_cons_succ, ih h]

theorem prog_freeze (cfg : Config) (ser : Json → Str) (spin fuel : Nat) (fs : Fs) (call : Call) :
    (Live.prog (host cfg ser spin) fuel call).freeze fs = call.prog (cfg.env ser fs) fuel := by
  cases call with
  | resolve path request =>
    unfold Live.prog Call.prog
    exact bind_freeze (resolve_freeze (h := host cfg ser spin) fuel path request) fun r => rfl
  | sideEffects path =>
    unfold Live.prog Call.prog
    exact bind_freeze (sideEffects_freeze (h := host cfg ser spin) path) fun r => rfl

theorem freeze_next {cfg : Nat → Config} {ser : Json → Str} {s : Sys} {s' : Verif.Sys}
    (hsh : s'.shared = s.shared) (hfs : s'.fs = s.fs) (hts : s'.tasks = s.tasks.map Task.freeze)
    (e : Event)
    (hu : ∀ i seed, e = .step i seed → ∀ t, s.tasks[i]? = some t → ∀ q k, t.prog = .ask q k →
      q.answer s.fs = q.answer t.fs) :
    ∃ s'', (s'' = s' ∧ (∃ i seed, e = .step i seed) ∨ s'' = s'.next cfg ser e) ∧
      s''.shared = (s.next cfg ser e).shared ∧ s''.fs = (s.next cfg ser e).fs ∧
      s''.tasks = (s.next cfg ser e).tasks.map Task.freeze := by
  cases e with
  | start rid call fuel =>
    refine ⟨_, .inr rfl, hsh, hfs, ?_⟩
    show s'.tasks ++ [_] = List.map Task.freeze (s.tasks ++ [_])
    rw [hts, List.map_append, hfs]
    congr 1
    show [_] = [_]
    congr 1
    unfold Task.freeze
    dsimp only
    congr 1
    exact (prog_freeze _ _ _ _ _ _).symm
  | change fs =>
    refine ⟨_, .inr rfl, hsh, rfl, ?_⟩
    exact hts
  | step i seed =>
    cases ht : s.tasks[i]? with
    | none =>
      refine ⟨s', .inl ⟨rfl, i, seed, rfl⟩, ?_⟩
      simp only [Sys.next, ht]
      exact ⟨hsh, hfs, hts⟩
    | some t =>
      have ht' : s'.tasks[i]? = some t.freeze := by rw [hts, List.getElem?_map, ht]; rfl
      cases hp : t.prog with
      | ret a =>
        refine ⟨s', .inl ⟨rfl, i, seed, rfl⟩, ?_⟩
        simp only [Sys.next, ht, hp]
        exact ⟨hsh, hfs, hts⟩
      | crash c =>
        refine ⟨s', .inl ⟨rfl, i, seed, rfl⟩, ?_⟩
        simp only [Sys.next, ht, hp]
        exact ⟨hsh, hfs, hts⟩
      | ask q k =>
        refine ⟨s', .inl ⟨rfl, i, seed, rfl⟩, ?_⟩
        simp only [Sys.next, ht, hp]
        refine ⟨hsh, hfs, ?_⟩
        rw [hu i seed rfl t ht q k hp, hts, List.map_set]
        symm
        have : ({ t with prog := k (q.answer t.fs) } : Task).freeze = t.freeze := by
          unfold Task.freeze
          rw [hp]
          rfl
        rw [this]
        exact set_same (by rw [List.getElem?_map, ht]; rfl)
      | op o k =>
        refine ⟨_, .inr rfl, ?_⟩
        have hp' : t.freeze.prog = .op o fun r => (k r).freeze t.fs := by
          unfold Task.freeze
          rw [hp]
          rfl
        simp only [Sys.next, Verif.Sys.next, ht, ht', hp, hp']
        refine ⟨by rw [hsh]; rfl, hfs, ?_⟩
        rw [hsh, hts, List.map_set]
        rfl

/-- Calls that notice no change are calls on files that stand still: the history without the looks at
files is one of `Verif.Model.Machine`, and leads to the same state. -/
theorem freeze_after {cfg : Nat → Config} {ser : Json → Str} {s : Sys} {s' : Verif.Sys}
    (hsh : s'.shared = s.shared) (hfs : s'.fs = s.fs) (hts : s'.tasks = s.tasks.map Task.freeze)
    {l : List Event} (hu : Unnoticed cfg ser s l) :
    ∃ l' : List Event, l'.Sublist l ∧ (∀ e ∈ l, (∀ i seed, e ≠ .step i seed) → e ∈ l') ∧
      (s'.after cfg ser l').shared = (s.after cfg ser l).shared ∧
      (s'.after cfg ser l').fs = (s.after cfg ser l).fs ∧
      (s'.after cfg ser l').tasks = (s.after cfg ser l).tasks.map Task.freeze := by
  induction l generalizing s s' with
  | nil => exact ⟨[], .slnil, fun _ h => (by cases h), hsh, hfs, hts⟩
  | cons e l ih =>
    obtain ⟨s'', hs, h1, h2, h3⟩ := freeze_next (cfg := cfg) (ser := ser) hsh hfs hts e hu.1
    obtain ⟨l', hl, hall, h4⟩ := ih h1 h2 h3 hu.2
    rcases hs with ⟨rfl, i, seed, rfl⟩ | rfl
    · refine ⟨l', hl.cons _, fun e he hne => ?_, h4⟩
      rcases List.mem_cons.1 he with rfl | he
      · exact absurd rfl (hne i seed)
      · exact hall e he hne
    · refine ⟨e :: l', hl.cons₂ _, fun e' he hne => ?_, h4⟩
      rcases List.mem_cons.1 he with rfl | he
      · exact List.mem_cons_self
      · exact List.mem_cons_of_mem _ (hall e' he hne)

/-- Who is never in progress while files change notices no change. -/
theorem unnoticed_of_quiet {cfg : Nat → Config} {ser : Json → Str} {s : Sys}
    (hs : ∀ t ∈ s.tasks, outcome t.prog = none → t.fs = s.fs) {l : List Event}
    (h : Quiet cfg ser s l) : Unnoticed cfg ser s l := by
  induction l generalizing s with
  | nil => trivial
  | cons e l ih =>
    refine ⟨?_, ih ?_ h.2⟩
    · rintro i seed rfl t ht q k hp
      rw [hs t (List.mem_of_getElem? ht) (by rw [hp]; rfl)]
    · cases e with
      | start rid call fuel =>
        intro t ht hn
        simp only [Sys.next, List.mem_append, List.mem_singleton] at ht
        rcases ht with ht | rfl
        · exact hs t ht hn
        · rfl
      | change fs => exact fun t ht hn => absurd hn (h.1 fs rfl t ht)
      | step i seed =>
        unfold Sys.next
        dsimp only
        split
        · exact hs
        · rename_i t ht
          have hmem := List.mem_of_getElem? ht
          split
          · rename_i q k hp
            intro t' ht' hn
            rcases List.mem_or_eq_of_mem_set ht' with ht' | rfl
            · exact hs t' ht' hn
            · exact hs t hmem (by rw [hp]; rfl)
          · rename_i o k hp
            intro t' ht' hn
            rcases List.mem_or_eq_of_mem_set ht' with ht' | rfl
            · exact hs t' ht' hn
            · exact hs t hmem (by rw [hp]; rfl)
          · exact hs

theorem outcome_freeze {α : Type} {fs : Fs} {p : Live α} {x : Outcome α} (h : outcome p = some x) :
    (p.freeze fs).outcome = some x := by
  cases p with
  | ret a => exact h
  | crash c => exact h
  | ask q k => cases h
  | op o k => cases h

theorem outcome_of_freeze {α : Type} {fs : Fs} {p : Live α} {x : Outcome α} (h : outcome p = some x)
    {y : Outcome α} (hy : (p.freeze fs).outcome = some y) : x = y := by
  rw [outcome_freeze h] at hy
  exact Option.some.inj hy

/-- Calls one after the other, with changes in between, are such calls of `Verif.Model.Machine`. -/
theorem turns_freeze {cfg : Nat → Config} {ser : Json → Str} {F : Fs → Prop} {s : Sys} {s' : Verif.Sys}
    (hsh : s'.shared = s.shared) (hfs : s'.fs = s.fs) (hts : s'.tasks = s.tasks.map Task.freeze)
    (hs : ∀ t ∈ s.tasks, outcome t.prog = none → t.fs = s.fs)
    {l : List Event} (hl : Turns cfg ser F s l) :
    ∃ l' : List Event, Verif.Turns cfg ser F s' l' ∧
      (s'.after cfg ser l').fs = (s.after cfg ser l).fs ∧
      (s'.after cfg ser l').tasks = (s.after cfg ser l).tasks.map Task.freeze := by
  have hidle : ∀ {s : Sys} {s' : Verif.Sys}, s'.tasks = s.tasks.map Task.freeze → s.Idle → s'.Idle := by
    intro s s' hts hi t ht
    rw [hts] at ht
    obtain ⟨t, ht', rfl⟩ := List.mem_map.1 ht
    obtain ⟨o, ho⟩ := hi t ht'
    exact ⟨o, outcome_freeze ho⟩
  have hquiet : ∀ {s : Sys} {l : List Event}, Turns cfg ser F s l → Quiet cfg ser s l := by
    intro s l
    induction l generalizing s with
    | nil => exact fun _ => trivial
    | cons e l ih =>
      intro h
      refine ⟨?_, ih h.2⟩
      rintro fs rfl t ht hn
      obtain ⟨o, ho⟩ := h.1.1 t ht
      rw [hn] at ho
      cases ho
  have hu := unnoticed_of_quiet hs (hquiet hl)
  clear hs
  induction l generalizing s s' with
  | nil => exact ⟨[], trivial, hfs, hts⟩
  | cons e l ih =>
    obtain ⟨s'', hs'', h1, h2, h3⟩ := freeze_next (cfg := cfg) (ser := ser) hsh hfs hts e hu.1
    obtain ⟨l', ht, h4⟩ := ih h1 h2 h3 hl.2 hu.2
    rcases hs'' with ⟨rfl, i, seed, rfl⟩ | rfl
    · exact ⟨l', ht, h4⟩
    · refine ⟨e :: l', ⟨?_, ht⟩, h4⟩
      cases e with
      | step i seed => trivial
      | start rid call fuel => exact ⟨hidle hts hl.1.1, hl.1.2⟩
      | change fs => exact ⟨hidle hts hl.1.1, hl.1.2.1, by rw [hfs]; exact hl.1.2.2⟩

end Verif.Live
