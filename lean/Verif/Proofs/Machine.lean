import Verif.Proofs.Sat
/-!
# Invariants of systems
-/

namespace Verif

theorem Prog.returns_bind {α β : Type} {p : Prog α} {f : α → Prog β} {b : β}
    (h : (p.bind f).Returns b) : ∃ a, p.Returns a ∧ (f a).Returns b := by
  induction p with
  | ret a => exact ⟨a, .ret a, h⟩
  | crash c => cases h
  | op o k ih =>
    cases h with
    | op r h =>
      obtain ⟨a, h1, h2⟩ := ih r h
      exact ⟨a, .op r h1, h2⟩

/-- Everything a task of a system may still return, its call may return. -/
def Sys.TasksOk (cfg : Nat → Config) (ser : Json → Str) (s : Sys) : Prop :=
  ∀ t ∈ s.tasks, ∀ a, t.prog.Returns a →
    (t.call.prog ((cfg t.rid).env ser t.fs) t.fuel).Returns a

theorem Sys.TasksOk.next {cfg : Nat → Config} {ser : Json → Str} {s : Sys}
    (h : s.TasksOk cfg ser) (e : Event) : (s.next cfg ser e).TasksOk cfg ser := by
  cases e with
  | start rid call fuel =>
    intro t ht a ha
    rcases List.mem_append.1 ht with ht | ht
    · exact h t ht a ha
    · rw [List.mem_singleton.1 ht] at ha ⊢; exact ha
  | change fs => exact h
  | step i seed =>
    unfold Sys.next
    simp only
    split
    · exact h
    · rename_i t hi
      split
      · rename_i o k hp
        intro t' ht' a ha
        rcases List.mem_or_eq_of_mem_set ht' with ht' | rfl
        · exact h t' ht' a ha
        · exact h t (List.mem_of_getElem? hi) a (hp ▸ .op _ ha)
      · exact h

/-- A finished call of any system returned something that `Returns` allows for the file system
it started on: statements about `Returns` hold for every history and interleaving. -/
theorem system_returns (cfg : Nat → Config) (ser : Json → Str) (fs : Fs) (l : List Event) (t : Task)
    (ht : t ∈ ((Sys.init fs).after cfg ser l).tasks) (a : Answer) (hd : t.prog = .ret a) :
    (t.call.prog ((cfg t.rid).env ser t.fs) t.fuel).Returns a := by
  have key : ∀ (l : List Event) (s : Sys), s.TasksOk cfg ser → (s.after cfg ser l).TasksOk cfg ser := by
    intro l
    induction l with
    | nil => intro s h; exact h
    | cons e l ih => intro s h; exact ih _ (h.next e)
  exact key l (Sys.init fs) (fun t ht => by cases ht) t ht a (hd ▸ .ret a)

/-- Which file systems and calls occur in a list of events. -/
def EventOk (okFs : Fs → Prop) (okCall : Nat → Call → Prop) : Event → Prop
  | .start rid call _ => okCall rid call
  | .change fs => okFs fs
  | .step _ _ => True

/-- Invariants of the shared state, and what they give for calls. -/
theorem system_inv {cfg : Nat → Config} {ser : Json → Str} {okFs : Fs → Prop}
    {okCall : Nat → Call → Prop} {G : Nat → Op → Prop} {R : Nat → (o : Op) → o.Ret → Prop}
    {J : Shared → Prop} {P : Nat → Fs → Call → Answer → Prop}
    (hJ : ∀ s rid o seeds, J s → G rid o →
      J (s.store cfg rid (Op.exec (s.view cfg rid seeds) o).2) ∧
      R rid o (Op.exec (s.view cfg rid seeds) o).1)
    (hcall : ∀ rid fs call fuel, okFs fs → okCall rid call →
      (call.prog ((cfg rid).env ser fs) fuel).Sat (G rid) (R rid) (P rid fs call))
    {fs : Fs} (hfs : okFs fs) {l : List Event} (hl : ∀ e ∈ l, EventOk okFs okCall e)
    {sh : Shared} (hinit : J sh) :
    J (Sys.after cfg ser ⟨sh, fs, []⟩ l).shared ∧
    okFs (Sys.after cfg ser ⟨sh, fs, []⟩ l).fs ∧
    ∀ t ∈ (Sys.after cfg ser ⟨sh, fs, []⟩ l).tasks,
      t.prog.Sat (G t.rid) (R t.rid) (P t.rid t.fs t.call) := by
  have key : ∀ (l : List Event) (s : Sys), (∀ e ∈ l, EventOk okFs okCall e) →
      (J s.shared ∧ okFs s.fs ∧ ∀ t ∈ s.tasks, t.prog.Sat (G t.rid) (R t.rid) (P t.rid t.fs t.call)) →
      J (s.after cfg ser l).shared ∧ okFs (s.after cfg ser l).fs ∧
      ∀ t ∈ (s.after cfg ser l).tasks, t.prog.Sat (G t.rid) (R t.rid) (P t.rid t.fs t.call) := by
    intro l
    induction l with
    | nil => intro s _ h; exact h
    | cons e l ih =>
      intro s hl h
      refine ih (s.next cfg ser e) (fun e he => hl e (List.mem_cons_of_mem _ he)) ?_
      obtain ⟨h1, h2, h3⟩ := h
      have he := hl e (by simp)
      cases e with
      | start rid call fuel =>
        refine ⟨h1, h2, fun t ht => ?_⟩
        rcases List.mem_append.1 ht with ht | ht
        · exact h3 t ht
        · rw [List.mem_singleton.1 ht]; exact hcall rid s.fs call fuel h2 he
      | change fs => exact ⟨h1, he, h3⟩
      | step i seed =>
        unfold Sys.next
        simp only
        split
        · exact ⟨h1, h2, h3⟩
        · rename_i t hi
          split
          · rename_i o k hp
            have ht := h3 t (List.mem_of_getElem? hi)
            rw [hp] at ht
            obtain ⟨hj, hr⟩ := hJ s.shared t.rid o (fun _ => seed) h1 ht.1
            refine ⟨hj, h2, fun t' ht' => ?_⟩
            rcases List.mem_or_eq_of_mem_set ht' with ht' | rfl
            · exact h3 t' ht'
            · exact ht.2 _ hr
          · exact ⟨h1, h2, h3⟩
  exact key l _ hl ⟨hinit, hfs, fun t ht => by cases ht⟩

end Verif
