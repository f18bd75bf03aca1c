import Verif.Proofs.LockDisc
import Verif.Spec.Locks
/-!
# The locks of the caches
-/

namespace Verif.Live

section
variable {cfg : Nat → Config} {ser : Json → Str} {sh : Shards}

/-- What a step of a call with the lock does. -/
def Workshop.done (cfg : Nat → Config) (s : Workshop) (i seed : Nat) (w : Worker) (o : Op) (k : o.Ret → Live Answer)
    (guards : o.Ret → List Guard) : Workshop :=
  let r := Op.exec (s.shared.view cfg w.task.rid fun _ => seed) o
  { s with
    shared := s.shared.store cfg w.task.rid r.2
    workers := s.workers.set i ⟨{ w.task with prog := k r.1 }, guards r.1 ++ w.guards, .idle⟩ }

/-- What a look at a file does. -/
def Workshop.asked (s : Workshop) (i : Nat) (w : Worker) (q : Query) (k : q.Ret → Live Answer) : Workshop :=
  let guards := if q = .release then w.guards.drop 1 else w.guards
  let w' : Worker := ⟨{ w.task with prog := k (q.answer s.fs) }, guards, w.stage⟩
  { s with workers := s.workers.set i w' }

/-- The steps that do something. -/
inductive Moves (cfg : Nat → Config) (sh : Shards) (s : Workshop) (i seed : Nat) (yield : Bool) (w : Worker) :
    Workshop → Prop where
  | ask {q : Query} {k : q.Ret → Live Answer} : w.task.prog = .ask q k →
      Moves cfg sh s i seed yield w (s.asked i w q k)
  | seed {o : Op} {k : o.Ret → Live Answer} : w.task.prog = .op o k →
      lockOf sh (cfg w.task.rid).cache w.task.rid o = none →
      Moves cfg sh s i seed yield w (s.done cfg i seed w o k fun _ => [])
  | line {o : Op} {k : o.Ret → Live Answer} {lock : Lock} {mode : Mode} : w.task.prog = .op o k →
      lockOf sh (cfg w.task.rid).cache w.task.rid o = some (lock, mode) → w.stage = .idle →
      Moves cfg sh s i seed yield w { s with workers := s.workers.set i { w with stage := .waiting } }
  | enter {o : Op} {k : o.Ret → Live Answer} {lock : Lock} {mode : Mode} : w.task.prog = .op o k →
      lockOf sh (cfg w.task.rid).cache w.task.rid o = some (lock, mode) → w.stage = .waiting →
      s.free cfg sh yield lock mode = true →
      Moves cfg sh s i seed yield w { s with workers := s.workers.set i { w with stage := .inside } }
  | exec {o : Op} {k : o.Ret → Live Answer} {lock : Lock} {mode : Mode} : w.task.prog = .op o k →
      lockOf sh (cfg w.task.rid).cache w.task.rid o = some (lock, mode) → w.stage = .inside →
      Moves cfg sh s i seed yield w (s.done cfg i seed w o k (guardOf lock o))

theorem step_cases (s : Workshop) (i seed : Nat) (yield : Bool) :
    s.next cfg ser sh (.step i seed yield) = s ∨
      ∃ w, s.workers[i]? = some w ∧ Moves cfg sh s i seed yield w (s.next cfg ser sh (.step i seed yield)) := by
  generalize hs' : s.next cfg ser sh (.step i seed yield) = s'
  unfold Workshop.next at hs'
  dsimp only at hs'
  split at hs'
  · exact .inl hs'.symm
  · rename_i w hw
    split at hs'
    · rename_i q k hp
      subst hs'
      exact .inr ⟨w, hw, .ask hp⟩
    · rename_i o k hp
      split at hs'
      · rename_i hl
        subst hs'
        exact .inr ⟨w, hw, .seed hp hl⟩
      · rename_i lock mode hl
        split at hs'
        · rename_i hst
          subst hs'
          exact .inr ⟨w, hw, .line hp hl hst⟩
        · rename_i hst
          split at hs'
          · rename_i hf
            subst hs'
            exact .inr ⟨w, hw, .enter hp hl hst hf⟩
          · exact .inl hs'.symm
        · rename_i hst
          subst hs'
          exact .inr ⟨w, hw, .exec hp hl hst⟩
    · exact .inl hs'.symm

/-! ## One call -/

/-- What is true of a call at any time. -/
structure Worker.Ok (cfg : Nat → Config) (sh : Shards) (w : Worker) : Prop where
  few : w.guards.length ≤ 1
  disc : w.task.prog.Disc false (!w.guards.isEmpty)
  guard : ∀ g ∈ w.guards, g.lock = ⟨.pkg (cfg w.task.rid).cache,
    sh (.pkg (cfg w.task.rid).cache) (.inl (comps g.dir))⟩
  stage : w.stage ≠ .idle → (w.next cfg sh).isSome = true

theorem set_get {α : Type} {l : List α} {i j : Nat} {a b : α} (h : (l.set i a)[j]? = some b) :
    i = j ∧ b = a ∧ j < l.length ∨ i ≠ j ∧ l[j]? = some b := by
  rw [List.getElem?_set] at h
  split at h
  · rename_i hij
    split at h
    · rename_i hl
      cases h
      exact .inl ⟨hij, rfl, by omega⟩
    · cases h
  · rename_i hij
    exact .inr ⟨hij, h⟩

theorem guardOf_length (lock : Lock) (o : Op) (r : o.Ret) : (guardOf lock o r).length ≤ 1 := by
  unfold guardOf
  split
  · split <;> simp
  · simp

/-- A worker that keeps a guard performs only quick operations. -/
theorem Worker.Ok.quick {w : Worker} (hw : w.Ok cfg sh) {o : Op} {k : o.Ret → Live Answer}
    (hp : w.task.prog = .op o k) (hg : w.guards ≠ []) : quickOp o = true := by
  have h := hw.disc
  rw [hp] at h
  refine h.1 ?_
  cases hgs : w.guards with
  | nil => exact absurd hgs hg
  | cons g l => rfl

theorem ok_moves {s s' : Workshop} {i seed : Nat} {yield : Bool} {w : Worker} (hw : w.Ok cfg sh)
    (h : Moves cfg sh s i seed yield w s') :
    ∃ w', s'.workers = s.workers.set i w' ∧ w'.Ok cfg sh ∧ w'.task.rid = w.task.rid := by
  cases h with
  | @ask q k hp =>
    refine ⟨_, rfl, ?_, rfl⟩
    have hd := hw.disc
    rw [hp] at hd
    have h2 := hd.2 (q.answer s.fs)
    refine ⟨?_, ?_, ?_, ?_⟩
    · have := hw.few
      dsimp only
      split
      · simp; omega
      · exact this
    · dsimp only
      split
      · rename_i hq
        rw [if_pos hq] at h2
        have : w.guards.drop 1 = [] := List.drop_eq_nil_of_le hw.few
        rw [this]
        exact h2
      · rename_i hq
        rw [if_neg hq] at h2
        exact h2
    · intro g hg
      dsimp only at hg
      split at hg
      · exact hw.guard g (List.mem_of_mem_drop hg)
      · exact hw.guard g hg
    · intro hst
      have := hw.stage hst
      rw [Worker.next, hp] at this
      cases this
  | @seed o k hp hl =>
    refine ⟨_, rfl, ?_, rfl⟩
    have hd := hw.disc
    rw [hp] at hd
    have h2 := hd.2 (Op.exec (s.shared.view cfg w.task.rid fun _ => seed) o).1
    have ho : o = .seed := by cases o <;> first | rfl | cases hl
    subst ho
    exact ⟨hw.few, h2, hw.guard, fun h => absurd rfl h⟩
  | @line o k lock mode hp hl hst =>
    refine ⟨_, rfl, ⟨hw.few, hw.disc, hw.guard, fun _ => ?_⟩, rfl⟩
    rw [Worker.next, hp]
    dsimp only
    rw [hl]
    rfl
  | @enter o k lock mode hp hl hst hf =>
    refine ⟨_, rfl, ⟨hw.few, hw.disc, hw.guard, fun _ => ?_⟩, rfl⟩
    rw [Worker.next, hp]
    dsimp only
    rw [hl]
    rfl
  | @exec o k lock mode hp hl hst =>
    refine ⟨_, rfl, ?_, rfl⟩
    have hd := hw.disc
    rw [hp] at hd
    generalize hr : (Op.exec (s.shared.view cfg w.task.rid fun _ => seed) o).1 = r
    have h2 := hd.2 r
    by_cases hk : keepsGuard o = true
    · cases o with
      | getPkg d =>
        have hg : w.guards = [] := by
          cases hgs : w.guards with
          | nil => rfl
          | cons g l =>
            have := hw.quick hp (by rw [hgs]; nofun)
            cases this
        rw [hg, List.append_nil]
        refine ⟨guardOf_length lock (.getPkg d) r, ?_, ?_, fun h => absurd rfl h⟩
        · cases r with
          | none => exact h2
          | some v => exact h2
        · intro g hgm
          cases r with
          | none => cases hgm
          | some v =>
            simp only [guardOf, List.mem_singleton] at hgm
            subst hgm
            cases hl
            rfl
      | _ => cases hk
    · have hn : guardOf lock o r = [] := by
        cases o with
        | getPkg d => exact absurd rfl hk
        | _ => rfl
      have hkept : keptAfter (!w.guards.isEmpty) o r = !w.guards.isEmpty := by
        cases o with
        | getPkg d => exact absurd rfl hk
        | _ => rfl
      rw [hn]
      rw [hkept] at h2
      exact ⟨hw.few, h2, hw.guard, fun h => absurd rfl h⟩

/-! ## Locks exclude each other -/

/-- No call has a lock that another has for writing. -/
def Excl (cfg : Nat → Config) (sh : Shards) (ws : List Worker) : Prop :=
  ∀ (i j : Nat) (wi wj : Worker), ws[i]? = some wi → ws[j]? = some wj → i ≠ j → ∀ lock mode,
    (lock, Mode.write) ∈ wi.holds cfg sh → (lock, mode) ∉ wj.holds cfg sh

theorem excl_set {ws : List Worker} (h : Excl cfg sh ws) {i : Nat} {w w' : Worker} (hi : ws[i]? = some w)
    (hsub : ∀ x ∈ w'.holds cfg sh, x ∈ w.holds cfg sh ∨
      ∀ (j : Nat) (wj : Worker), ws[j]? = some wj → i ≠ j →
        (x.2 = .write → ∀ m, (x.1, m) ∉ wj.holds cfg sh) ∧ (x.1, .write) ∉ wj.holds cfg sh) :
    Excl cfg sh (ws.set i w') := by
  intro a b wa wb ha' hb' hab lock mode h1 h2
  rcases set_get ha' with ⟨rfl, rfl, _⟩ | ⟨hia, ha⟩
  · rcases set_get hb' with ⟨rfl, rfl, _⟩ | ⟨hib, hb⟩
    · exact hab rfl
    · rcases hsub _ h1 with h1 | h1
      · exact h _ _ _ _ hi hb hib _ _ h1 h2
      · exact (h1 _ _ hb hib).1 rfl _ h2
  · rcases set_get hb' with ⟨rfl, rfl, _⟩ | ⟨hib, hb⟩
    · rcases hsub _ h2 with h2 | h2
      · exact h _ _ _ _ ha hi hab _ _ h1 h2
      · exact (h2 _ _ ha hia).2 h1
    · exact h _ _ _ _ ha hb hab _ _ h1 h2

theorem holds_idle {w : Worker} (h : w.stage ≠ .inside) :
    w.holds cfg sh = w.guards.map (fun g => (g.lock, .read)) := by
  unfold Worker.holds
  rw [if_neg h, List.append_nil]

theorem mem_holds {w : Worker} {x : Lock × Mode} : x ∈ w.holds cfg sh ↔
    (∃ g ∈ w.guards, x = (g.lock, .read)) ∨ (w.stage = .inside ∧ w.next cfg sh = some x) := by
  unfold Worker.holds
  rw [List.mem_append, List.mem_map]
  constructor
  · rintro (⟨g, h1, rfl⟩ | h)
    · exact .inl ⟨g, h1, rfl⟩
    · split at h
      · exact .inr ⟨by assumption, by simpa using h⟩
      · cases h
  · rintro (⟨g, h1, rfl⟩ | ⟨h1, h2⟩)
    · exact .inl ⟨g, h1, rfl⟩
    · rw [if_pos h1, h2]
      exact .inr (by simp)

theorem free_write {s : Workshop} {yield : Bool} {lock : Lock} (h : s.free cfg sh yield lock .write = true)
    {w : Worker} (hw : w ∈ s.workers) (m : Mode) : (lock, m) ∉ w.holds cfg sh := by
  intro hm
  simp only [Workshop.free, List.all_eq_true, decide_eq_true_eq] at h
  exact h w hw _ hm rfl

theorem free_read {s : Workshop} {yield : Bool} {lock : Lock} (h : s.free cfg sh yield lock .read = true)
    {w : Worker} (hw : w ∈ s.workers) : (lock, .write) ∉ w.holds cfg sh := by
  intro hm
  simp only [Workshop.free, List.all_eq_true, Bool.and_eq_true, decide_eq_true_eq] at h
  exact (h w hw).1 _ hm rfl

theorem next_op {w : Worker} {o : Op} {k : o.Ret → Live Answer} (hp : w.task.prog = .op o k) :
    w.next cfg sh = lockOf sh (cfg w.task.rid).cache w.task.rid o := by
  rw [Worker.next, hp]

theorem excl_moves {s s' : Workshop} {i seed : Nat} {yield : Bool} {w : Worker} (hs : Excl cfg sh s.workers)
    (hw : w.Ok cfg sh) (hi : s.workers[i]? = some w) (h : Moves cfg sh s i seed yield w s') :
    Excl cfg sh s'.workers := by
  cases h with
  | @ask q k hp =>
    refine excl_set hs hi fun x hx => .inl ?_
    rw [mem_holds] at hx ⊢
    rcases hx with ⟨g, h1, h2⟩ | ⟨h1, h2⟩
    · refine .inl ⟨g, ?_, h2⟩
      dsimp only at h1
      split at h1
      · exact List.mem_of_mem_drop h1
      · exact h1
    · have := hw.stage (by rw [show w.stage = .inside from h1]; nofun)
      rw [Worker.next, hp] at this
      cases this
  | @seed o k hp hl =>
    refine excl_set hs hi fun x hx => .inl ?_
    rw [mem_holds] at hx ⊢
    rcases hx with ⟨g, h1, h2⟩ | ⟨h1, h2⟩
    · exact .inl ⟨g, h1, h2⟩
    · cases h1
  | @line o k lock mode hp hl hst =>
    refine excl_set hs hi fun x hx => .inl ?_
    rw [mem_holds] at hx ⊢
    rcases hx with ⟨g, h1, h2⟩ | ⟨h1, h2⟩
    · exact .inl ⟨g, h1, h2⟩
    · cases h1
  | @enter o k lock mode hp hl hst hf =>
    refine excl_set hs hi fun x hx => ?_
    rw [mem_holds] at hx
    rcases hx with ⟨g, h1, h2⟩ | ⟨h1, h2⟩
    · exact .inl (mem_holds.2 (.inl ⟨g, h1, h2⟩))
    · right
      intro j wj hj hij
      have hm := List.mem_of_getElem? hj
      have hn : some x = some (lock, mode) := by
        rw [← h2, ← hl]
        exact next_op hp
      cases hn
      cases mode with
      | read => exact ⟨nofun, free_read hf hm⟩
      | write => exact ⟨fun _ m => free_write hf hm m, free_write hf hm _⟩
  | @exec o k lock mode hp hl hst =>
    refine excl_set hs hi fun x hx => .inl ?_
    rw [mem_holds] at hx ⊢
    rcases hx with ⟨g, h1, h2⟩ | ⟨h1, h2⟩
    · rcases List.mem_append.1 h1 with h1 | h1
      · right
        refine ⟨hst, ?_⟩
        rw [next_op hp, hl, h2]
        revert h1
        generalize (Op.exec (s.shared.view cfg w.task.rid fun _ => seed) o).1 = r
        intro h1
        cases o with
        | getPkg d =>
          cases r with
          | none => cases h1
          | some v =>
            simp only [guardOf, List.mem_singleton] at h1
            subst h1
            cases hl
            rfl
        | _ => cases h1
      · exact .inl ⟨g, h1, h2⟩
    · cases h1

/-- What is true of the system at any time. -/
structure Workshop.Ok (cfg : Nat → Config) (sh : Shards) (s : Workshop) : Prop where
  each : ∀ w ∈ s.workers, w.Ok cfg sh
  excl : Excl cfg sh s.workers
  kept : ∀ w ∈ s.workers, ∀ g ∈ w.guards,
    (s.shared.caches (cfg w.task.rid).cache).pkg (comps g.dir) = some g.val

/-- Only `insert` changes the entries for directories. -/
theorem exec_pkg (v : World) (o : Op) : (o.exec v).2.pkg = v.pkg ∨
    ∃ d x, o = .putPkg d x ∧ (o.exec v).2.pkg = upd v.pkg (comps d) (some x) := by
  cases o with
  | putPkg d x => exact .inr ⟨d, x, rfl, rfl⟩
  | _ => exact .inl rfl

theorem kept_store {s : Workshop} (hs : s.Ok cfg sh) {i seed : Nat} {w : Worker} {o : Op}
    {k : o.Ret → Live Answer} (hi : s.workers[i]? = some w) (hp : w.task.prog = .op o k)
    (hl : ∀ x, lockOf sh (cfg w.task.rid).cache w.task.rid o = some x → w.stage = .inside)
    {u : Worker} (hu : u ∈ s.workers) {g : Guard} (hg : g ∈ u.guards) :
    ((s.shared.store cfg w.task.rid (Op.exec (s.shared.view cfg w.task.rid fun _ => seed) o).2).caches
      (cfg u.task.rid).cache).pkg (comps g.dir) = some g.val := by
  have hkeep := hs.kept u hu g hg
  show (upd s.shared.caches (cfg w.task.rid).cache _ (cfg u.task.rid).cache).pkg (comps g.dir) = _
  unfold upd
  split
  · rename_i hc
    dsimp only
    rcases exec_pkg (s.shared.view cfg w.task.rid fun _ => seed) o with h | ⟨d, x, rfl, h⟩
    · rw [h]
      show (s.shared.caches (cfg w.task.rid).cache).pkg (comps g.dir) = _
      rw [← hc]
      exact hkeep
    · rw [h]
      show upd (s.shared.caches (cfg w.task.rid).cache).pkg (comps d) (some x) (comps g.dir) = _
      unfold upd
      split
      · rename_i hd
        exfalso
        have hin := hl _ rfl
        obtain ⟨j, hj⟩ := List.mem_iff_getElem?.1 hu
        by_cases hij : i = j
        · subst hij
          cases hi.symm.trans hj
          have := (hs.each w hu).quick hp (List.ne_nil_of_mem hg)
          cases this
        · refine hs.excl i j w u hi hj hij
            ⟨.pkg (cfg w.task.rid).cache, sh (.pkg (cfg w.task.rid).cache) (.inl (comps d))⟩ .read ?_ ?_
          · exact mem_holds.2 (.inr ⟨hin, next_op hp⟩)
          · refine mem_holds.2 (.inl ⟨g, hg, ?_⟩)
            rw [(hs.each u hu).guard g hg, hc, hd]
      · rw [← hc]
        exact hkeep
  · exact hkeep

theorem okSys_moves {s s' : Workshop} (hs : s.Ok cfg sh) {i seed : Nat} {yield : Bool} {w : Worker}
    (hi : s.workers[i]? = some w) (h : Moves cfg sh s i seed yield w s') : s'.Ok cfg sh := by
  have hw := hs.each w (List.mem_of_getElem? hi)
  have hwm := List.mem_of_getElem? hi
  refine ⟨?_, excl_moves hs.excl hw hi h, ?_⟩
  · obtain ⟨w', h1, h2, -⟩ := ok_moves hw h
    rw [h1]
    intro x hx
    rcases List.mem_or_eq_of_mem_set hx with hx | rfl
    · exact hs.each x hx
    · exact h2
  · intro u hu g hg
    cases h with
    | @ask q k hp =>
      rcases List.mem_or_eq_of_mem_set hu with hu | rfl
      · exact hs.kept u hu g hg
      · refine hs.kept w hwm g ?_
        dsimp only at hg
        split at hg
        · exact List.mem_of_mem_drop hg
        · exact hg
    | @seed o k hp hl =>
      rcases List.mem_or_eq_of_mem_set hu with hu | rfl
      · exact kept_store hs hi hp (fun x hx => by rw [hl] at hx; cases hx) hu hg
      · exact kept_store hs hi hp (fun x hx => by rw [hl] at hx; cases hx) hwm hg
    | @line o k lock mode hp hl hst =>
      rcases List.mem_or_eq_of_mem_set hu with hu | rfl
      · exact hs.kept u hu g hg
      · exact hs.kept w hwm g hg
    | @enter o k lock mode hp hl hst hf =>
      rcases List.mem_or_eq_of_mem_set hu with hu | rfl
      · exact hs.kept u hu g hg
      · exact hs.kept w hwm g hg
    | @exec o k lock mode hp hl hst =>
      rcases List.mem_or_eq_of_mem_set hu with hu | rfl
      · exact kept_store hs hi hp (fun _ _ => hst) hu hg
      · rcases List.mem_append.1 hg with hg | hg
        · cases o with
          | getPkg d =>
            have hst' : (s.shared.store cfg w.task.rid
                (Op.exec (s.shared.view cfg w.task.rid fun _ => seed) (.getPkg d)).2).caches
                (cfg w.task.rid).cache = s.shared.caches (cfg w.task.rid).cache := by
              show upd s.shared.caches (cfg w.task.rid).cache _ (cfg w.task.rid).cache = _
              unfold upd
              rw [if_pos rfl]
              rfl
            show ((s.shared.store cfg w.task.rid
                (Op.exec (s.shared.view cfg w.task.rid fun _ => seed) (.getPkg d)).2).caches
                (cfg w.task.rid).cache).pkg (comps g.dir) = _
            rw [hst']
            have hr : (Op.exec (s.shared.view cfg w.task.rid fun _ => seed) (.getPkg d)).1 =
                (s.shared.caches (cfg w.task.rid).cache).pkg (comps d) := rfl
            rw [hr] at hg
            cases hv : (s.shared.caches (cfg w.task.rid).cache).pkg (comps d) with
            | none => rw [hv] at hg; cases hg
            | some v =>
              rw [hv] at hg
              simp only [guardOf, List.mem_singleton] at hg
              subst hg
              exact hv
          | _ => cases hg
        · exact kept_store hs hi hp (fun _ _ => hst) hwm hg

theorem okSys_next {s : Workshop} (hs : s.Ok cfg sh) (e : LockEvent) : (s.next cfg ser sh e).Ok cfg sh := by
  cases e with
  | start rid call fuel =>
    have hnew : Worker.Ok cfg sh
        ⟨⟨rid, s.fs, call, fuel, Live.prog (host (cfg rid) ser fuel) fuel call⟩, [], .idle⟩ :=
      ⟨Nat.zero_le _, clean_prog _ _ _, nofun, fun h => absurd rfl h⟩
    refine ⟨?_, ?_, ?_⟩
    · intro w hw
      simp only [Workshop.next, List.mem_append, List.mem_singleton] at hw
      rcases hw with hw | rfl
      · exact hs.each w hw
      · exact hnew
    · intro i j wi wj hi hj hij lock mode h1 h2
      simp only [Workshop.next, List.getElem?_append] at hi hj
      split at hi
      · split at hj
        · exact hs.excl i j wi wj hi hj hij lock mode h1 h2
        · obtain ⟨_, e⟩ := List.getElem?_eq_some_iff.1 hj
          simp only [List.getElem_singleton] at e
          rw [← e] at h2
          exact absurd h2 (by simp [Worker.holds])
      · obtain ⟨_, e⟩ := List.getElem?_eq_some_iff.1 hi
        simp only [List.getElem_singleton] at e
        rw [← e] at h1
        exact absurd h1 (by simp [Worker.holds])
    · intro w hw g hg
      simp only [Workshop.next, List.mem_append, List.mem_singleton] at hw
      rcases hw with hw | rfl
      · exact hs.kept w hw g hg
      · cases hg
  | change fs => exact ⟨hs.each, hs.excl, hs.kept⟩
  | step i seed yield =>
    rcases step_cases (cfg := cfg) (ser := ser) (sh := sh) s i seed yield with h | ⟨w, hw, h⟩
    · rw [h]; exact hs
    · exact okSys_moves hs hw h

theorem okSys_after {s : Workshop} (hs : s.Ok cfg sh) (l : List LockEvent) :
    (s.after cfg ser sh l).Ok cfg sh := by
  induction l generalizing s with
  | nil => exact hs
  | cons e l ih => exact ih (okSys_next hs e)

theorem okSys_init (fs : Fs) : (Workshop.init fs).Ok cfg sh := ⟨nofun, nofun, nofun⟩

/-! ## Somebody can always go on -/

theorem ask_ne {α : Type} {q : Query} {k : q.Ret → Live α} (r : q.Ret) : k r ≠ .ask q k := by
  suffices H : ∀ p : Live α, ∀ (q : Query) (k : q.Ret → Live α) (r : q.Ret), p = .ask q k → k r ≠ p by
    intro h
    exact H _ q k r rfl h
  intro p
  induction p with
  | ret a => exact fun _ _ _ h => by cases h
  | crash c => exact fun _ _ _ h => by cases h
  | op o k ih => exact fun _ _ _ h => by cases h
  | ask q k ih =>
    intro q' k' r h1 h2
    cases h1
    exact ih r q k r h2 rfl

theorem op_ne {α : Type} {o : Op} {k : o.Ret → Live α} (r : o.Ret) : k r ≠ .op o k := by
  suffices H : ∀ p : Live α, ∀ (o : Op) (k : o.Ret → Live α) (r : o.Ret), p = .op o k → k r ≠ p by
    intro h
    exact H _ o k r rfl h
  intro p
  induction p with
  | ret a => exact fun _ _ _ h => by cases h
  | crash c => exact fun _ _ _ h => by cases h
  | ask q k ih => exact fun _ _ _ h => by cases h
  | op o k ih =>
    intro o' k' r h1 h2
    cases h1
    exact ih r o k r h2 rfl

/-- A step of this call does something, whatever the files, the seed and the lock. -/
def Ready (cfg : Nat → Config) (ser : Json → Str) (sh : Shards) (ws : List Worker) (i : Nat) : Prop :=
  ∀ s : Workshop, s.workers = ws → ∀ seed yield,
    (s.next cfg ser sh (.step i seed yield)).workers ≠ ws

theorem set_ne {α : Type} {l : List α} {i : Nat} {a b : α} (hi : l[i]? = some a) (hab : b ≠ a) : l.set i b ≠ l := by
  intro h
  have : (l.set i b)[i]? = some b := by
    rw [List.getElem?_set]
    simp [(List.getElem?_eq_some_iff.1 hi).1]
  rw [h, hi] at this
  cases this
  exact hab rfl

theorem ready_ask {ws : List Worker} {i : Nat} {w : Worker} (hi : ws[i]? = some w) {q : Query}
    {k : q.Ret → Live Answer} (hp : w.task.prog = .ask q k) : Ready cfg ser sh ws i := by
  rintro s rfl seed yield
  unfold Workshop.next
  simp only [hi]
  rw [hp]
  refine set_ne hi fun h => ask_ne (q.answer s.fs) (k := k) ?_
  have := congrArg (fun w : Worker => w.task.prog) h
  dsimp only at this
  rw [hp] at this
  exact this

theorem ready_op {ws : List Worker} {i : Nat} {w : Worker} (hi : ws[i]? = some w) {o : Op}
    {k : o.Ret → Live Answer} (hp : w.task.prog = .op o k)
    (hl : lockOf sh (cfg w.task.rid).cache w.task.rid o = none ∨ w.stage ≠ .waiting) :
    Ready cfg ser sh ws i := by
  rintro s rfl seed yield
  have hdone : ∀ gs, (s.done cfg i seed w o k gs).workers ≠ s.workers := fun gs => by
    refine set_ne hi fun h => ?_
    have := congrArg (fun w : Worker => w.task.prog) h
    dsimp only at this
    rw [hp] at this
    exact op_ne _ this
  unfold Workshop.next
  simp only [hi]
  rw [hp]
  dsimp only
  split
  · exact hdone fun _ => []
  · rename_i lock mode hl'
    split
    · rename_i hst
      refine set_ne hi fun h => ?_
      have := congrArg Worker.stage h
      rw [hst] at this
      cases this
    · rename_i hst
      rcases hl with hl | hl
      · rw [hl] at hl'; cases hl'
      · exact absurd hst hl
    · exact hdone (guardOf lock o)

theorem ready_enter {ws : List Worker} {i : Nat} {w : Worker} (hi : ws[i]? = some w) {o : Op}
    {k : o.Ret → Live Answer} (hp : w.task.prog = .op o k) {lock : Lock} {mode : Mode}
    (hl : lockOf sh (cfg w.task.rid).cache w.task.rid o = some (lock, mode)) (hst : w.stage = .waiting)
    (hf : ∀ s : Workshop, s.workers = ws → ∀ yield, s.free cfg sh yield lock mode = true) :
    Ready cfg ser sh ws i := by
  rintro s rfl seed yield
  unfold Workshop.next
  simp only [hi]
  rw [hp]
  dsimp only
  rw [hl]
  dsimp only
  rw [hst]
  dsimp only
  rw [if_pos (hf s rfl yield)]
  refine set_ne hi fun h => ?_
  have := congrArg Worker.stage h
  rw [hst] at this
  cases this

/-- If a lock that nobody has is wanted, somebody gets it. -/
theorem ready_wanted {ws : List Worker} {i : Nat} {w : Worker} (hi : ws[i]? = some w) {lock : Lock} {mode : Mode}
    (hw : w.wants cfg sh = some (lock, mode)) (hfree : ∀ u ∈ ws, ∀ m, (lock, m) ∉ u.holds cfg sh) :
    ∃ j, Ready cfg ser sh ws j := by
  have wants : ∀ {u : Worker} {x : Lock × Mode}, u.wants cfg sh = some x → ∃ o k, u.task.prog = .op o k ∧
      lockOf sh (cfg u.task.rid).cache u.task.rid o = some x ∧ u.stage = .waiting := by
    intro u x h
    unfold Worker.wants at h
    split at h
    · rename_i hst
      unfold Worker.next at h
      split at h
      · rename_i o k hp
        exact ⟨o, k, hp, h, hst⟩
      · cases h
    · cases h
  by_cases hwr : ∃ (j : Nat) (u : Worker), ws[j]? = some u ∧ u.wants cfg sh = some (lock, Mode.write)
  · obtain ⟨j, u, hj, hu⟩ := hwr
    obtain ⟨o, k, hp, hl, hst⟩ := wants hu
    refine ⟨j, ready_enter hj hp hl hst ?_⟩
    rintro s rfl yield
    simp only [Workshop.free, List.all_eq_true, decide_eq_true_eq]
    rintro x hx ⟨l, m⟩ hm rfl
    exact hfree x hx m hm
  · obtain ⟨o, k, hp, hl, hst⟩ := wants hw
    refine ⟨i, ready_enter hi hp hl hst ?_⟩
    rintro s rfl yield
    cases mode with
    | write => exact absurd ⟨i, w, hi, hw⟩ hwr
    | read =>
      simp only [Workshop.free, List.all_eq_true, Bool.and_eq_true, decide_eq_true_eq]
      intro x hx
      refine ⟨fun y hy e => ?_, ?_⟩
      · subst e
        exact hfree x hx _ hy
      · obtain ⟨j, hj⟩ := List.mem_iff_getElem?.1 hx
        have : ¬ x.wants cfg sh = some (lock, .write) := fun h => hwr ⟨j, x, hj, h⟩
        simp [this]

/-- Unless all calls are over, one of them can go on. -/
theorem ready_of_ok {ws : List Worker} (hok : ∀ w ∈ ws, w.Ok cfg sh) (h : ∃ w ∈ ws, w.over = false) :
    ∃ i, Ready cfg ser sh ws i := by
  by_cases hr : ∃ i, Ready cfg ser sh ws i
  · exact hr
  -- everybody who is not over waits for a lock
  have hwait : ∀ (i : Nat) (w : Worker), ws[i]? = some w → w.over = false → ∃ o k x, w.task.prog = .op o k ∧
      lockOf sh (cfg w.task.rid).cache w.task.rid o = some x ∧ w.stage = .waiting := by
    intro i w hi ho
    cases hp : w.task.prog with
    | ret a => rw [Worker.over, hp] at ho; cases ho
    | crash c => rw [Worker.over, hp] at ho; cases ho
    | ask q k => exact absurd ⟨i, ready_ask hi hp⟩ hr
    | op o k =>
      cases hl : lockOf sh (cfg w.task.rid).cache w.task.rid o with
      | none => exact absurd ⟨i, ready_op hi hp (.inl hl)⟩ hr
      | some x =>
        by_cases hst : w.stage = .waiting
        · exact ⟨o, k, x, rfl, hl, hst⟩
        · exact absurd ⟨i, ready_op hi hp (.inr hst)⟩ hr
  -- so only guards are held, and by calls that wait
  have hheld : ∀ w ∈ ws, ∀ x ∈ w.holds cfg sh, w.over = false ∧ ∃ g ∈ w.guards, x = (g.lock, .read) := by
    intro w hw x hx
    obtain ⟨i, hi⟩ := List.mem_iff_getElem?.1 hw
    rcases mem_holds.1 hx with ⟨g, h1, h2⟩ | ⟨h1, h2⟩
    · refine ⟨?_, g, h1, h2⟩
      have hd := (hok w hw).disc
      cases hp : w.task.prog with
      | ret a =>
        rw [hp] at hd
        simp only [Disc, Bool.not_eq_false', List.isEmpty_iff] at hd
        rw [hd] at h1
        cases h1
      | crash c =>
        rw [hp] at hd
        simp only [Disc, Bool.not_eq_false', List.isEmpty_iff] at hd
        rw [hd] at h1
        cases h1
      | ask q k => rw [Worker.over, hp]; rfl
      | op o k => rw [Worker.over, hp]; rfl
    · exfalso
      have hov : w.over = false := by
        unfold Worker.next at h2
        split at h2
        · rename_i o k hp
          rw [Worker.over, hp]; rfl
        · cases h2
      obtain ⟨o, k, y, -, -, hst⟩ := hwait i w hi hov
      rw [h1] at hst
      cases hst
  by_cases hg : ∃ w ∈ ws, w.guards ≠ []
  · obtain ⟨w, hw, hne⟩ := hg
    obtain ⟨i, hi⟩ := List.mem_iff_getElem?.1 hw
    obtain ⟨g, hgm⟩ := List.exists_mem_of_ne_nil _ hne
    have hov := (hheld w hw (g.lock, .read) (mem_holds.2 (.inl ⟨g, hgm, rfl⟩))).1
    obtain ⟨o, k, ⟨lock, mode⟩, hp, hl, hst⟩ := hwait i w hi hov
    have hwant : w.wants cfg sh = some (lock, mode) := by
      unfold Worker.wants
      rw [if_pos hst, next_op hp, hl]
    refine ready_wanted hi hwant fun u hu m hm => ?_
    obtain ⟨-, g', hg', e⟩ := hheld u hu _ hm
    have hlock := (hok u hu).guard g' hg'
    have hq := (hok w hw).quick hp hne
    cases e
    rw [hlock] at hl
    cases o <;> cases hq <;> cases hl
  · obtain ⟨w, hw, hov⟩ := h
    obtain ⟨i, hi⟩ := List.mem_iff_getElem?.1 hw
    obtain ⟨o, k, ⟨lock, mode⟩, hp, hl, hst⟩ := hwait i w hi hov
    have hwant : w.wants cfg sh = some (lock, mode) := by
      unfold Worker.wants
      rw [if_pos hst, next_op hp, hl]
    refine ready_wanted hi hwant fun u hu m hm => ?_
    obtain ⟨-, g', hg', -⟩ := hheld u hu _ hm
    exact hg ⟨u, hu, List.ne_nil_of_mem hg'⟩

/-! ## All calls end -/

/-- One step further. -/
inductive Child {α : Type} : Live α → Live α → Prop where
  | ask {q : Query} {k : q.Ret → Live α} (r : q.Ret) : Child (k r) (.ask q k)
  | op {o : Op} {k : o.Ret → Live α} (r : o.Ret) : Child (k r) (.op o k)

theorem child_wf {α : Type} : WellFounded (Child (α := α)) := by
  refine ⟨fun p => ?_⟩
  induction p with
  | ret a => exact ⟨_, fun q h => by cases h⟩
  | crash c => exact ⟨_, fun q h => by cases h⟩
  | ask q k ih => exact ⟨_, fun q h => by cases h; exact ih _⟩
  | op o k ih => exact ⟨_, fun q h => by cases h; exact ih _⟩

/-- How far a call still is from the lock. -/
def Stage.left : Stage → Nat
  | .idle => 2
  | .waiting => 1
  | .inside => 0

/-- What is left of a call. -/
def Worker.rest (w : Worker) : Live Answer × Nat := (w.task.prog, w.stage.left)

/-- Less is left. -/
def Further : Worker → Worker → Prop := InvImage (Prod.Lex Child (· < ·)) Worker.rest

theorem further_wf : WellFounded Further :=
  InvImage.wf _ (Prod.lex ⟨Child, child_wf⟩ ⟨_, Nat.lt_wfRel.wf⟩).wf

theorem further_child {w w' : Worker} (h : Child w'.task.prog w.task.prog) : Further w' w :=
  Prod.Lex.left _ _ h

theorem further_stage {w : Worker} {st : Stage} (h : st.left < w.stage.left) : Further { w with stage := st } w :=
  Prod.Lex.right _ h

theorem moves_further {s s' : Workshop} {i seed : Nat} {yield : Bool} {w : Worker}
    (h : Moves cfg sh s i seed yield w s') : ∃ w', s'.workers = s.workers.set i w' ∧ Further w' w := by
  cases h with
  | @ask q k hp => exact ⟨_, rfl, further_child (by rw [hp]; exact .ask _)⟩
  | @seed o k hp hl => exact ⟨_, rfl, further_child (by rw [hp]; exact .op _)⟩
  | @line o k lock mode hp hl hst => exact ⟨_, rfl, further_stage (by rw [hst]; decide)⟩
  | @enter o k lock mode hp hl hst hf => exact ⟨_, rfl, further_stage (by rw [hst]; decide)⟩
  | @exec o k lock mode hp hl hst => exact ⟨_, rfl, further_child (by rw [hp]; exact .op _)⟩

/-- Without new calls, an event leaves each call as it is or brings it further. -/
theorem next_worker {s : Workshop} {e : LockEvent} (he : ∀ rid call fuel, e ≠ .start rid call fuel) (i : Nat) :
    (s.next cfg ser sh e).workers.length = s.workers.length ∧
    ((s.next cfg ser sh e).workers[i]? = s.workers[i]? ∨
      ∃ w w', s.workers[i]? = some w ∧ (s.next cfg ser sh e).workers[i]? = some w' ∧ Further w' w) := by
  cases e with
  | start rid call fuel => exact absurd rfl (he rid call fuel)
  | change fs => exact ⟨rfl, .inl rfl⟩
  | step j seed yield =>
    rcases step_cases (cfg := cfg) (ser := ser) (sh := sh) s j seed yield with h | ⟨w, hw, h⟩
    · rw [h]; exact ⟨rfl, .inl rfl⟩
    · obtain ⟨w', h1, h2⟩ := moves_further h
      rw [h1]
      refine ⟨List.length_set, ?_⟩
      by_cases hij : j = i
      · subst hij
        refine .inr ⟨w, w', hw, ?_, h2⟩
        rw [List.getElem?_set]
        simp [(List.getElem?_eq_some_iff.1 hw).1]
      · left
        rw [List.getElem?_set, if_neg hij]

/-- A sequence that only ever gets smaller stops changing. -/
theorem settles_of_wf {α : Type} {r : α → α → Prop} (hr : WellFounded r) (f : Nat → Option α)
    (h : ∀ n, f (n + 1) = f n ∨ ∃ a b, f n = some a ∧ f (n + 1) = some b ∧ r b a) :
    ∃ N, ∀ n ≥ N, f n = f N := by
  by_cases hs : ∃ N, f N = none
  · obtain ⟨N, hN⟩ := hs
    refine ⟨N, fun n hn => ?_⟩
    induction hn with
    | refl => rfl
    | @step n hn ih =>
      rcases h n with h | ⟨a, b, h1, -⟩
      · rw [h, ih]
      · rw [ih, hN] at h1; cases h1
  · have hsome : ∀ n, ∃ a, f n = some a := fun n => by
      cases hf : f n with
      | none => exact absurd ⟨n, hf⟩ hs
      | some a => exact ⟨a, rfl⟩
    suffices H : ∀ a, ∀ m, f m = some a → ∃ N, ∀ n ≥ N, f n = f N by
      obtain ⟨a, ha⟩ := hsome 0
      exact H a 0 ha
    intro a
    induction a using hr.induction with
    | _ a ih =>
      intro m hm
      by_cases hc : ∃ n ≥ m, f n = some a ∧ f (n + 1) ≠ some a
      · obtain ⟨n, -, h1, h2⟩ := hc
        rcases h n with h | ⟨x, y, hx, hy, hlt⟩
        · exact absurd (h.trans h1) h2
        · rw [h1] at hx
          cases hx
          exact ih y hlt (n + 1) hy
      · refine ⟨m, fun n hn => ?_⟩
        rw [hm]
        induction hn with
        | refl => exact hm
        | @step n hn ih2 => exact Classical.byContradiction fun hne => hc ⟨n, hn, ih2, hne⟩

theorem all_settle {α : Type} (f : Nat → Nat → Option α) (n : Nat)
    (h : ∀ i < n, ∃ N, ∀ m ≥ N, f i m = f i N) : ∃ N, ∀ i < n, ∀ m ≥ N, f i m = f i N := by
  induction n with
  | zero => exact ⟨0, nofun⟩
  | succ n ih =>
    obtain ⟨N1, h1⟩ := ih fun i hi => h i (by omega)
    obtain ⟨N2, h2⟩ := h n (by omega)
    refine ⟨N1 + N2, fun i hi m hm => ?_⟩
    by_cases hin : i < n
    · rw [h1 i hin m (by omega), h1 i hin (N1 + N2) (by omega)]
    · have : i = n := by omega
      subst this
      rw [h2 m (by omega), h2 (N1 + N2) (by omega)]

/-- The system in the course of a sequence of events. -/
def Workshop.course (cfg : Nat → Config) (ser : Json → Str) (sh : Shards) (s : Workshop)
    (σ : Nat → LockEvent) (n : Nat) : Workshop := s.after cfg ser sh (firstEvents σ n)

theorem course_succ (s : Workshop) (σ : Nat → LockEvent) (n : Nat) :
    s.course cfg ser sh σ (n + 1) = (s.course cfg ser sh σ n).next cfg ser sh (σ n) := by
  simp [Workshop.course, Workshop.after, firstEvents, List.range_succ, List.foldl_append]

/-- If every call gets a turn again and again, all calls end. -/
theorem all_end {s : Workshop} (hs : s.Ok cfg sh) {σ : Nat → LockEvent} (hσ : FairFor s.workers.length σ) :
    ∃ n, ∀ w ∈ (s.course cfg ser sh σ n).workers, w.over = true := by
  have hok : ∀ n, (s.course cfg ser sh σ n).Ok cfg sh := fun n => okSys_after hs _
  have hlen : ∀ n, (s.course cfg ser sh σ n).workers.length = s.workers.length := by
    intro n
    induction n with
    | zero => rfl
    | succ n ih =>
      rw [course_succ, ← ih]
      exact (next_worker (hσ.closed n) 0).1
  obtain ⟨N, hN⟩ := all_settle (fun i n => (s.course cfg ser sh σ n).workers[i]?) s.workers.length
    fun i _ => settles_of_wf further_wf _ fun n => by
      rw [course_succ]
      exact (next_worker (hσ.closed n) i).2
  have hsame : ∀ m ≥ N, (s.course cfg ser sh σ m).workers = (s.course cfg ser sh σ N).workers := by
    intro m hm
    refine List.ext_getElem? fun i => ?_
    by_cases hi : i < s.workers.length
    · exact hN i hi m hm
    · rw [List.getElem?_eq_none (by rw [hlen]; omega), List.getElem?_eq_none (by rw [hlen]; omega)]
  refine ⟨N, fun w hw => ?_⟩
  refine Decidable.byContradiction fun ho => ?_
  obtain ⟨i, hi⟩ := ready_of_ok (ser := ser) (hok N).each ⟨w, hw, by simpa using ho⟩
  by_cases hil : i < s.workers.length
  · obtain ⟨m, hm, seed, yield, hσm⟩ := hσ.turns i hil N
    refine hi (s.course cfg ser sh σ m) (hsame m hm) seed yield ?_
    rw [← hσm, ← course_succ]
    exact hsame (m + 1) (by omega)
  · refine hi (s.course cfg ser sh σ N) rfl 0 false ?_
    unfold Workshop.next
    simp only [List.getElem?_eq_none (show (s.course cfg ser sh σ N).workers.length ≤ i by rw [hlen]; omega)]

/-! ## Locks forgotten -/

theorem map_set_task (ws : List Worker) (i : Nat) (w : Worker) :
    (ws.set i w).map (fun w => w.task) = (ws.map fun w => w.task).set i w.task := List.map_set

/-- With locks, nothing happens that could not happen without them. -/
theorem sys_next (s : Workshop) (e : LockEvent) :
    Event.outer e.forget = false ∧ (s.next cfg ser sh e).sys = s.sys ∨
    (s.next cfg ser sh e).sys = s.sys.next cfg ser e.forget := by
  cases e with
  | start rid call fuel =>
    right
    simp [Workshop.next, Workshop.sys, Sys.next, LockEvent.forget]
  | change fs => exact .inr rfl
  | step i seed yield =>
    rcases step_cases (cfg := cfg) (ser := ser) (sh := sh) s i seed yield with h | ⟨w, hw, h⟩
    · rw [h]; exact .inl ⟨rfl, rfl⟩
    · have ht : s.sys.tasks[i]? = some w.task := by simp [Workshop.sys, hw]
      have hstay : ∀ st, Workshop.sys { s with workers := s.workers.set i { w with stage := st } } = s.sys := by
        intro st
        unfold Workshop.sys
        dsimp only
        rw [map_set_task]
        congr 1
        refine List.ext_getElem? fun j => ?_
        rw [List.getElem?_set]
        split
        · rename_i hij
          subst hij
          have : i < (s.workers.map fun w => w.task).length := (List.getElem?_eq_some_iff.1 ht).1
          rw [if_pos this]
          exact ht.symm
        · rfl
      generalize hs' : s.next cfg ser sh (.step i seed yield) = s' at h
      cases h with
      | @ask q k hp =>
        right
        unfold Sys.next LockEvent.forget
        dsimp only
        rw [ht]
        dsimp only
        rw [hp]
        dsimp only
        unfold Workshop.sys Workshop.asked
        dsimp only
        rw [map_set_task]
      | @seed o k hp hl =>
        right
        unfold Sys.next LockEvent.forget
        dsimp only
        rw [ht]
        dsimp only
        rw [hp]
        dsimp only
        unfold Workshop.sys Workshop.done
        dsimp only
        rw [map_set_task]
      | @line o k lock mode hp hl hst => exact .inl ⟨rfl, hstay _⟩
      | @enter o k lock mode hp hl hst hf => exact .inl ⟨rfl, hstay _⟩
      | @exec o k lock mode hp hl hst =>
        right
        unfold Sys.next LockEvent.forget
        dsimp only
        rw [ht]
        dsimp only
        rw [hp]
        dsimp only
        unfold Workshop.sys Workshop.done
        dsimp only
        rw [map_set_task]

theorem sys_after (s : Workshop) (l : List LockEvent) :
    ∃ l', (s.after cfg ser sh l).sys = s.sys.after cfg ser l' ∧ l'.Sublist (l.map LockEvent.forget) ∧
      l'.filter Event.outer = (l.map LockEvent.forget).filter Event.outer := by
  induction l generalizing s with
  | nil => exact ⟨[], rfl, .slnil, rfl⟩
  | cons e l ih =>
    obtain ⟨l', h1, h2, h3⟩ := ih (s.next cfg ser sh e)
    rcases sys_next (cfg := cfg) (ser := ser) (sh := sh) s e with ⟨he, h⟩ | h
    · refine ⟨l', by rw [← h]; exact h1, .cons _ h2, ?_⟩
      rw [h3, List.map_cons, List.filter_cons_of_neg (by rw [he]; nofun)]
    · refine ⟨e.forget :: l', ?_, h2.cons₂ _, ?_⟩
      · show _ = (s.sys.next cfg ser e.forget).after cfg ser l'
        rw [← h]
        exact h1
      · rw [List.map_cons, List.filter_cons, List.filter_cons, h3]

end
end Verif.Live
