import Verif.Proofs.Looks
import Verif.Props.Live
import Verif.Props.Findings
import Verif.Props.NewFiles
/-!
# What calls have looked at: C90
-/

namespace Verif.Live

variable {cfg : Nat → Config} {ser : Json → Str} {fs fs' : Fs}

/-- A call that is over, as `Verif.Model.Machine` knows it. -/
theorem calm_freeze {l : List Event} (hl : ∀ e ∈ l, e.calm) {i : Nat} {t : Task}
    (ht : ((Sys.init fs).after cfg ser l).tasks[i]? = some t) {x : Outcome Answer} (hx : outcome t.prog = some x) :
    ∃ l' : List Event, (∀ e ∈ l', e.calm) ∧ ∃ t' ∈ ((Verif.Sys.init fs).after cfg ser l').tasks,
      t'.prog.outcome = some x ∧ t'.rid = t.rid ∧ t'.call = t.call ∧ t'.fuel = t.fuel := by
  have hq : ∀ (s : Sys) (l : List Event), (∀ e ∈ l, e.calm) → Quiet cfg ser s l := by
    intro s l hl
    induction l generalizing s with
    | nil => trivial
    | cons e l ih =>
      refine ⟨?_, ih _ fun e he => hl e (List.mem_cons_of_mem _ he)⟩
      rintro fs rfl
      exact (hl _ List.mem_cons_self).elim
  obtain ⟨l', h1, -, -, h4⟩ := C53_unnoticed l (C53_quiet l (hq _ l hl))
  obtain ⟨t', h5, h6, h7, -, h9, h10⟩ := h4 i t x ht hx
  exact ⟨l', fun e he => hl e (h1.mem he), t', List.mem_of_getElem? h5, h6, h7, h9, h10⟩

theorem calm_still {l : List Event} (hl : ∀ e ∈ l, e.calm) : ∀ e ∈ l, ∀ f, e ≠ .change f := by
  rintro e he f rfl
  exact hl _ he

/-- C90: after any history, with changes of files at any moment, suppose that the files `fs'` give the same answers to
all looks that calls have had at files. Then every call has ended as in a fresh resolver on `fs'`. -/
theorem C90_unseen (hs' : Static cfg ser fs') {l : List Event}
    (hl : ∀ rid call fuel, .start rid call fuel ∈ l → call.abs)
    (hlook : ∀ i q r, Looked cfg ser fs l i q r → q.answer fs' = r) {i : Nat} {t : Task}
    (ht : ((Sys.init fs).after cfg ser l).tasks[i]? = some t) (hc : t.call.abs)
    {x : Outcome Answer} (hx : outcome t.prog = some x) :
    (∃ seeds, x.Like Answer.Sim ((t.call.prog ((cfg t.rid).env ser fs') t.fuel).run (World.init seeds)).1) ∧
    (TsClear (cfg t.rid).opts fs' t.call → ∀ seeds,
      x.Like Answer.Sim ((t.call.prog ((cfg t.rid).env ser fs') t.fuel).run (World.init seeds)).1) := by
  obtain ⟨-, -, h⟩ := replay (cfg := cfg) (ser := ser) l hlook
  refine C53_still hs' (unchanging l) (fun e he => ?_) i (Task.from fs' t) (by rw [h, List.getElem?_map, ht]; rfl) hc x hx
  obtain ⟨h1, h2⟩ := List.mem_filter.1 he
  cases e with
  | change f => cases h2
  | start rid call fuel => exact hl rid call fuel h1
  | step i seed => trivial

/-- C90, for a process that goes on: after any history the files change to `fs'`, at any moment, also in the middle of
calls. If `fs'` gives the same answers to all looks that calls have had so far, then every call ends as in a fresh
resolver on `fs'`: those that were in progress, and those that come after. -/
theorem C90_goes_on (hs' : Static cfg ser fs') {l l2 : List Event}
    (hl : ∀ rid call fuel, .start rid call fuel ∈ l → call.abs) (hl2 : ∀ e ∈ l2, e.calm)
    (hlook : ∀ i q r, Looked cfg ser fs l i q r → q.answer fs' = r) {i : Nat} {t : Task}
    (ht : ((Sys.init fs).after cfg ser (l ++ .change fs' :: l2)).tasks[i]? = some t) (hc : t.call.abs)
    {x : Outcome Answer} (hx : outcome t.prog = some x) :
    (∃ seeds, x.Like Answer.Sim ((t.call.prog ((cfg t.rid).env ser fs') t.fuel).run (World.init seeds)).1) ∧
    (TsClear (cfg t.rid).opts fs' t.call → ∀ seeds,
      x.Like Answer.Sim ((t.call.prog ((cfg t.rid).env ser fs') t.fuel).run (World.init seeds)).1) := by
  refine C90_unseen hs' (fun rid call fuel h => ?_) (fun i q r h => ?_) ht hc hx
  · rcases List.mem_append.1 h with h | h
    · exact hl _ _ _ h
    · rcases List.mem_cons.1 h with h | h
      · cases h
      · exact hl2 _ h
  · obtain ⟨l1, seed, l3, t, k, he, h1, h2, h3⟩ := h
    rcases List.append_eq_append_iff.1 he with ⟨a, ha, hb⟩ | ⟨a, ha, hb⟩
    · cases a with
      | nil => cases hb
      | cons e a =>
        rw [List.cons_append] at hb
        obtain ⟨rfl, rfl⟩ := List.cons_eq_cons.1 hb
        rw [← h3, ha]
        have hst : ((Sys.init fs).after cfg ser (l ++ .change fs' :: a)).fs = fs' := by
          unfold Sys.after
          rw [List.foldl_append]
          exact after_still (cfg := cfg) (ser := ser)
            (fun e he => calm_still hl2 e (List.mem_append_left _ he)) (Sys.next cfg ser _ (.change fs'))
        rw [hst]
    · refine hlook i q r ?_
      cases a with
      | nil => cases hb
      | cons e a =>
        obtain ⟨rfl, rfl⟩ := List.cons_eq_cons.1 hb
        exact ⟨l1, seed, a, t, k, ha, h1, h2, h3⟩

/-- C90, for a process that starts afresh: the looks of all calls of a history on `fs` are recorded. If `fs'` gives
the same answers to them, then each of the calls ends in the same way in any history on `fs'`. The times of files may
be others. -/
theorem C90_recorded (hf : fs.Lawful) (hs' : Static cfg ser fs') {l l' : List Event} (hl : ∀ e ∈ l, e.calm)
    (hl' : ∀ e ∈ l', e.calm) (hlook : ∀ i q r, Looked cfg ser fs l i q r → ReplyLike q (q.answer fs') r)
    {i j : Nat} {t t' : Task} (ht : ((Sys.init fs).after cfg ser l).tasks[i]? = some t)
    (ht' : ((Sys.init fs').after cfg ser l').tasks[j]? = some t') (ho : (cfg t'.rid).opts = (cfg t.rid).opts)
    (hcall : t'.call = t.call) (hfuel : t'.fuel = t.fuel) (hts : TsClear (cfg t.rid).opts fs' t.call)
    {x x' : Outcome Answer} (hx : outcome t.prog = some x) (hx' : outcome t'.prog = some x') :
    x.Like Answer.Sim x' := by
  let m : Str → Option Nat := fun p => if (fs.mtime p).isSome = (fs'.mtime p).isSome then fs.mtime p else fs'.mtime p
  have hm : ∀ p, (m p).isSome = (fs'.mtime p).isSome := by
    intro p
    show (if _ then _ else _ : Option Nat).isSome = _
    split
    · assumption
    · rfl
  have hs : Static cfg ser (fs'.withTimes m) := static_times fs' m hs' fun p q hp hpq => by
    show (if _ then _ else _ : Option Nat) = if _ then _ else _
    rw [hf.mtime p q hp hpq, hs'.lawful.mtime p q hp hpq]
  have hlook' : ∀ i q r, Looked cfg ser fs l i q r → q.answer (fs'.withTimes m) = r := by
    intro i q r h
    have h1 := hlook i q r h
    obtain ⟨l1, seed, l2, t, k, hl12, h2, h3, h4⟩ := h
    cases q with
    | mtime p =>
      have hfs : ((Sys.init fs).after cfg ser l1).fs = fs := after_still
        (fun e he => calm_still hl e (by rw [hl12]; exact List.mem_append_left _ he)) _
      rw [hfs] at h4
      subst h4
      show (if _ then _ else _ : Option Nat) = _
      exact if_pos (Eq.symm h1)
    | isFile p => exact h1
    | isDir p => exact h1
    | pathExists p => exact h1
    | read p => exact h1
    | canon p => exact h1
    | release => rfl
  obtain ⟨-, -, h⟩ := replay (cfg := cfg) (ser := ser) l hlook'
  have hun : unchanging l = l := List.filter_eq_self.2 fun e he => by
    cases e with
    | change f => exact (hl _ he).elim
    | start rid call fuel => rfl
    | step i seed => rfl
  rw [hun] at h
  obtain ⟨l1, hl1, u, hu, hux, hur, huc, huf⟩ := calm_freeze (cfg := cfg) (ser := ser) hl
    (fs := fs'.withTimes m) (i := i) (t := Task.from (fs'.withTimes m) t) (by rw [h, List.getElem?_map, ht]; rfl) hx
  obtain ⟨l1', hl1', u', hu', hux', hur', huc', huf'⟩ := calm_freeze (cfg := cfg) (ser := ser) hl' ht' hx'
  obtain ⟨y, h1, h2⟩ := static_ends hs hl1 hu hux
  obtain ⟨y', h1', h2'⟩ := static_ends hs' hl1' hu' hux'
  obtain ⟨z, hz⟩ := call_sure hs' t.rid hts t.fuel
  have e : u.call.pure (cfg u.rid) (fs'.withTimes m) u.fuel = t.call.pure (cfg t.rid) fs' t.fuel := by
    rw [hur, huc, huf, pure_times _ _ hm]
    rfl
  have e' : u'.call.pure (cfg u'.rid) fs' u'.fuel = t.call.pure (cfg t.rid) fs' t.fuel := by
    rw [hur', huc', huf', hcall, hfuel]
    unfold Call.pure
    rw [ho, hs'.debug, hs'.debug]
  rw [e] at h1
  rw [e'] at h1'
  rw [hz _ h1] at h2
  rw [hz _ h1'] at h2'
  exact Answer.like_join h2 h2'

/-! ## The hypotheses are met -/

/-- The looks of calls. -/
def asked (cfg : Nat → Config) (ser : Json → Str) : Sys → List Event → List (Nat × Query)
  | _, [] => []
  | s, e :: l =>
    (match e with
    | .step i _ =>
      match s.tasks[i]? with
      | some t => match t.prog with
        | .ask q _ => [(i, q)]
        | _ => []
      | none => []
    | _ => []) ++ asked cfg ser (s.next cfg ser e) l

theorem Looked.asked {l : List Event} {i : Nat} {q : Query} {r : q.Ret} (h : Looked cfg ser fs l i q r) :
    (i, q) ∈ asked cfg ser (Sys.init fs) l := by
  obtain ⟨l1, seed, l2, t, k, rfl, h1, h2, -⟩ := h
  have key : ∀ (s : Sys) (l1 : List Event), (s.after cfg ser l1).tasks[i]? = some t →
      (i, q) ∈ Live.asked cfg ser s (l1 ++ .step i seed :: l2) := by
    intro s l1 h
    induction l1 generalizing s with
    | nil =>
      refine List.mem_append_left _ ?_
      dsimp only
      rw [show s.tasks[i]? = some t from h]
      dsimp only
      rw [h2]
      exact List.mem_singleton.2 rfl
    | cons e l1 ih => exact List.mem_append_right _ (ih _ h)
  exact key _ l1 h1

/-- `/p` with a main field, and what else there is. -/
def treeLook (main : Str) (time : Nat) (others : List (Str × Tree)) : Tree :=
  .dir ((cs!"p", .dir [(cs!"package.json", timedFile (.obj [(cs!"main", .str main)]) time),
    (cs!"a.js", textFile), (cs!"b.js", textFile)]) :: others)

/-- Two calls, one after the other. -/
def histLook : List Event :=
  .start 0 (.resolve cs!"/" cs!"./p") 20 :: List.replicate 40 (.step 0 0) ++
    .start 0 (.resolve cs!"/" cs!"./p") 20 :: List.replicate 40 (.step 1 0)

/-- The two file systems give the same answer to a look, with `exact` also to a look for a time. (Of contents, only
those of one file are looked at here.) -/
def agree (exact : Bool) (fs fs' : Fs) : Query → Bool
  | .isFile p => decide (fs'.isFile p = fs.isFile p)
  | .isDir p => decide (fs'.isDir p = fs.isDir p)
  | .pathExists p => decide (fs'.pathExists p = fs.pathExists p)
  | .canon p => decide (fs'.canon p = fs.canon p)
  | .mtime p => if exact then decide (fs'.mtime p = fs.mtime p) else decide ((fs'.mtime p).isSome = (fs.mtime p).isSome)
  | .read p => decide (p = cs!"/./p/package.json")
  | .release => true

theorem agree_alike (hread : fs'.read cs!"/./p/package.json" = fs.read cs!"/./p/package.json") {q : Query}
    (h : agree false fs fs' q = true) : ReplyLike q (q.answer fs') (q.answer fs) := by
  cases q with
  | release => trivial
  | read p =>
    rw [show p = cs!"/./p/package.json" from of_decide_eq_true h]
    exact hread
  | isFile p => exact (of_decide_eq_true h : fs'.isFile p = _)
  | isDir p => exact (of_decide_eq_true h : fs'.isDir p = _)
  | pathExists p => exact (of_decide_eq_true h : fs'.pathExists p = _)
  | canon p => exact (of_decide_eq_true h : fs'.canon p = _)
  | mtime p => exact (of_decide_eq_true h : (fs'.mtime p).isSome = _)

theorem agree_same (hread : fs'.read cs!"/./p/package.json" = fs.read cs!"/./p/package.json") {q : Query}
    (h : agree true fs fs' q = true) : q.answer fs' = q.answer fs := by
  cases q with
  | release => rfl
  | read p =>
    rw [show p = cs!"/./p/package.json" from of_decide_eq_true h]
    exact hread
  | isFile p => exact (of_decide_eq_true h : fs'.isFile p = _)
  | isDir p => exact (of_decide_eq_true h : fs'.isDir p = _)
  | pathExists p => exact (of_decide_eq_true h : fs'.pathExists p = _)
  | canon p => exact (of_decide_eq_true h : fs'.canon p = _)
  | mtime p => exact (of_decide_eq_true h : fs'.mtime p = _)

theorem Looked.still {l : List Event} (hl : ∀ e ∈ l, e.calm) {i : Nat} {q : Query} {r : q.Ret}
    (h : Looked cfg ser fs l i q r) : q.answer fs = r := by
  obtain ⟨l1, seed, l2, t, k, rfl, -, -, h⟩ := h
  rw [← h, after_still (cfg := cfg) (ser := ser)
    (fun e he => calm_still hl e (List.mem_append_left _ he)) (Sys.init fs)]
  rfl

theorem histLook_calm : ∀ e ∈ histLook, e.calm := by
  intro e he
  have : e = .start 0 (.resolve cs!"/" cs!"./p") 20 ∨ e = .step 0 0 ∨ e = .step 1 0 := by
    simp only [histLook, List.mem_cons, List.mem_append, List.mem_replicate] at he
    grind
  rcases this with rfl | rfl | rfl
  · exact (by decide : isAbs cs!"/" = true)
  · trivial
  · trivial

/-- Files next to `/p` that no call has looked at. -/
def treeLook' (time : Nat) : Tree :=
  treeLook cs!"a.js" time [(cs!"q", .dir [(cs!"package.json", textFile)]), (cs!"p.ts", textFile)]

-- C90_goes_on (and C90_unseen for the whole history): after the change, a third call is made
example : ∀ i q r, Looked cfgCh serJson (treeFs (treeLook cs!"a.js" 0 []) []) histLook i q r →
    q.answer (treeFs (treeLook' 0) []) = r := by
  intro i q r h
  rw [← h.still histLook_calm]
  refine agree_same (by rfl) ((by decide +kernel : ∀ x ∈ asked cfgCh serJson (Sys.init (treeFs (treeLook cs!"a.js" 0 []) []))
    histLook, agree true (treeFs (treeLook cs!"a.js" 0 []) []) (treeFs (treeLook' 0) []) x.2 = true) _ h.asked)
example : Static cfgCh serJson (treeFs (treeLook' 0) []) := static_new rfl (by decide +kernel)
example : ((Sys.init (treeFs (treeLook cs!"a.js" 0 []) [])).after cfgCh serJson
    (histLook ++ .change (treeFs (treeLook' 0) []) ::
      (.start 0 (.resolve cs!"/" cs!"./p") 20 :: List.replicate 40 (.step 2 0)))).path 2 = some cs!"/p/a.js" := by
  decide +kernel

-- C90_recorded: the description file has another time
example : ∀ i q r, Looked cfgCh serJson (treeFs (treeLook cs!"a.js" 0 []) []) histLook i q r →
    ReplyLike q (q.answer (treeFs (treeLook' 7) [])) r := by
  intro i q r h
  rw [← h.still histLook_calm]
  refine agree_alike (by rfl) ((by decide +kernel : ∀ x ∈ asked cfgCh serJson (Sys.init (treeFs (treeLook cs!"a.js" 0 []) []))
    histLook, agree false (treeFs (treeLook cs!"a.js" 0 []) []) (treeFs (treeLook' 7) []) x.2 = true) _ h.asked)
example : Static cfgCh serJson (treeFs (treeLook' 7) []) := static_new rfl (by decide +kernel)
example : ((Sys.init (treeFs (treeLook' 7) [])).after cfgCh serJson histLook).path 1 = some cs!"/p/a.js" := by
  decide +kernel
example : TsClear (cfgCh 0).opts fs (.resolve cs!"/" cs!"./p") := by
  intro loc hloc
  cases hloc

/-- C90: the looks of the call itself are not enough, because the caches know what other calls have looked at. The
second call does not read the description file, and all its looks give the same on the other tree, but there the call
comes to another file. -/
theorem C90_own_fails :
    (∀ q r, Looked cfgCh serJson (treeFs (treeLook cs!"a.js" 0 []) []) histLook 1 q r →
      q.answer (treeFs (treeLook cs!"b.js" 0 []) []) = r) ∧
    ((Sys.init (treeFs (treeLook cs!"a.js" 0 []) [])).after cfgCh serJson histLook).path 1 = some cs!"/p/a.js" ∧
    ((Sys.init (treeFs (treeLook cs!"b.js" 0 []) [])).after cfgCh serJson histLook).path 1 = some cs!"/p/b.js" := by
  refine ⟨fun q r h => ?_, by decide +kernel⟩
  rw [← h.still histLook_calm]
  have h1 : ∀ x ∈ asked cfgCh serJson (Sys.init (treeFs (treeLook cs!"a.js" 0 []) [])) histLook, x.1 = 1 →
      agree true (treeFs (treeLook cs!"a.js" 0 []) []) (treeFs (treeLook cs!"b.js" 0 []) []) x.2 = true ∧
        x.2 ≠ .read cs!"/./p/package.json" := by
    decide +kernel
  obtain ⟨h2, h3⟩ := h1 _ h.asked rfl
  cases q with
  | release => rfl
  | read p => exact (h3 (congrArg Query.read (of_decide_eq_true h2))).elim
  | isFile p => exact (of_decide_eq_true h2 : Fs.isFile _ p = _)
  | isDir p => exact (of_decide_eq_true h2 : Fs.isDir _ p = _)
  | pathExists p => exact (of_decide_eq_true h2 : Fs.pathExists _ p = _)
  | canon p => exact (of_decide_eq_true h2 : Fs.canon _ p = _)
  | mtime p => exact (of_decide_eq_true h2 : Fs.mtime _ p = _)

end Verif.Live
