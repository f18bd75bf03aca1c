import Verif.Proofs.LiveSpin
import Verif.Props.Caches
import Verif.Props.Changes
/-!
# Properties of calls during which files change: C51 to C55
-/

namespace Verif.Live

variable {cfg : Nat → Config} {ser : Json → Str} {fs : Fs}

/-- A call of `resolve` that has returned. -/
theorem resolve_returned {l : List Event} {i : Nat} {t : Task}
    (ht : ((Sys.init fs).after cfg ser l).tasks[i]? = some t) {path request : Str}
    {r : Except Err Result} (hc : t.call = .resolve path request) (hr : t.prog = .ret (.resolve r)) :
    Ends (Seen cfg ser fs l i) (Got cfg ser fs l i)
      (resolve (host (cfg t.rid) ser t.fuel) t.fuel path request) (.done r) := by
  have h1 := live_ends cfg ser fs l i t ht (.done (.resolve r)) (by rw [hr]; rfl)
  rw [hc] at h1
  obtain ⟨r', h2, h3⟩ := Ends.done_bind h1
  cases h3
  exact h2

/-! ## C51 -/

/-- C51: in any history, with any changes of files at any moment, a success names a file that was there
at some moment during the call. With symlinks the path returned is what `canonicalize` said of it at
some moment during the call, otherwise its lexical normalisation. -/
theorem C51_was_file (l : List Event) (i : Nat) (t : Task)
    (ht : ((Sys.init fs).after cfg ser l).tasks[i]? = some t) (path request : Str) (info : Info)
    (hc : t.call = .resolve path request) (hr : t.prog = .ret (.resolve (.ok (.info info)))) :
    ∃ p, (∃ fs', During cfg ser fs l i fs' ∧ fs'.isFile p = true) ∧
      if (cfg t.rid).opts.symlinks then ∃ fs', During cfg ser fs l i fs' ∧ fs'.canon p = some info.path
      else info.path = normalizeLex p := by
  obtain ⟨j, h1, h2, h3⟩ := resolve_ok (resolve_returned ht hc hr)
  obtain ⟨fs', h4, h5⟩ := h1.file
  refine ⟨j.path, ⟨fs', h4, h5⟩, ?_⟩
  have hs : (host (cfg t.rid) ser t.fuel).opts.symlinks = (cfg t.rid).opts.symlinks := rfl
  rw [hs] at h3
  split
  · rename_i hsym
    rw [if_pos hsym] at h3
    exact h3
  · rename_i hsym
    rw [if_neg hsym] at h3
    exact h3

/-- C51 on symlink-free trees, with absolute base paths: the returned path itself was that of a regular
file at some moment during the call. -/
theorem C51_was_file_tree (l : List Event) (i : Nat) (t : Task)
    (ht : ((Sys.init fs).after cfg ser l).tasks[i]? = some t) (path request : Str) (info : Info)
    (hc : t.call = .resolve path request) (hr : t.prog = .ret (.resolve (.ok (.info info))))
    (ha : isAbs path = true) (hts : ∀ loc, (cfg t.rid).opts.tsconfig = some loc → isAbs loc = true)
    (hd : ∀ fs', During cfg ser fs l i fs' → ∃ tree cwd, tree.isDir = true ∧ fs' = treeFs tree cwd) :
    ∃ fs', During cfg ser fs l i fs' ∧ fs'.isFile info.path = true := by
  obtain ⟨j, h1, hj, h2, h3⟩ := resolve_abs ha hts
    ((resolve_returned ht hc hr).mono (fun _ _ h => h) got_keyed)
  obtain ⟨fs', h4, h5⟩ := h1.file
  refine ⟨fs', h4, ?_⟩
  have hi : info.path = normalizeLex j.path := by
    split at h3
    · obtain ⟨fs'', h6, h7⟩ := h3
      obtain ⟨tree, cwd, hroot, rfl⟩ := hd fs'' h6
      replace h7 : (treeFs tree cwd).canon j.path = some info.path := h7
      cases hl : tree.lookup cwd j.path with
      | none => simp [treeFs, hl] at h7
      | some loc =>
        obtain ⟨h8, -⟩ := Tree.lookup_abs hj hl
        simp only [treeFs, hl, Option.map_some, Option.some.injEq] at h7
        rw [← h7, h8, (normalizeLex_eq j.path).1, hj, absText_eq]
    · exact h3
  obtain ⟨tree, cwd, hroot, rfl⟩ := hd fs' h4
  replace h5 : (treeFs tree cwd).isFile j.path = true := h5
  cases hl : tree.lookup cwd j.path with
  | none => simp [treeFs, Tree.node, hl] at h5
  | some loc =>
    have hn := Tree.lookup_normalizeLex hj hl hroot
    rw [hi]
    simp only [treeFs, Tree.node, hl, hn] at h5 ⊢
    exact h5

/-! ## C52 -/

/-- C52: in any history, with any changes of files at any moment, the request of a success has an empty
target, and with enforced extensions the path before normalisation ends with one of them. -/
theorem C52_success (l : List Event) (i : Nat) (t : Task)
    (ht : ((Sys.init fs).after cfg ser l).tasks[i]? = some t) (path request : Str) (info : Info)
    (hc : t.call = .resolve path request) (hr : t.prog = .ret (.resolve (.ok (.info info)))) :
    info.request.target = [] ∧
    ((cfg t.rid).opts.enforceExtension = some true → ∃ q, ∃ ext ∈ (cfg t.rid).opts.extensions,
      if (cfg t.rid).opts.symlinks then ∃ fs', During cfg ser fs l i fs' ∧ fs'.canon (q ++ ext) = some info.path
      else info.path = normalizeLex (q ++ ext)) := by
  obtain ⟨j, h1, h2, h3⟩ := resolve_ok (resolve_returned ht hc hr)
  refine ⟨by rw [h2, h1.target], fun he => ?_⟩
  obtain ⟨q, ext, hm, hp⟩ := h1.ext he
  refine ⟨q, ext, hm, ?_⟩
  rw [hp] at h3
  have hs : (host (cfg t.rid) ser t.fuel).opts.symlinks = (cfg t.rid).opts.symlinks := rfl
  rw [hs] at h3
  split
  · rename_i hsym
    rw [if_pos hsym] at h3
    exact h3
  · rename_i hsym
    rw [if_neg hsym] at h3
    exact h3

/-- C52: in any history, with any changes of files at any moment, the error of `resolve` is never the
marker, and a "Resolve … failed in …" message holds the request and the path as given. -/
theorem C52_errors (l : List Event) (i : Nat) (t : Task)
    (ht : ((Sys.init fs).after cfg ser l).tasks[i]? = some t) (path request : Str) (err : Err)
    (pj : Json → Str)
    (hc : t.call = .resolve path request) (hr : t.prog = .ret (.resolve (.error err))) :
    err.render pj ≠ cs!"T0" ∧
    ∀ r p, err = .failed r p → err.render pj =
      cs!"Resolve '" ++ request ++ cs!"' failed in '" ++ path ++ cs!"'" := by
  have hdisp : (parseRequest request).display = request := (parse_isSplit request).concat.symm
  rw [Ne, render_eq_tag]
  rcases resolve_err (resolve_returned ht hc hr) with rfl | ⟨h1, h2⟩ | rfl
  · refine ⟨by simp [failedMessage, Err.isTag], fun r p he => ?_⟩
    simp only [failedMessage, Err.render, hdisp]
  · exact ⟨by simp [h2], fun r p he => by subst he; exact h1.elim⟩
  · exact ⟨by simp [Err.isTag], fun r p he => by cases he⟩

/-- C52: in any history, with any changes of files at any moment, no call reaches the `unreachable!` at
the entry point (src/lib.rs:209), fails the debug assertion on the target (src/normalize.rs:55), or
unwraps the missing name of a description file (src/description.rs:158). -/
theorem C52_sites (l : List Event) (i : Nat) (t : Task)
    (ht : ((Sys.init fs).after cfg ser l).tasks[i]? = some t) (s : Site)
    (hr : t.prog = .crash (.panic s)) : s ≠ .apiUnreachable ∧ s ≠ .dbgTarget ∧ s ≠ .descUnwrap := by
  have h1 := live_ends cfg ser fs l i t ht (.crashed (.panic s)) (by rw [hr]; rfl)
  have key : NotFinal (.panic s) := by
    cases hcall : t.call with
    | resolve path request =>
      rw [hcall] at h1
      rcases Ends.of_bind h1 with ⟨a, h2, h3⟩ | ⟨c, h2, h3⟩
      · cases h3
      · cases h3
        exact resolve_sites h2
    | sideEffects path =>
      rw [hcall] at h1
      rcases Ends.of_bind h1 with ⟨a, h2, h3⟩ | ⟨c, h2, h3⟩
      · cases h3
      · cases h3
        exact sideEffects_sites h2
  exact ⟨fun h => key.1 (by rw [h]), fun h => key.2.1 (by rw [h]), fun h => key.2.2 (by rw [h])⟩

/-! ## C53 -/

/-- C53: if no call notices a change, then the history without the looks at files leads to the same
state in `Verif.Model.Machine`, where every call works on the files it started with. -/
theorem C53_unnoticed (l : List Event) (hu : Unnoticed cfg ser (Sys.init fs) l) :
    ∃ l' : List Event, l'.Sublist l ∧ (∀ e ∈ l, (∀ i seed, e ≠ .step i seed) → e ∈ l') ∧
      ((Verif.Sys.init fs).after cfg ser l').shared = ((Sys.init fs).after cfg ser l).shared ∧
      ∀ (i : Nat) (t : Task) (x : Outcome Answer), ((Sys.init fs).after cfg ser l).tasks[i]? = some t → outcome t.prog = some x →
        ∃ t' : Verif.Task, ((Verif.Sys.init fs).after cfg ser l').tasks[i]? = some t' ∧ t'.prog.outcome = some x ∧
          t'.rid = t.rid ∧ t'.fs = t.fs ∧ t'.call = t.call ∧ t'.fuel = t.fuel := by
  obtain ⟨l', h1, h2, h3, -, h5⟩ := freeze_after (s := Sys.init fs) (s' := Verif.Sys.init fs) rfl rfl rfl hu
  refine ⟨l', h1, h2, h3, fun i t x ht hx => ⟨t.freeze, ?_, outcome_freeze hx, rfl, rfl, rfl, rfl⟩⟩
  rw [h5, List.getElem?_map, ht]
  rfl

/-- C53: files that change only while no call is in progress go unnoticed. -/
theorem C53_quiet (l : List Event) (hq : Quiet cfg ser (Sys.init fs) l) :
    Unnoticed cfg ser (Sys.init fs) l :=
  unnoticed_of_quiet (fun _ h => by cases h) hq

/-- C53: on files that stand still, whatever the interleaving of looks and operations of several calls,
a call ends as in a fresh resolver (as in C33). -/
theorem C53_still (hs : Static cfg ser fs) (l : List Event) (hl : ∀ e ∈ l, e.calm) (i : Nat) (t : Task)
    (ht : ((Sys.init fs).after cfg ser l).tasks[i]? = some t) (hc : t.call.abs)
    (o : Outcome Answer) (ho : outcome t.prog = some o) :
    (∃ seeds, o.Like Answer.Sim
      ((t.call.prog ((cfg t.rid).env ser fs) t.fuel).run (World.init seeds)).1) ∧
    (TsClear (cfg t.rid).opts fs t.call → ∀ seeds, o.Like Answer.Sim
      ((t.call.prog ((cfg t.rid).env ser fs) t.fuel).run (World.init seeds)).1) := by
  have hq : ∀ (s : Sys) (l : List Event), (∀ e ∈ l, e.calm) → Quiet cfg ser s l := by
    intro s l hl
    induction l generalizing s with
    | nil => trivial
    | cons e l ih =>
      refine ⟨?_, ih _ fun e he => hl e (List.mem_cons_of_mem _ he)⟩
      rintro fs rfl
      exact (hl _ List.mem_cons_self).elim
  obtain ⟨l', h1, -, -, h4⟩ := C53_unnoticed l (C53_quiet l (hq _ l hl))
  obtain ⟨t', h5, h6, h7, h8, h9, h10⟩ := h4 i t o ht ho
  have := C33_transparent_partial hs l' (fun e he => hl e (h1.mem he)) t' (List.mem_of_getElem? h5)
    (by rw [h9]; exact hc) o h6
  rw [h7, h9, h10] at this
  exact this

/-! ## C54 -/

/-- C54, what holds: if during the call the same absolute paths are directories, and what is above a
directory is one, then the call does not spin in the loop of src/description.rs:206-217, whatever else
changes. Missing: directories that come and go (`C54_spin_violated`); relative base paths. -/
theorem C54_dirs_stay_partial (l : List Event) (i : Nat) (t : Task)
    (ht : ((Sys.init fs).after cfg ser l).tasks[i]? = some t) (hc : t.call.abs)
    (hts : ∀ loc, (cfg t.rid).opts.tsconfig = some loc → isAbs loc = true) (D : Str → Bool)
    (hD : ∀ fs', During cfg ser fs l i fs' → ∀ p, isAbs p = true → fs'.isDir p = D p)
    (hup : ∀ p q, isAbs p = true → D p = true → pparent p = some q → D q = true) :
    t.prog ≠ .crash .hang := by
  intro hp
  have h1 := live_ends cfg ser fs l i t ht (.crashed .hang) (by rw [hp]; rfl)
  refine prog_stay (D := D) ⟨?_, hup⟩ _ hc hts (h1.mono (fun _ _ h => h) got_keyed)
  rintro p b ha ⟨fs', h2, h3⟩
  exact h3.symm.trans (hD fs' h2 p ha)

/-- C54, what holds: if moreover the same directories have a description file, then
`load_side_effects` comes to an end: it neither spins nor repeats itself without end, with whatever
fuel. Missing: description files and directories that come and go; `resolve`, which repeats itself
without end on some files that stand still (C45). -/
theorem C54_loader_partial (l : List Event) (i : Nat) (t : Task)
    (ht : ((Sys.init fs).after cfg ser l).tasks[i]? = some t) (path : Str)
    (hc : t.call = .sideEffects path) (ha : isAbs path = true) (D F : Str → Bool)
    (hD : ∀ fs', During cfg ser fs l i fs' → ∀ p, isAbs p = true → fs'.isDir p = D p)
    (hup : ∀ p q, isAbs p = true → D p = true → pparent p = some q → D q = true)
    (hF : ∀ fs' desc, During cfg ser fs l i fs' → (cfg t.rid).opts.descriptionFile = some desc →
      ∀ d, isAbs d = true → fs'.isFile (pjoin d desc) = F d) :
    t.prog ≠ .crash .hang ∧ t.prog ≠ .crash .fuel := by
  have key : ∀ c, t.prog = .crash c → c ≠ .hang ∧ c ≠ .fuel := by
    intro c hp
    have h1 := live_ends cfg ser fs l i t ht (.crashed c) (by rw [hp]; rfl)
    rw [hc] at h1
    refine sideEffects_ends (D := D) ⟨?_, hup⟩ (F := F) ?_ t.fuel path ha h1
    · rintro p b hp ⟨fs', h2, h3⟩
      exact h3.symm.trans (hD fs' h2 p hp)
    · rintro desc hd d b hp ⟨fs', h2, h3⟩
      exact h3.symm.trans (hF fs' desc h2 hd d hp)
  exact ⟨fun h => (key _ h).1 rfl, fun h => (key _ h).2 rfl⟩

/-- All files of a history satisfy what the first and every later ones satisfy. -/
theorem during_of {P : Fs → Prop} {l : List Event} {i : Nat} (h0 : P fs)
    (hl : ∀ fs', .change fs' ∈ l → P fs') {fs' : Fs} (h : During cfg ser fs l i fs') : P fs' := by
  obtain ⟨l1, l2, rfl, rfl, -⟩ := h
  have key : ∀ (l : List Event) (s : Sys), P s.fs → (∀ fs', .change fs' ∈ l → P fs') →
      P (s.after cfg ser l).fs := by
    intro l
    induction l with
    | nil => exact fun s h _ => h
    | cons e l ih =>
      intro s hs hl
      refine ih _ ?_ fun fs' h => hl fs' (List.mem_cons_of_mem _ h)
      cases e with
      | start rid call fuel => exact hs
      | change fs' => exact hl fs' List.mem_cons_self
      | step i seed =>
        unfold Sys.next
        dsimp only
        split
        · exact hs
        · split <;> exact hs
  exact key l1 _ h0 fun fs' h => hl fs' (List.mem_append_left _ h)

/-- A directory `/p`, and nothing else. -/
def treeSpin : Tree := .dir [(cs!"p", .dir [])]

/-- The call looks five times at files and cache; then `/p` is removed; then `k` more steps. -/
def histSpin (fuel k : Nat) : List Event :=
  (.start 0 (.sideEffects cs!"/p") fuel :: List.replicate 5 (.step 0 0)) ++
    (.change (treeFs (.dir []) []) :: List.replicate k (.step 0 0))

/-- One look at a file by the only call. -/
theorem next_ask {s : Sys} {t : Task} {q : Query} {k : q.Ret → Live Answer} (hs : s.tasks = [t])
    (hp : t.prog = .ask q k) : (s.next cfg ser (.step 0 0)).fs = s.fs ∧
      (s.next cfg ser (.step 0 0)).shared = s.shared ∧
      (s.next cfg ser (.step 0 0)).tasks = [{ t with prog := k (q.answer s.fs) }] := by
  have h0 : s.tasks[0]? = some t := by rw [hs]; rfl
  simp only [Sys.next, h0, hp]
  rw [hs]
  exact ⟨trivial, trivial, rfl⟩

theorem bind_assoc {α β γ : Type} (p : Live α) (f : α → Live β) (g : β → Live γ) :
    (p.bind f).bind g = p.bind fun a => (f a).bind g := by
  induction p with
  | ret a => rfl
  | crash c => rfl
  | ask q k ih => simp only [bind, ih]
  | op o k ih => simp only [bind, ih]

/-- One call, on files `fs` and with empty caches, has `p` left to do. -/
def Alone (fs : Fs) (s : Sys) (p : Live Answer) : Prop :=
  s.fs = fs ∧ s.shared = Shared.init ∧ ∃ t, s.tasks = [t] ∧ t.prog = p

theorem Alone.ask {s : Sys} {q : Query} {k : q.Ret → Live Answer} (h : Alone fs s (.ask q k))
    {r : q.Ret} (hr : q.answer fs = r) : Alone fs (s.next cfg ser (.step 0 0)) (k r) := by
  obtain ⟨rfl, h2, t, h3, h4⟩ := h
  obtain ⟨h5, h6, h7⟩ := next_ask (cfg := cfg) (ser := ser) h3 h4
  exact ⟨h5, h6.trans h2, _, h7, by rw [← hr]⟩

theorem Alone.get {s : Sys} {d : Str} {k : Option (Option Pkg) → Live Answer}
    (h : Alone fs s (.op (.getPkg d) k)) : Alone fs (s.next cfg ser (.step 0 0)) (k none) := by
  obtain ⟨rfl, h2, t, h3, h4⟩ := h
  have h0 : s.tasks[0]? = some t := by rw [h3]; rfl
  simp only [Sys.next, h0, h4]
  rw [h3]
  refine ⟨rfl, ?_, _, rfl, ?_⟩
  · rw [h2]; exact store_view _ _ _
  · rw [h2]; rfl

/-- C54 does not hold: a directory that is removed at the wrong moment sends the call into an endless
loop. However many steps `k` it makes, it is still in progress if the fuel suffices, and it never ends
in any other way than by a lack of fuel in that loop. -/
theorem C54_spin_violated (fuel k : Nat) :
    ∃ t, ((Sys.init (treeFs treeSpin [])).after cfgCh serJson (histSpin fuel k)).tasks = [t] ∧
      (k ≤ fuel → outcome t.prog = none) ∧ ∀ x, outcome t.prog = some x → x = .crashed .hang := by
  have d1 : (treeFs treeSpin []).isDir cs!"/p" = true := by decide +kernel
  have f1 : (treeFs treeSpin []).isFile (pjoin cs!"/p" cs!"package.json") = false := by decide +kernel
  have f2 : (treeFs treeSpin []).isFile (pjoin cs!"/" cs!"package.json") = false := by decide +kernel
  have g1 : (treeFs (.dir []) []).isDir cs!"/p" = false := by decide +kernel
  -- what is left of the call after five steps
  obtain ⟨f, -, -, t, h1, h2⟩ : ∃ f, Alone (treeFs treeSpin [])
      ((Sys.init (treeFs treeSpin [])).after cfgCh serJson
        (.start 0 (.sideEffects cs!"/p") fuel :: List.replicate 5 (.step 0 0)))
      ((cacheNone (3 + fuel) cs!"/p").bind f) := by
    obtain ⟨f, hP⟩ : ∃ f, Live.prog (host (cfgCh 0) serJson fuel) fuel (.sideEffects cs!"/p") =
        (loadPkgAux (host (cfgCh 0) serJson fuel) (3 + fuel) cs!"/p").bind f :=
      ⟨_, bind_assoc (loadPkgAux (host (cfgCh 0) serJson fuel) (3 + fuel) cs!"/p") _ _⟩
    refine ⟨f, ?_⟩
    have h0 : Alone (treeFs treeSpin []) ((Sys.init (treeFs treeSpin [])).next cfgCh serJson
        (.start 0 (.sideEffects cs!"/p") fuel))
        ((loadPkgAux (host (cfgCh 0) serJson fuel) (2 + fuel + 1) cs!"/p").bind f) := by
      refine ⟨rfl, rfl, _, rfl, ?_⟩
      show Live.prog (host (cfgCh 0) serJson fuel) fuel (.sideEffects cs!"/p") = _
      rw [hP]
      congr 2
      omega
    have h1 := Alone.ask (cfg := cfgCh) (ser := serJson) (r := (true : Bool)) h0 d1
    have h2 := Alone.get (cfg := cfgCh) (ser := serJson) h1
    have h3 := Alone.ask (cfg := cfgCh) (ser := serJson) (r := (false : Bool)) h2 f1
    have h4 := Alone.ask (cfg := cfgCh) (ser := serJson) (r := (false : Bool)) h3 f1
    exact Alone.ask (cfg := cfgCh) (ser := serJson) (r := (false : Bool)) h4 f2
  have happ : (Sys.init (treeFs treeSpin [])).after cfgCh serJson (histSpin fuel k) =
      ((((Sys.init (treeFs treeSpin [])).after cfgCh serJson
        (.start 0 (.sideEffects cs!"/p") fuel :: List.replicate 5 (.step 0 0))).next cfgCh serJson
          (.change (treeFs (.dir []) []))).after cfgCh serJson (List.replicate k (.step 0 0))) := by
    unfold histSpin Sys.after
    rw [List.foldl_append]
    rfl
  rw [happ]
  obtain ⟨t', h4, h5⟩ := spin_steps (cfg := cfgCh) (ser := serJson) k
    (((Sys.init (treeFs treeSpin [])).after cfgCh serJson
        (.start 0 (.sideEffects cs!"/p") fuel :: List.replicate 5 (.step 0 0))).next cfgCh serJson
          (.change (treeFs (.dir []) []))) t (3 + fuel) f h1 g1 h2
  refine ⟨t', h4, fun hk => ?_, fun x hx => ?_⟩
  · rw [h5, show 3 + fuel - k = (2 + fuel - k) + 1 by omega]
    rfl
  · rw [h5] at hx
    cases hn : 3 + fuel - k with
    | zero => rw [hn] at hx; cases hx; rfl
    | succ n => rw [hn] at hx; cases hx

/-! ## C55 -/

/-- C55, what holds: if calls and changes come one after the other, a call ends as in a fresh resolver
on the files of its time, as in C35, although it looks at files one by one. Missing: changes while a call
is in progress (`C55_torn_violated`), and what is missing in C35. -/
theorem C55_turns_partial {F : Fs → Prop} (hF : Changing cfg ser F) (hfs : F fs) (l : List Event)
    (hl : Turns cfg ser F (Sys.init fs) l) (i : Nat) (t : Task)
    (ht : ((Sys.init fs).after cfg ser l).tasks[i]? = some t) (o : Outcome Answer)
    (ho : outcome t.prog = some o) :
    (∃ seeds, o.Like Answer.Sim
      ((t.call.prog ((cfg t.rid).env ser t.fs) t.fuel).run (World.init seeds)).1) ∧
    (TsClear (cfg t.rid).opts t.fs t.call → ∀ seeds, o.Like Answer.Sim
      ((t.call.prog ((cfg t.rid).env ser t.fs) t.fuel).run (World.init seeds)).1) := by
  obtain ⟨l', h1, -, h3⟩ := turns_freeze (s := Sys.init fs) (s' := Verif.Sys.init fs) rfl rfl rfl
    (fun _ h => by cases h) hl
  exact C35_changes_partial hF hfs l' h1 t.freeze
    (by rw [h3]; exact List.mem_map_of_mem (List.mem_of_getElem? ht)) o (outcome_freeze ho)

/-- Call 0 has read the contents of `/p/package.json` but not yet its time when the file changes. Call 1
starts when call 0 is over. -/
def histTorn : List Event :=
  .start 0 (.resolve cs!"/" cs!"./p") 20 :: List.replicate 4 (.step 0 0) ++
    .change (treeFs (treeM cs!"./b.js" 2000000000) []) :: List.replicate 40 (.step 0 0) ++
    .start 0 (.resolve cs!"/" cs!"./p") 20 :: List.replicate 40 (.step 1 0)

/-- C55 does not hold: the old contents are stored with the new time (src/fs.rs:56-67), so that calls
made after the change use the old contents for as long as the file is not changed again. (A fresh
resolver finds `/p/b.js`.) -/
theorem C55_torn_violated :
    ((Sys.init (treeFs (treeM cs!"./a.js" 0) [])).after cfgCh serJson histTorn).path 1 =
        some cs!"/p/a.js" ∧
      ((Sys.init (treeFs (treeM cs!"./b.js" 2000000000) [])).after cfgCh serJson
        (.start 0 (.resolve cs!"/" cs!"./p") 20 :: List.replicate 40 (.step 0 0))).path 0 =
        some cs!"/p/b.js" := by
  decide +kernel

/-! ## C56 -/

/-- C56, what holds: if there is a file system that agrees with every answer the call has got, then the
call ends as on that file system. Missing: calls to which no file system gives all the answers
(`C56_mixed_violated`). -/
theorem C56_snapshot_partial (l : List Event) (i : Nat) (t : Task)
    (ht : ((Sys.init fs).after cfg ser l).tasks[i]? = some t) (x : Outcome Answer)
    (hx : outcome t.prog = some x) (fs' : Fs)
    (hl : ∀ q r, Looked cfg ser fs l i q r → q.answer fs' = r) :
    (t.call.prog ((cfg t.rid).env ser fs') t.fuel).Ends x := by
  have := (live_looked cfg ser fs l i t ht x hx).freeze hl
  rw [prog_freeze] at this
  exact this

/-- `/p` with a main file. -/
def treeMain (main : Str) : Tree :=
  .dir [(cs!"p", .dir [
    (cs!"package.json", timedFile (.obj [(cs!"main", .str (cs!"./" ++ main))]) 0),
    (main, textFile), (cs!"index.js", textFile)])]

/-- One call; after `n` steps all of `/p` is replaced at once. -/
def histMain (n : Nat) : List Event :=
  .start 0 (.resolve cs!"/" cs!"./p") 20 :: List.replicate n (.step 0 0) ++
    .change (treeFs (treeMain cs!"b.js") []) :: List.replicate 40 (.step 0 0)

/-- C56 does not hold: before the change the answer is `/p/a.js`, after it `/p/b.js`, and the call during
which the change happens finds neither and answers `/p/index.js`. -/
theorem C56_mixed_violated :
    ((Sys.init (treeFs (treeMain cs!"a.js") [])).after cfgCh serJson (histMain 40)).path 0 =
        some cs!"/p/a.js" ∧
      ((Sys.init (treeFs (treeMain cs!"a.js") [])).after cfgCh serJson (histMain 0)).path 0 =
        some cs!"/p/b.js" ∧
      ((Sys.init (treeFs (treeMain cs!"a.js") [])).after cfgCh serJson (histMain 8)).path 0 =
        some cs!"/p/index.js" := by
  decide +kernel

/-! ## The hypotheses are met -/

/-- `/p/a.js` is found; then all files go away. -/
def histGone : List Event :=
  .start 0 (.resolve cs!"/p" cs!"./a.js") 20 :: List.replicate 11 (.step 0 0) ++
    .change (treeFs (.dir []) []) :: List.replicate 40 (.step 0 0)

-- C51 and C52: a success, whose file is gone when the call returns
example : ((Sys.init (treeFs (treeM cs!"./a.js" 0) [])).after cfgCh serJson histGone).path 0 =
    some cs!"/p/a.js" ∧ (treeFs (.dir []) []).isFile cs!"/p/a.js" = false := by
  decide +kernel

-- C51: with symlinks the file must be there for one more moment
example : (((Sys.init (treeFs (treeM cs!"./a.js" 0) [])).after (fun _ => config Opts.default 0) serJson
    (.start 0 (.resolve cs!"/p" cs!"./a.js") 20 :: List.replicate 10 (.step 0 0) ++
      .change (treeFs (.dir []) []) :: List.replicate 40 (.step 0 0))).error 0).map
    (Err.render serJson) = some cs!"Path normalized failed" := by
  decide +kernel

-- C52: an error because a file goes away between two looks
example : (((Sys.init (treeFs (treeM cs!"./a.js" 0) [])).after cfgCh serJson
    (.start 0 (.resolve cs!"/p" cs!"./a.js") 20 :: List.replicate 4 (.step 0 0) ++
      .change (treeFs (.dir []) []) :: List.replicate 40 (.step 0 0))).error 0).map
    (Err.render serJson) = some cs!"Open /p/package.json failed" := by
  decide +kernel

-- C54: the contents of files change while the call runs, directories stay
example : let fs0 := treeFs (treeM cs!"./a.js" 0) []
    let fs1 : Fs := { fs0 with read := fun _ => none, isFile := fun _ => false }
    let l : List Event := .start 0 (.resolve cs!"/p" cs!"./a.js") 20 :: .step 0 0 ::
      .change fs1 :: List.replicate 40 (.step 0 0)
    (∀ fs', During cfgCh serJson fs0 l 0 fs' → ∀ p, isAbs p = true → fs'.isDir p = fs0.isDir p) ∧
    (∀ p q, isAbs p = true → fs0.isDir p = true → pparent p = some q → fs0.isDir q = true) ∧
    ((Sys.init fs0).after cfgCh serJson l).ended 0 ≠ none := by
  intro fs0 fs1 l
  refine ⟨fun fs' h => ?_, ?_, by decide +kernel⟩
  · refine during_of (P := fun fs' => ∀ p, isAbs p = true → fs'.isDir p = fs0.isDir p)
      (fun p _ => rfl) ?_ h
    intro fs' hm p _
    simp only [l, List.mem_cons, List.mem_replicate, reduceCtorEq, and_false, or_false, false_or,
      Event.change.injEq] at hm
    rw [hm]
  · exact fun p q ha hd hq => (treeFs_lawful _ rfl).parent p q ha hq hd

end Verif.Live
