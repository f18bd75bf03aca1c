import Verif.Proofs.LiveSat
import Verif.Props.Live
import Verif.Props.Cost
/-!
# C45 fails on files without circles, after a change
-/

namespace Verif.Live

/-- `main` of `/a` is `/b`, or it has none; likewise for `/b`. -/
def treeTurn (a b : Bool) (m : Nat) : Tree :=
  let file (there : Bool) (d : Str) : Json :=
    if there then .obj [(cs!"main", .str cs!"./x"), (cs!"browser", .obj [(cs!"./x", .str d)])] else .obj []
  .dir [
    (cs!"a", .dir [(cs!"package.json", timedFile (file a cs!"/b") m), (cs!"index", textFile)]),
    (cs!"b", .dir [(cs!"package.json", timedFile (file b cs!"/a") m), (cs!"index", textFile)])]

/-- With `browser` maps. -/
def cfgTurn : Nat → Config := fun _ => config { optsA with browserField := true, extensions := [] } 0

/-- First `/a` leads to `/b`, and `/a` is looked at. -/
def fsBefore : Fs := treeFs (treeTurn true false 0) []

/-- Half a second later `/b` leads to `/a`, and `/b` is looked at. -/
def fsAfter : Fs := treeFs (treeTurn false true 500000000) []

/-- What comes before the call. -/
def histTurn : List Event :=
  (.start 0 (.sideEffects cs!"/a") 20 :: List.replicate 20 (.step 0 0)) ++
    (.change fsAfter :: .start 0 (.sideEffects cs!"/b") 20 :: List.replicate 20 (.step 1 0))

/-- The caches then. -/
def sharedTurn : Shared := ((Sys.init fsBefore).after cfgTurn serJson histTurn).shared

/-- The package at `d` leads to `d'`. -/
structure LeadsTo (d d' : Str) (p : Pkg) : Prop where
  absDir : p.absDir = d
  main : (p.raw.get cs!"main").bind Json.asStr = some cs!"./x"
  fields : p.aliasFields = [(cs!"./x", .target d')]
  imports : p.importsTree = none

/-- A check for `LeadsTo`. -/
def leadsTo (d d' : Str) : Option (Option Pkg) → Bool
  | some (some p) => decide (p.absDir = d) && decide ((p.raw.get cs!"main").bind Json.asStr = some cs!"./x") &&
    decide (p.aliasFields = [(cs!"./x", .target d')]) && p.importsTree.isNone
  | _ => false

theorem leadsTo_iff {d d' : Str} {r : Option (Option Pkg)} (h : leadsTo d d' r = true) :
    ∃ p, r = some (some p) ∧ LeadsTo d d' p := by
  unfold leadsTo at h
  split at h
  · simp only [Bool.and_eq_true, decide_eq_true_eq, Option.isNone_iff_eq_none] at h
    exact ⟨_, rfl, h.1.1.1, h.1.1.2, h.1.2, h.2⟩
  · cases h

/-- Looks at the files after the change. -/
def AskT (q : Query) (r : q.Ret) : Prop := q.answer fsAfter = r

/-- Looks into the caches. -/
def OpT (s : Shared) : (o : Op) → o.Ret → Prop
  | .getPkg d, r => r = (s.caches 0).pkg (comps d)
  | .getFile d, r => r = s.files 0 (comps d)
  | _, _ => True

/-- The caches are only read. -/
def ReadOnly : Op → Prop
  | .getPkg _ => True
  | .getFile _ => True
  | _ => False

/-- It can only run out of fuel. -/
def Doomed {α : Type} (p : Live α) : Prop := p.Sat AskT ReadOnly (OpT sharedTurn) (· = .fuel) fun _ => False

theorem opT_exec (s : Shared) {o : Op} (h : ReadOnly o) (seeds : Nat → Nat) :
    (Op.exec (s.view cfgTurn 0 seeds) o).2 = s.view cfgTurn 0 seeds ∧
      OpT s o (Op.exec (s.view cfgTurn 0 seeds) o).1 := by
  cases o <;> first | exact h.elim | exact ⟨rfl, rfl⟩

/-- The two directories. -/
def Swing (d d' : Str) : Prop := (d = cs!"/a" ∧ d' = cs!"/b") ∨ (d = cs!"/b" ∧ d' = cs!"/a")

theorem Swing.symm {d d' : Str} (h : Swing d d') : Swing d' d := by
  rcases h with ⟨rfl, rfl⟩ | ⟨rfl, rfl⟩
  · exact .inr ⟨rfl, rfl⟩
  · exact .inl ⟨rfl, rfl⟩

theorem turn_isDir {d d' : Str} (h : Swing d d') : fsAfter.isDir d = true := by
  rcases h with ⟨rfl, -⟩ | ⟨rfl, -⟩ <;> decide +kernel

theorem turn_isFile {d d' : Str} (h : Swing d d') : fsAfter.isFile d = false := by
  rcases h with ⟨rfl, -⟩ | ⟨rfl, -⟩ <;> decide +kernel

theorem turn_desc {d d' : Str} (h : Swing d d') : fsAfter.isFile (pjoin d cs!"package.json") = true := by
  rcases h with ⟨rfl, -⟩ | ⟨rfl, -⟩ <;> decide +kernel

theorem turn_mtime {d d' : Str} (h : Swing d d') :
    fsAfter.mtime (pjoin d cs!"package.json") = some 500000000 := by
  rcases h with ⟨rfl, -⟩ | ⟨rfl, -⟩ <;> decide +kernel

theorem turn_pkg {d d' : Str} (h : Swing d d') :
    ∃ p, (sharedTurn.caches 0).pkg (comps d) = some (some p) ∧ LeadsTo d d' p := by
  refine leadsTo_iff ?_
  rcases h with ⟨rfl, rfl⟩ | ⟨rfl, rfl⟩ <;> decide +kernel

theorem turn_file {d d' : Str} (h : Swing d d') :
    ∃ m, sharedTurn.files 0 (comps (pjoin d cs!"package.json")) = some m ∧ (m = 0 ∨ m = 500000000) := by
  rcases h with ⟨rfl, rfl⟩ | ⟨rfl, rfl⟩
  · exact ⟨0, by decide +kernel, .inl rfl⟩
  · exact ⟨500000000, by decide +kernel, .inr rfl⟩

theorem turn_load {β : Type} {d d' : Str} (h : Swing d d') (s : Nat) {f : Except Err (Option Pkg) → Live β}
    (hf : ∀ p, LeadsTo d d' p → Doomed (f (.ok (some p)))) :
    Doomed ((loadPkg (host (cfgTurn 0) serJson s) d).bind f) := by
  unfold loadPkg
  rw [show d.length + 1 + (host (cfgTurn 0) serJson s).spin = d.length + (host (cfgTurn 0) serJson s).spin + 1 by omega]
  rw [loadPkgAux]
  simp only [show (host (cfgTurn 0) serJson s).opts.descriptionFile = some cs!"package.json" from rfl]
  intro b hb
  have hb : fsAfter.isDir d = b := hb
  rw [turn_isDir h] at hb
  subst hb
  refine ⟨trivial, fun r hr => ?_⟩
  have hr : r = (sharedTurn.caches 0).pkg (comps d) := hr
  obtain ⟨p, hp, hl⟩ := turn_pkg h
  rw [hp] at hr
  subst hr
  intro b hb
  have hb : fsAfter.isFile (pjoin d cs!"package.json") = b := hb
  rw [turn_desc h] at hb
  subst hb
  refine ⟨trivial, fun r hr => ?_⟩
  have hr : r = sharedTurn.files 0 (comps (pjoin d cs!"package.json")) := hr
  obtain ⟨m, hm, hm'⟩ := turn_file h
  rw [hm] at hr
  subst hr
  intro b hb
  have hb : fsAfter.mtime (pjoin d cs!"package.json") = b := hb
  rw [turn_mtime h] at hb
  subst hb
  rcases hm' with rfl | rfl
  · exact fun _ _ => hf p hl
  · exact fun _ _ => hf p hl

theorem pathEq_same (p : Str) : pathEq p p = true := by simp [pathEq]

theorem turn_dir {d d' : Str} (h : Swing d d') (s n : Nat) (i : Info) (hi : i.getPath = d) :
    Doomed (resolveAsDir (host (cfgTurn 0) serJson s) n i) := by
  induction n generalizing d d' i with
  | zero => exact (rfl : Crash.fuel = .fuel)
  | succ n ih =>
    rw [resolveAsDir, hi]
    intro b hb
    have hb : fsAfter.isDir d = b := hb
    rw [turn_isDir h] at hb
    subst hb
    refine turn_load h s fun p hp => ?_
    refine Sat.bind (P := fun _ => False) ?_ fun _ h => h.elim
    rw [mainFieldPlugin, hp.absDir]
    simp only [show pathEq ((i.withPath d).withTarget []).path d = true from pathEq_same _, Bool.not_true,
      Bool.false_eq_true, if_false]
    rw [show (host (cfgTurn 0) serJson s).opts.mainFields = [cs!"main"] from rfl, mainFieldLoop, hp.main]
    simp only [show (cs!"./x" = cs!"." || cs!"./x" = cs!"./") = false from rfl,
      show startsWith cs!"./x" cs!"./" = true from rfl, Bool.false_eq_true, if_false, if_true]
    refine Sat.bind (P := fun _ => False) ?_ fun _ h => h.elim
    have hm : ∀ c : Ctx, aliasMatches c p (((i.withPath d).withTarget []).withTarget cs!"./x") cs!"./x" = true := by
      intro c
      unfold aliasMatches
      rw [if_neg (by show ¬ getTargetKind cs!"./x" = .normal; decide), hp.absDir]
      unfold aliasPathMatches
      rw [show pathEq (pjoin d cs!"./x") (((i.withPath d).withTarget []).withTarget cs!"./x").getPath = true from
        pathEq_same _, Bool.true_or]
    unfold aliasFieldPlugin Verif.aliasFieldPlugin
    simp only [show (host (cfgTurn 0) serJson s).opts.browserField = true from rfl, Bool.not_true,
      Bool.false_eq_true, if_false, hp.fields, List.find?_cons, hm]
    cases n with
    | zero => exact (rfl : Crash.fuel = .fuel)
    | succ n =>
      have hc : aliasChain [(cs!"./x", .target d')] (n + 1) (.target d') = some (.target d') := by
        rcases h with ⟨-, rfl⟩ | ⟨-, rfl⟩ <;> rfl
      simp only [hc, hp.absDir]
      have hg : (((((i.withPath d).withTarget []).withTarget cs!"./x").withPath d).withTarget d').getPath = d' := by
        rcases h with ⟨rfl, rfl⟩ | ⟨rfl, rfl⟩ <;> rfl
      show Doomed ((resolveAsFile (host (cfgTurn 0) serJson s) _).bind fun r =>
        andThen r (resolveAsDir (host (cfgTurn 0) serJson s) (n + 1)))
      refine Sat.bind (P := fun s => ∃ i : Info, s = .resolving i ∧ i.getPath = d') ?_ ?_
      · unfold resolveAsFile
        simp only [show (host (cfgTurn 0) serJson s).opts.enforceExtension.getD false = false from rfl,
          show (host (cfgTurn 0) serJson s).opts.extensions = [] from rfl, Bool.false_eq_true, if_false, hg]
        intro b hb
        have hb : fsAfter.isFile d' = b := hb
        rw [turn_isFile h.symm] at hb
        subst hb
        exact ⟨_, rfl, hg⟩
      · rintro _ ⟨j, rfl, hj⟩
        exact ih h.symm j hj

theorem turn_call (fuel : Nat) :
    Doomed (Live.prog (host (cfgTurn 0) serJson fuel) fuel (.resolve cs!"/" cs!"/a")) := by
  have h : Swing cs!"/a" cs!"/b" := .inl ⟨rfl, rfl⟩
  refine Sat.bind (P := fun _ => False) ?_ fun _ h => h.elim
  unfold resolve
  refine Sat.bind (P := fun _ => False) ?_ fun _ h => h.elim
  unfold resolveStats
  simp only [show (host (cfgTurn 0) serJson fuel).opts.tsconfig = none from rfl]
  cases fuel with
  | zero => exact (rfl : Crash.fuel = .fuel)
  | succ n =>
    rw [resolveInner]
    refine Sat.bind (P := fun _ => False) ?_ fun _ h => h.elim
    unfold aliasPlugin
    rw [show (host (cfgTurn 0) serJson (n + 1)).opts.alias = [] from rfl]
    show Doomed ((pkgStage (host (cfgTurn 0) serJson (n + 1)) n ⟨cs!"/", parseRequest cs!"/a"⟩).bind _)
    unfold pkgStage
    rw [bind_assoc]
    refine turn_load h (n + 1) fun p hp => ?_
    have hi : importsPlugin (host (cfgTurn 0) serJson (n + 1)) n (some p) ⟨cs!"/", parseRequest cs!"/a"⟩ = .crash .fuel ∨
        importsPlugin (host (cfgTurn 0) serJson (n + 1)) n (some p) ⟨cs!"/", parseRequest cs!"/a"⟩ =
          .ret (.resolving ⟨cs!"/", parseRequest cs!"/a"⟩) := by
      cases n with
      | zero => exact .inl rfl
      | succ n => exact .inr rfl
    rcases hi with hi | hi
    · simp only [hi]
      exact (rfl : Crash.fuel = .fuel)
    · simp only [hi]
      have ha : aliasFieldPlugin (host (cfgTurn 0) serJson (n + 1)) n (some p) ⟨cs!"/", parseRequest cs!"/a"⟩ =
          .ret (.resolving ⟨cs!"/", parseRequest cs!"/a"⟩) := by
        unfold aliasFieldPlugin Verif.aliasFieldPlugin
        simp only [show (host (cfgTurn 0) serJson (n + 1)).opts.browserField = true from rfl, Bool.not_true,
          Bool.false_eq_true, if_false, hp.fields, List.find?_cons]
        have hm : ∀ c : Ctx, c.opts.extensions = [] →
            aliasMatches c p ⟨cs!"/", parseRequest cs!"/a"⟩ cs!"./x" = false := by
          intro c hc
          unfold aliasMatches aliasPathMatches
          rw [hc, hp.absDir]
          decide +kernel
        rw [hm _ rfl]
        rfl
      show Doomed (((aliasFieldPlugin (host (cfgTurn 0) serJson (n + 1)) n (some p)
        ⟨cs!"/", parseRequest cs!"/a"⟩)).bind _)
      rw [ha]
      show Doomed ((resolveAsFile (host (cfgTurn 0) serJson (n + 1)) ⟨cs!"/", parseRequest cs!"/a"⟩).bind _)
      unfold resolveAsFile
      intro b hb
      have hb : fsAfter.isFile cs!"/a" = b := hb
      rw [turn_isFile h] at hb
      subst hb
      exact turn_dir h (n + 1) n _ rfl

/-- The caches are as they were, and the third call has `p` left to do. -/
structure Stuck (s : Sys) : Prop where
  fs : s.fs = fsAfter
  shared : s.shared = sharedTurn
  task : ∃ t, s.tasks[2]? = some t ∧ t.rid = 0 ∧ Doomed t.prog

theorem Stuck.next {s : Sys} (h : Stuck s) : Stuck (s.next cfgTurn serJson (.step 2 0)) := by
  obtain ⟨h1, h2, t, h3, h4, h5⟩ := h
  have hl : 2 < s.tasks.length := (List.getElem?_eq_some_iff.1 h3).1
  cases hp : t.prog with
  | ret a => exact ⟨by simp [Sys.next, h3, hp, h1], by simp [Sys.next, h3, hp, h2], t, by simp [Sys.next, h3, hp], h4, h5⟩
  | crash c => exact ⟨by simp [Sys.next, h3, hp, h1], by simp [Sys.next, h3, hp, h2], t, by simp [Sys.next, h3, hp], h4, h5⟩
  | ask q k =>
    rw [hp] at h5
    refine ⟨by simp [Sys.next, h3, hp, h1], by simp [Sys.next, h3, hp, h2],
      { t with prog := k (q.answer s.fs) }, ?_, h4, h5 _ (by rw [h1]; rfl)⟩
    simp only [Sys.next, h3, hp]
    rw [List.getElem?_set_self hl]
  | op o k =>
    rw [hp] at h5
    obtain ⟨hG, h5⟩ := h5
    have key := opT_exec s.shared hG fun _ => 0
    refine ⟨by simp only [Sys.next, h3, hp]; exact h1, ?_,
      { t with prog := k (Op.exec (s.shared.view cfgTurn 0 fun _ => 0) o).1 }, ?_, h4, h5 _ (h2 ▸ key.2)⟩
    · simp only [Sys.next, h3, hp, h4, key.1]
      rw [store_view]
      exact h2
    · simp only [Sys.next, h3, hp, h4]
      rw [List.getElem?_set_self hl]

theorem Stuck.start {s : Sys} (h1 : s.fs = fsAfter) (h2 : s.shared = sharedTurn) (h3 : s.tasks.length = 2)
    (fuel : Nat) : Stuck (s.next cfgTurn serJson (.start 0 (.resolve cs!"/" cs!"/a") fuel)) := by
  refine ⟨h1, h2, ⟨0, s.fs, .resolve cs!"/" cs!"/a", fuel,
    Live.prog (host (cfgTurn 0) serJson fuel) fuel (.resolve cs!"/" cs!"/a")⟩, ?_, rfl, turn_call fuel⟩
  simp only [Sys.next]
  rw [List.getElem?_append_right (by omega), h3]
  rfl

theorem turn_fs : ((Sys.init fsBefore).after cfgTurn serJson histTurn).fs = fsAfter := by
  unfold histTurn Sys.after
  rw [List.foldl_append, List.foldl_cons]
  refine after_fs (P := fun fs => fs = fsAfter) _ _ rfl ?_
  intro fs' h
  simp at h

/-- C45 does not hold, even where no version of the files goes round in circles: at first `/a` leads to `/b`, and
later `/b` to `/a`. The caches know the old file of `/a`, and the call, which starts when the files no longer
change, never ends. -/
theorem C45_stale_violated (fuel k : Nat) (x : Outcome Answer)
    (hx : ((Sys.init fsBefore).after cfgTurn serJson (histTurn ++ .start 0 (.resolve cs!"/" cs!"/a") fuel ::
      List.replicate k (.step 2 0))).ended 2 = some x) : x = .crashed .fuel := by
  have h0 := Stuck.start (s := (Sys.init fsBefore).after cfgTurn serJson histTurn) turn_fs rfl
    (by decide +kernel) fuel
  have h : ∀ k s, Stuck s → Stuck (s.after cfgTurn serJson (List.replicate k (.step 2 0))) := by
    intro k
    induction k with
    | zero => exact fun _ h => h
    | succ k ih => exact fun s h => ih _ h.next
  obtain ⟨-, -, t, h1, -, h2⟩ := h k _ h0
  simp only [Sys.after, List.foldl_append, List.foldl_cons] at hx h1
  simp only [Sys.ended, h1] at hx
  cases hp : t.prog with
  | ret a => rw [hp] at h2; exact h2.elim
  | crash c => rw [hp] at h2 hx; cases hx; exact congrArg _ (show c = .fuel from h2)
  | ask q k => rw [hp] at hx; cases hx
  | op o k => rw [hp] at hx; cases hx

-- each version for itself
example : ((Sys.init fsBefore).after cfgTurn serJson
      (.start 0 (.resolve cs!"/" cs!"/a") 20 :: List.replicate 60 (.step 0 0))).path 0 = some cs!"/b/index" ∧
    ((Sys.init fsAfter).after cfgTurn serJson
      (.start 0 (.resolve cs!"/" cs!"/a") 20 :: List.replicate 60 (.step 0 0))).path 0 = some cs!"/a/index" := by
  decide +kernel

end Verif.Live
