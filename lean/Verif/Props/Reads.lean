import Verif.Proofs.Reread
import Verif.Props.Live
/-!
# Properties of the files that a call reads: C71 and C72
-/

namespace Verif.Live

variable {cfg : Nat → Config} {ser : Json → Str} {fs : Fs}

/-- What a call looks at, with the answers it has got so far. -/
theorem call_looks {l : List Event} {i : Nat} {t : Task}
    (ht : ((Sys.init fs).after cfg ser l).tasks[i]? = some t) {q : Query}
    (hq : ((Sys.init fs).after cfg ser l).look i = some q) :
    LookOk cfg ser fs l i t q := by
  let Q : Query → Prop := LookOk cfg ser fs l i t
  have hQ : ∀ q, q.mild → Q q := fun q h => by cases q <;> first | trivial | exact h.elim
  let h := host (cfg t.rid) ser t.fuel
  have hload : ∀ p, (loadPkg h p).Looks (Looked cfg ser fs l i) (Got cfg ser fs l i) Q (fun _ => True) :=
    fun p => looks_load hQ (fun _ _ => trivial) (fun desc d h1 h2 h3 =>
      have h4 : DescriptionOf cfg ser fs l i t (pjoin d desc) := ⟨desc, d, h1, rfl, h2, h3⟩
      ⟨h4, fun _ => .inl h4, fun _ => .inl h4, fun _ _ _ _ _ _ => .inl h4⟩)
      (fun _ _ _ _ _ => trivial) (fun _ _ => trivial) (fun _ _ _ _ _ _ => trivial) _ p
  have hp : (Live.prog h t.fuel t.call).Looks (Looked cfg ser fs l i) (Got cfg ser fs l i) Q
      (fun _ => True) := by
    refine looks_prog hQ (fun _ _ => trivial) hload _ _ ?_ ?_
    · exact fun path request location hc hl => ⟨.inr ⟨⟨path, request, hc⟩, location, hl, .inl rfl⟩,
        fun p hs => .inr ⟨⟨path, request, hc⟩, location, hl, .inr hs⟩⟩
    · exact fun path request hc hs p hp => ⟨⟨path, request, hc⟩, hs, hp⟩
  have h1 := looks_reach hp (live_reach cfg ser fs l i t ht)
  unfold Sys.look at hq
  rw [ht] at hq
  dsimp only at hq
  split at hq
  · rename_i q' k hk
    cases hq
    rw [hk] at h1
    exact h1.1
  · cases hq

/-- C71: in any history, with any changes of files at any moment, a call reads only description files
of directories it has seen, and `resolve` the tsconfig and files it has found for `extends`. -/
theorem C71_read (l : List Event) (i : Nat) (t : Task)
    (ht : ((Sys.init fs).after cfg ser l).tasks[i]? = some t) (p : Str)
    (hq : ((Sys.init fs).after cfg ser l).look i = some (.read p)) :
    DescriptionOf cfg ser fs l i t p ∨ TsconfigOf cfg ser fs l i t p :=
  call_looks ht hq

/-- C71: in any history, with any changes of files at any moment, a call asks only for the modification
times of description files of directories it has seen. -/
theorem C71_mtime (l : List Event) (i : Nat) (t : Task)
    (ht : ((Sys.init fs).after cfg ser l).tasks[i]? = some t) (p : Str)
    (hq : ((Sys.init fs).after cfg ser l).look i = some (.mtime p)) :
    DescriptionOf cfg ser fs l i t p :=
  call_looks ht hq

/-- C71: in any history, with any changes of files at any moment, links are followed only by `resolve`
with symlinks, for a file it has seen. -/
theorem C71_canon (l : List Event) (i : Nat) (t : Task)
    (ht : ((Sys.init fs).after cfg ser l).tasks[i]? = some t) (p : Str)
    (hq : ((Sys.init fs).after cfg ser l).look i = some (.canon p)) :
    (∃ path request, t.call = .resolve path request) ∧ (cfg t.rid).opts.symlinks = true ∧
      SawFile cfg ser fs l i p :=
  call_looks ht hq

/-- C71: without a description file and a tsconfig, no call reads any file, whatever changes. -/
theorem C71_nothing (l : List Event) (i : Nat) (t : Task)
    (ht : ((Sys.init fs).after cfg ser l).tasks[i]? = some t)
    (hd : (cfg t.rid).opts.descriptionFile = none) (hts : (cfg t.rid).opts.tsconfig = none) (p : Str) :
    ((Sys.init fs).after cfg ser l).look i ≠ some (.read p) := by
  intro hq
  rcases C71_read l i t ht p hq with ⟨desc, _, h, _⟩ | ⟨_, location, h, _⟩
  · rw [hd] at h; cases h
  · rw [hts] at h; cases h

/-! ## C72 -/

/-- C72: in any history, with any changes of other files at any moment: once a call of a resolver has
stored the package of a directory, no later call of the resolver reads the description file of the
directory, however the directory is spelled, unless as a tsconfig. This holds as long as the
modification times of the file lie less than the duration of the file cache apart. -/
theorem C72_once (l l' : List Event) (i : Nat) (t : Task)
    (ht : ((Sys.init fs).after cfg ser (l ++ l')).tasks[i]? = some t) (hlater : Later cfg ser fs l i)
    (d desc : Str) (hdesc : (cfg t.rid).opts.descriptionFile = some desc) (hrel : isAbs desc = false)
    (hd : isAbs d = true) (hs : StoredBy cfg ser fs l t.rid d)
    (hset : Settled fs (l ++ l') d desc (cfg t.rid).duration) (p : Str)
    (hp : comps p = comps (pjoin d desc))
    (hq : ((Sys.init fs).after cfg ser (l ++ l')).look i = some (.read p)) :
    TsconfigOf cfg ser fs (l ++ l') i t p :=
  later_reads hlater ht hdesc hrel hd hs hset hp hq

/-- C72 on files that stand still, without a tsconfig: a resolver made by `Resolver::new` does not read
a description file again. -/
theorem C72_static (hfs : fs.Lawful) (l l' : List Event) (i : Nat) (t : Task)
    (ht : ((Sys.init fs).after cfg ser (l ++ l')).tasks[i]? = some t) (hlater : Later cfg ser fs l i)
    (hstill : ∀ fs', .change fs' ∉ l ++ l') (hdur : 0 < (cfg t.rid).duration)
    (hts : (cfg t.rid).opts.tsconfig = none)
    (d desc : Str) (hdesc : (cfg t.rid).opts.descriptionFile = some desc) (hrel : isAbs desc = false)
    (hd : isAbs d = true) (hs : StoredBy cfg ser fs l t.rid d) (p : Str)
    (hp : comps p = comps (pjoin d desc)) :
    ((Sys.init fs).after cfg ser (l ++ l')).look i ≠ some (.read p) := by
  intro hq
  have hset : Settled fs (l ++ l') d desc (cfg t.rid).duration := by
    intro fs1 fs2 h1 h2 d1 d2 hd1 hd2 a b ha hb
    have e1 : fs1 = fs := h1.resolve_right (hstill _)
    have e2 : fs2 = fs := h2.resolve_right (hstill _)
    subst e1 e2
    have hab1 : isAbs d1 = true := by rw [isAbs_of_comps hd1]; exact hd
    rw [hfs.mtime _ _ (isAbs_pjoin_left desc hab1) (sim_pjoin hab1 (hd1.trans hd2.symm) desc), hb] at ha
    cases ha
    omega
  obtain ⟨-, location, h1, -⟩ := C72_once l l' i t ht hlater d desc hdesc hrel hd hs hset p hp hq
  rw [hts] at h1
  cases h1

/-- How often call number `i` reads the file `p` in the steps `l` from the state `s`. -/
def reads (cfg : Nat → Config) (ser : Json → Str) (i : Nat) (p : Str) : Sys → List Event → Nat
  | _, [] => 0
  | s, e :: l =>
    (match e with
    | .step j _ => if j = i ∧ s.look i = some (.read p) then 1 else 0
    | _ => 0) + reads cfg ser i p (s.next cfg ser e) l

/-- Two calls of one resolver, one after the other. -/
def twice (path request : Str) : List Event :=
  .start 0 (.resolve path request) 20 :: List.replicate 40 (.step 0 0) ++
    .start 0 (.resolve path request) 20 :: List.replicate 40 (.step 1 0)

/-- C72: a resolver made by `Resolver::default()` has a file cache with a duration of zero, and so every
call reads every description file again, though nothing changes. -/
theorem C72_default_rereads : let c : Nat → Config := fun _ => { config optsA 0 with duration := 0 }
    let s := Sys.init (treeFs (treeM cs!"./a.js" 0) [])
    reads c serJson 0 cs!"/p/package.json" s (twice cs!"/p" cs!"./a.js") = 1 ∧
      reads c serJson 1 cs!"/p/package.json" s (twice cs!"/p" cs!"./a.js") = 1 := by
  decide +kernel

/-- C72: a description file that is no JSON is never stored, and read again by every call. -/
theorem C72_malformed_rereads :
    let s := Sys.init (treeFs (.dir [(cs!"p", .dir [(cs!"package.json", textFile), (cs!"a.js", textFile)])]) [])
    reads cfgCh serJson 0 cs!"/p/package.json" s (twice cs!"/p" cs!"./a.js") = 1 ∧
      reads cfgCh serJson 1 cs!"/p/package.json" s (twice cs!"/p" cs!"./a.js") = 1 := by
  decide +kernel

/-! ## The hypotheses are met -/

/-- The looks of one call of `resolve`, step by step. -/
def looksOf (o : Opts) (tree : Tree) (path request : Str) (n : Nat) : List (Option Query) :=
  (List.range n).map fun k => ((Sys.init (treeFs tree [])).after (fun _ => config o 0) serJson
    (.start 0 (.resolve path request) 20 :: List.replicate k (.step 0 0))).look 0

-- the description file of `/p` is read, after the directory and the file are seen, and the file found
-- is canonicalised
example : let looks := (looksOf Opts.default (treeM cs!"./a.js" 0) cs!"/p" cs!"./a.js" 40).filterMap id
    (looks.filter fun q => match q with
      | .read _ | .mtime _ | .canon _ => true
      | _ => false).eraseDups =
    [.read cs!"/p/package.json", .mtime cs!"/p/package.json", .canon cs!"/p/./a.js"] := by
  decide +kernel

/-- `/p/tsconfig.json` extends `/p/base.json`. -/
def treeExt : Tree :=
  .dir [(cs!"p", .dir [
    (cs!"tsconfig.json", jsonFile (.obj [(cs!"extends", .str cs!"./base.json")])),
    (cs!"base.json", jsonFile (.obj [])),
    (cs!"a.js", textFile)])]

-- the tsconfig and the one it extends are read, and nothing else
example : let looks := (looksOf { Opts.default with tsconfig := some cs!"/p/tsconfig.json" } treeExt
      cs!"/p" cs!"./a.js" 60).filterMap id
    (looks.filter fun q => match q with
      | .read _ => true
      | _ => false).eraseDups = [.read cs!"/p/tsconfig.json", .read cs!"/p/./base.json"] := by
  decide +kernel

-- without a description file nothing is read, and the call succeeds
example : let o := { Opts.default with descriptionFile := none }
    let looks := (looksOf o (treeM cs!"./a.js" 0) cs!"/p" cs!"./a.js" 40).filterMap id
    (looks.filter fun q => match q with
      | .read _ => true
      | _ => false) = [] ∧
    ((Sys.init (treeFs (treeM cs!"./a.js" 0) [])).after (fun _ => config o 0) serJson
      (.start 0 (.resolve cs!"/p" cs!"./a.js") 20 :: List.replicate 40 (.step 0 0))).path 0 =
      some cs!"/p/a.js" := by
  decide +kernel

-- C72: the first call reads the file and stores the package, the second one does not read it, and both
-- find the same
example : let s := Sys.init (treeFs (treeM cs!"./a.js" 0) [])
    reads cfgCh serJson 0 cs!"/p/package.json" s (twice cs!"/p" cs!"./a.js") = 1 ∧
      reads cfgCh serJson 1 cs!"/p/package.json" s (twice cs!"/p" cs!"./a.js") = 0 ∧
      (s.after cfgCh serJson (twice cs!"/p" cs!"./a.js")).path 0 = some cs!"/p/a.js" ∧
      (s.after cfgCh serJson (twice cs!"/p" cs!"./a.js")).path 1 = some cs!"/p/a.js" := by
  decide +kernel

/-- The directory for which call number `i` is about to store a package. -/
def stores (s : Sys) (i : Nat) : Option Str :=
  match s.tasks[i]? with
  | some t =>
    match t.prog with
    | .op (.putPkg d (some _)) _ => some d
    | _ => none
  | none => none

theorem storedBy_of {l1 l2 : List Event} {i rid : Nat} {d : Str} {seed : Nat}
    (h : stores ((Sys.init fs).after cfg ser l1) i = some d)
    (hr : (((Sys.init fs).after cfg ser l1).tasks[i]?).map (·.rid) = some rid) :
    StoredBy cfg ser fs (l1 ++ .step i seed :: l2) rid d := by
  unfold stores at h
  split at h
  · rename_i t ht
    split at h
    · rename_i pkg k hp
      cases h
      obtain ⟨t', h1, h2⟩ := task_rid (cfg := cfg) (ser := ser) (.step i seed :: l2) _ t ht
      rw [ht] at hr
      refine ⟨i, t', pkg, by rw [after_append]; exact h1, h2.trans (Option.some.inj hr), ?_⟩
      exact ⟨l1, seed, l2, t, k, rfl, ht, hp, rfl⟩
    · cases h
  · cases h

-- C72: the first call stores the package before the second one starts
example : StoredBy cfgCh serJson (treeFs (treeM cs!"./a.js" 0) [])
    (.start 0 (.resolve cs!"/p" cs!"./a.js") 20 :: List.replicate 40 (.step 0 0)) 0 cs!"/p" ∧
    Later cfgCh serJson (treeFs (treeM cs!"./a.js" 0) [])
      (.start 0 (.resolve cs!"/p" cs!"./a.js") 20 :: List.replicate 40 (.step 0 0)) 1 := by
  constructor
  · exact storedBy_of (l1 := .start 0 (.resolve cs!"/p" cs!"./a.js") 20 :: List.replicate 8 (.step 0 0))
      (seed := 0) (l2 := List.replicate 31 (.step 0 0)) (by decide +kernel) (by decide +kernel)
  · have h : (((Sys.init (treeFs (treeM cs!"./a.js" 0) [])).after cfgCh serJson
        (.start 0 (.resolve cs!"/p" cs!"./a.js") 20 :: List.replicate 40 (.step 0 0))).tasks[1]?).isNone := by
      decide +kernel
    exact Option.isNone_iff_eq_none.1 h

end Verif.Live
