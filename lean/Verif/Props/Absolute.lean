import Verif.Proofs.Absolute
import Verif.Props.Reads
/-!
# Properties of calls with absolute paths: C73
-/

namespace Verif.Live

variable {cfg : Nat → Config} {ser : Json → Str} {fs : Fs}

/-- C73: in any history, with any changes of files at any moment and any other calls, a call with an
absolute path, and an absolute tsconfig if any, looks at absolute paths only. -/
theorem C73_absolute (l : List Event) (i : Nat) (t : Task)
    (ht : ((Sys.init fs).after cfg ser l).tasks[i]? = some t) (habs : t.call.abs)
    (hts : (cfg t.rid).opts.tsconfigAbs) (q : Query)
    (hq : ((Sys.init fs).after cfg ser l).look i = some q) (p : Str) (hp : q.path = some p) :
    isAbs p = true := by
  have h1 := looks_reach ((prog_abs (h := host (cfg t.rid) ser t.fuel) t.fuel t.call habs hts).anti
    (fun _ _ _ => trivial) fun o r => got_keyed o r) (live_reach cfg ser fs l i t ht)
  unfold Sys.look at hq
  rw [ht] at hq
  dsimp only at hq
  split at hq
  · rename_i q' k hk
    cases hq
    rw [hk] at h1
    exact h1.1 p hp
  · cases hq

/-- C73: the current directory does not matter, in any history with any changes of files at any moment:
if all calls have absolute paths, every call ends in the same way. -/
theorem C73_directory {fs' : Fs} (hfs : SameFiles fs fs') {l l' : List Event} (hl : SameEvents l l')
    (hstart : ∀ rid call fuel, .start rid call fuel ∈ l → call.abs ∧ (cfg rid).opts.tsconfigAbs) (i : Nat) :
    ((Sys.init fs).after cfg ser l).ended i = ((Sys.init fs').after cfg ser l').ended i := by
  have h := core_after hl hstart (cfg := cfg) (ser := ser) (s := Sys.init fs) (s' := Sys.init fs')
    ⟨keyed_init, fun _ h => by cases h⟩ hfs rfl
  have h2 := congrArg (·[i]?) (congrArg Prod.snd h)
  simp only [Sys.core, List.getElem?_map] at h2
  unfold Sys.ended
  cases h3 : ((Sys.init fs).after cfg ser l).tasks[i]? with
  | none =>
    rw [h3] at h2
    cases h4 : ((Sys.init fs').after cfg ser l').tasks[i]? with
    | none => rfl
    | some t' => rw [h4] at h2; cases h2
  | some t =>
    rw [h3] at h2
    cases h4 : ((Sys.init fs').after cfg ser l').tasks[i]? with
    | none => rw [h4] at h2; cases h2
    | some t' =>
      rw [h4] at h2
      have he := Option.some.inj h2
      simp only [Prod.mk.injEq] at he
      exact congrArg outcome he.2.2.2

/-- C73 on files that stand still, with symbolic links. -/
theorem C73_links (t : Links) (cwd cwd' : List Str) (l : List Event) (hstill : ∀ fs', .change fs' ∉ l)
    (hstart : ∀ rid call fuel, .start rid call fuel ∈ l → call.abs ∧ (cfg rid).opts.tsconfigAbs) (i : Nat) :
    ((Sys.init (linkFs t cwd)).after cfg ser l).ended i =
      ((Sys.init (linkFs t cwd')).after cfg ser l).ended i := by
  refine C73_directory (sameFiles_links t cwd cwd') ?_ hstart i
  clear hstart
  induction l with
  | nil => exact .nil
  | cons e l ih =>
    have ih := ih fun fs' h => hstill fs' (List.mem_cons_of_mem _ h)
    cases e with
    | start rid call fuel => exact .start _ _ _ ih
    | change fs' => exact absurd List.mem_cons_self (hstill fs')
    | step i seed => exact .step _ _ ih

/-- `/p` with `a.js` and `q/a.js`. -/
def treeCwd : Tree :=
  .dir [(cs!"p", .dir [(cs!"a.js", textFile), (cs!"q", .dir [(cs!"a.js", textFile)]),
    (cs!"tsconfig.json", jsonFile (.obj [(cs!"compilerOptions", .obj [(cs!"baseUrl", .str cs!"."),
      (cs!"paths", .obj [(cs!"m", .arr [.str cs!"./q/a.js"])])])]))])]

/-- One call. -/
def once (path request : Str) : List Event :=
  .start 0 (.resolve path request) 20 :: List.replicate 60 (.step 0 0)

/-- Where a call ends on `treeCwd`, in a current directory. -/
def onceIn (o : Opts) (cwd : List Str) (path request : Str) : Option Str :=
  ((Sys.init (treeFs treeCwd cwd)).after (fun _ => config o 0) serJson (once path request)).path 0

/-- C73 is about absolute paths: with a relative one the current directory matters. -/
theorem C73_relative_base : let o := { Opts.default with descriptionFile := none }
    onceIn o [cs!"p"] cs!"." cs!"./a.js" = some cs!"/p/a.js" ∧
      onceIn o [cs!"p", cs!"q"] cs!"." cs!"./a.js" = some cs!"/p/q/a.js" := by
  decide +kernel

/-- C73 is about absolute tsconfigs: with a relative one the current directory matters, though the path
is absolute. -/
theorem C73_relative_tsconfig :
    let o := { Opts.default with descriptionFile := none, tsconfig := some cs!"tsconfig.json" }
    onceIn o [cs!"p"] cs!"/p" cs!"m" = some cs!"/p/q/a.js" ∧ onceIn o [] cs!"/p" cs!"m" = none := by
  decide +kernel

/-! ## The hypotheses are met -/

-- a call that looks at seven kinds of paths, all of them absolute, and succeeds
example : let o := { Opts.default with tsconfig := some cs!"/p/tsconfig.json" }
    let looks := (looksOf o treeCwd cs!"/p" cs!"m" 60).filterMap id
    looks.length > 10 ∧ (∀ q ∈ looks, ∀ p ∈ q.path, isAbs p = true) ∧
    onceIn o [] cs!"/p" cs!"m" = some cs!"/p/q/a.js" := by
  decide +kernel

example : SameFiles (treeFs treeCwd [cs!"p"]) (treeFs treeCwd [cs!"p", cs!"q"]) := sameFiles_tree ..

-- the file systems are not the same
example : (treeFs treeCwd [cs!"p"]).isFile cs!"tsconfig.json" = true ∧
    (treeFs treeCwd [cs!"p", cs!"q"]).isFile cs!"tsconfig.json" = false := by
  decide +kernel

-- two histories with a change of files, and of the current directory, between calls
example : SameEvents (.change (treeFs treeCwd [cs!"p"]) :: once cs!"/p" cs!"m")
    (.change (treeFs treeCwd []) :: once cs!"/p" cs!"m") := by
  refine .change (sameFiles_tree ..) (.start _ _ _ ?_)
  induction 60 with
  | zero => exact .nil
  | succ n ih => exact .step _ _ ih

end Verif.Live
