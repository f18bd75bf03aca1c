import Verif.Proofs.LiveHistory
import Verif.Spec.Examples
/-!
# Ignored results: C61
-/

namespace Verif

/-- C61: in every history, with changes of files between calls, a result is `Ignored` only if an entry of
the alias option says so or, with browser_field on, an entry `"key": false` of the `browser` map of some
file as it is or was. -/
theorem C61_said {cfg : Nat → Config} {ser : Json → Str} {fs : Fs} (l : List Event) (t : Task)
    (ht : t ∈ ((Sys.init fs).after cfg ser l).tasks) (path request : Str)
    (hc : t.call = .resolve path request) (hd : t.prog = .ret (.resolve (.ok .ignored))) :
    SaysIgnored (cfg t.rid).opts (Versions fs l) :=
  system_ignored ht hc hd

/-- C61 with files that change at any moment. -/
theorem C61_said_live {cfg : Nat → Config} {ser : Json → Str} {fs : Fs} (l : List Event) (i : Nat)
    (t : Live.Task) (ht : ((Live.Sys.init fs).after cfg ser l).tasks[i]? = some t) (path request : Str)
    (hc : t.call = .resolve path request) (hr : t.prog = .ret (.resolve (.ok .ignored))) :
    SaysIgnored (cfg t.rid).opts (Versions fs l) := by
  have h1 := Live.live_ends cfg ser fs l i t ht (.done (.resolve (.ok .ignored))) (by rw [hr]; rfl)
  rw [hc] at h1
  obtain ⟨r', h2, h3⟩ := Live.Ends.done_bind h1
  cases h3
  exact Live.resolve_ignored (h := Live.host (cfg t.rid) ser t.fuel) (h2.mono Live.seen_among Live.got_hist)

/-- Whether call number `i` returned `Ignored`. -/
def Sys.ignored (s : Sys) (i : Nat) : Bool :=
  match s.outcome i with
  | some (.done (.resolve (.ok .ignored))) => true
  | _ => false

/-- As `Sys.ignored`. -/
def Live.Sys.ignored (s : Live.Sys) (i : Nat) : Bool :=
  match s.ended i with
  | some (.done (.resolve (.ok .ignored))) => true
  | _ => false

/-- A package that ignores one of its files, or has no description file. -/
def treeIgnored (there : Bool) : Tree :=
  .dir [(cs!"p", .dir ((cs!"a.js", textFile) :: if there then
    [(cs!"package.json", jsonFile (.obj [(cs!"browser", .obj [(cs!"./a.js", .bool false)])]))] else []))]

/-- browser_field on. -/
def optsIgnored : Opts := { optsA with browserField := true }

/-- Two calls, with the description file deleted in between. -/
def histIgnored : List Event :=
  .start 0 (.resolve cs!"/p" cs!"./a") 20 :: List.replicate 20 (.step 0 0) ++
    .change (treeFs (treeIgnored false) []) :: .start 0 (.resolve cs!"/p" cs!"./a") 20 ::
    List.replicate 20 (.step 1 0)

/-- The version of the file that C61 speaks of may be an old one: the second call returns `Ignored`
though no file says so any more. -/
theorem C61_old_sharp :
    ((Sys.init (treeFs (treeIgnored true) [])).after (fun _ => config optsIgnored 0) serJson
      histIgnored).ignored 1 = true ∧
    ((Sys.init (treeFs (treeIgnored false) [])).after (fun _ => config optsIgnored 0) serJson
      histIgnored).ignored 0 = false := by
  decide +kernel

-- an ignored alias
example : ((Sys.init (treeFs (treeIgnored false) [])).after
    (fun _ => config { optsA with alias := [(cs!"m", .ignored)] } 0) serJson
    (.start 0 (.resolve cs!"/p" cs!"m/x") 20 :: List.replicate 20 (.step 0 0))).ignored 0 = true := by
  decide +kernel

-- an ignored entry of a browser map, with looks at files as steps
example : ((Live.Sys.init (treeFs (treeIgnored true) [])).after (fun _ => config optsIgnored 0) serJson
    (.start 0 (.resolve cs!"/p" cs!"./a") 20 :: List.replicate 40 (.step 0 0))).ignored 0 = true := by
  decide +kernel

end Verif
