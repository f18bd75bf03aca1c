import Verif.Proofs.Messages
import Verif.Spec.Examples
/-!
# Error messages: C79
-/

namespace Verif

/-- C79: in every history, with files that change at any moment, what the error of a call of `resolve` says
is true. A failure names the request and the directory of the call. An unreadable or broken file was
so at some moment of the call, with the same path. A wrong target, key or `default` is written in
exports or imports of a file as it is or was. A target is not exported only if all that exports give
for it are no files or leave the package. The marker `T0` never gets out. -/
theorem C79_true {cfg : Nat → Config} {ser : Json → Str} {fs : Fs} (l : List Event) (i : Nat)
    (t : Live.Task) (ht : ((Live.Sys.init fs).after cfg ser l).tasks[i]? = some t) (path request : Str)
    (hc : t.call = .resolve path request) (e : Err) (hr : t.prog = .ret (.resolve (.error e))) :
    ErrorTrue (cfg t.rid).opts (Live.During cfg ser fs l i) (Versions fs l) path request e := by
  have h1 := Live.live_ends cfg ser fs l i t ht (.done (.resolve (.error e))) (by rw [hr]; rfl)
  rw [hc] at h1
  obtain ⟨r', h2, h3⟩ := Live.Ends.done_bind h1
  cases h3
  exact (Live.resolve_true (h := Live.host (cfg t.rid) ser t.fuel)
    (fun _ => Live.versions_during) t.fuel path request).returns
    (h2.mono (fun _ _ h => h) fun o r h => ⟨Live.got_hist o r h, Live.got_stamp o r h⟩) e rfl

/-- C79 for `load_side_effects`. Missing: the error may be the marker. -/
theorem C79_sideEffects_partial {cfg : Nat → Config} {ser : Json → Str} {fs : Fs} (l : List Event) (i : Nat)
    (t : Live.Task) (ht : ((Live.Sys.init fs).after cfg ser l).tasks[i]? = some t) (path : Str)
    (hc : t.call = .sideEffects path) (e : Err) (hr : t.prog = .ret (.sideEffects (.error e))) :
    e = .tag ∨ ErrorTrue (cfg t.rid).opts (Live.During cfg ser fs l i) (Versions fs l) path [] e := by
  have h1 := Live.live_ends cfg ser fs l i t ht (.done (.sideEffects (.error e))) (by rw [hr]; rfl)
  rw [hc] at h1
  obtain ⟨r', h2, h3⟩ := Live.Ends.done_bind h1
  cases h3
  exact (Live.sideEffects_true (h := Live.host (cfg t.rid) ser t.fuel)
    (fun _ => Live.versions_during) path).returns
    (h2.mono (fun _ _ h => h) fun o r h => ⟨Live.got_hist o r h, Live.got_stamp o r h⟩) e rfl

/-- The text of the error of call number `i`. -/
def Live.Sys.message (s : Live.Sys) (i : Nat) : Option Str :=
  match s.ended i with
  | some (.done (.resolve (.error e))) => some (e.render serJson)
  | some (.done (.sideEffects (.error e))) => some (e.render serJson)
  | _ => none

/-- A call on its own. -/
def messageOf (o : Opts) (t : Tree) (call : Call) : Option Str :=
  ((Live.Sys.init (treeFs t [])).after (fun _ => config o 0) serJson
    (.start 0 call 20 :: List.replicate 120 (.step 0 0))).message 0

/-- The marker gets out of `load_side_effects`: for a relative path that does not exist the error is
`T0`. -/
theorem C79_marker_violated :
    messageOf optsA (.dir []) (.sideEffects cs!"nowhere") = some cs!"T0" := by
  decide +kernel

/-- A package with a description file. -/
def treeMessage (json : Json) : Tree :=
  .dir [(cs!"p", .dir [(cs!"node_modules", .dir [(cs!"m", .dir [(cs!"index.js", textFile),
    (cs!"package.json", jsonFile json)])])])]

/-- Exports that were wrong and have been put right. -/
def histMessage : List Event :=
  .start 0 (.resolve cs!"/p" cs!"m") 20 :: List.replicate 120 (.step 0 0) ++
    .change (treeFs (treeMessage (.obj [])) []) :: .start 0 (.resolve cs!"/p" cs!"m") 20 ::
    List.replicate 120 (.step 1 0)

/-- What C79 says of exports may be true of an old version only: the second call still complains about
the `default`, on its own it finds the package. -/
theorem C79_old_sharp :
    ((Live.Sys.init (treeFs (treeMessage (.obj [(cs!"exports",
      .obj [(cs!"default", .str cs!"./a.js"), (cs!"node", .str cs!"./b.js")])])) [])).after
      (fun _ => config optsA 0) serJson histMessage).message 1 = some (Err.defaultNotLast.render serJson) ∧
    messageOf optsA (treeMessage (.obj [])) (.resolve cs!"/p" cs!"m") = none := by
  decide +kernel

-- the errors of the theorem occur
example : messageOf optsA (treeMessage (.obj [])) (.resolve cs!"/p" cs!"./a") =
    some cs!"Resolve './a' failed in '/p'" := by decide +kernel
example : messageOf optsA (treeMessage (.obj [(cs!"exports", .obj [(cs!"./a", .str cs!"./a.js")])]))
    (.resolve cs!"/p" cs!"m/a") = some ((Err.notExported cs!"m/a").render serJson) := by decide +kernel
example : messageOf optsA (treeMessage (.obj [(cs!"exports", .obj [(cs!"./a", .str cs!"/a.js")])]))
    (.resolve cs!"/p" cs!"m/a") = some ((Err.exportTarget cs!"/a.js").render serJson) := by decide +kernel
example : messageOf optsA (treeMessage (.obj [(cs!"exports",
      .obj [(cs!"default", .str cs!"./a.js"), (cs!"node", .str cs!"./b.js")])]))
    (.resolve cs!"/p" cs!"m") = some (Err.defaultNotLast.render serJson) := by decide +kernel
example : messageOf optsA (treeMessage (.obj [(cs!"exports",
      .obj [(cs!"./a", .str cs!"./a.js"), (cs!"node", .str cs!"./b.js")])]))
    (.resolve cs!"/p" cs!"m") = some (Err.mixedKeys.render serJson) := by decide +kernel
example : messageOf optsA (treeMessage (.obj [(cs!"sideEffects", .str cs!"x")]))
    (.sideEffects cs!"/p/node_modules/m") =
      some ((Err.sideEffects cs!"/p/node_modules/m/package.json" (.str cs!"x")).render serJson) := by
  decide +kernel

end Verif
