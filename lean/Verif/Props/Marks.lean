import Verif.Proofs.Marks
import Verif.Spec.Examples
import Verif.Props.Result
/-!
# Where the query and the fragment of a result come from: C43
-/

namespace Verif

/-- C43, what holds in every history, for all options and files: the query and the fragment of a result are
those of the request, or those of a target of an exports or imports map of some description file as it is or
was, filled in, or, with a tsconfig, empty.
Missing: that they are those of the request (`C43_query_violated`). -/
theorem C43_sources_partial {cfg : Nat → Config} {ser : Json → Str} {fs : Fs} (l : List Event) (t : Task)
    (ht : t ∈ ((Sys.init fs).after cfg ser l).tasks) (path request : Str) (i : Info)
    (hc : t.call = .resolve path request) (hd : t.prog = .ret (.resolve (.ok (.info i)))) :
    MarksFrom (cfg t.rid).opts (Versions fs l) request i.request.query i.request.fragment :=
  system_marks ht hc hd

/-- As `C43_sources_partial`, with files that change at any moment.
Missing: that they are those of the request (`C43_query_violated`). -/
theorem C43_sources_live_partial {cfg : Nat → Config} {ser : Json → Str} {fs : Fs} (l : List Event) (i : Nat)
    (t : Live.Task) (ht : ((Live.Sys.init fs).after cfg ser l).tasks[i]? = some t) (path request : Str)
    (j : Info) (hc : t.call = .resolve path request) (hr : t.prog = .ret (.resolve (.ok (.info j)))) :
    MarksFrom (cfg t.rid).opts (Versions fs l) request j.request.query j.request.fragment := by
  have h1 := Live.live_ends cfg ser fs l i t ht (.done (.resolve (.ok (.info j)))) (by rw [hr]; rfl)
  rw [hc] at h1
  obtain ⟨r', h2, h3⟩ := Live.Ends.done_bind h1
  cases h3
  exact Live.resolve_marks (h := Live.host (cfg t.rid) ser t.fuel) (h2.mono Live.seen_among Live.got_hist)

/-- C43 where the targets of all exports and imports maps have no query, no fragment and nothing to fill in:
the result has the query and the fragment of the request, or neither.
Missing: that it is the first (`C43_query_violated`); other targets (`C43_sources_partial`). -/
theorem C43_plain_partial {cfg : Nat → Config} {ser : Json → Str} {fs : Fs} (l : List Event) (t : Task)
    (ht : t ∈ ((Sys.init fs).after cfg ser l).tasks) (path request : Str) (i : Info)
    (hc : t.call = .resolve path request) (hd : t.prog = .ret (.resolve (.ok (.info i))))
    (hp : ∀ fs' name v s, Versions fs l fs' → name = cs!"exports" ∨ name = cs!"imports" →
      IsField fs' name v → s ∈ v.strings → PlainTarget s) :
    (∃ target, IsSplit request target i.request.query i.request.fragment) ∨
      i.request.query = [] ∧ i.request.fragment = [] :=
  (system_marks ht hc hd).plain hp

/-- A file of a tree has only plain targets. -/
def plainMarks (d : Doc) : Bool :=
  match d.json with
  | none => true
  | some j => [cs!"exports", cs!"imports"].all fun name =>
    match j.get name with
    | none => true
    | some v => v.strings.all fun t => !t.contains '?' && !t.tail.contains '#' && !t.contains '*' &&
      t.getLast? != some '/'

theorem plain_treeFs {t : Tree} {cwd : List Str} (h : t.allDoc plainMarks = true) (name : Str) (v : Json)
    (s : Str) (hn : name = cs!"exports" ∨ name = cs!"imports") (hf : IsField (treeFs t cwd) name v)
    (hs : s ∈ v.strings) : PlainTarget s := by
  obtain ⟨p, doc, json, h1, h2, h3⟩ := hf
  have h4 := allDoc_read h h1
  unfold plainMarks at h4
  rw [h2] at h4
  simp only [List.all_eq_true] at h4
  have h5 := h4 name (by rcases hn with rfl | rfl <;> simp)
  rw [h3] at h5
  simp only [List.all_eq_true] at h5
  have h6 := h5 s hs
  simp at h6
  exact ⟨h6.1.1.1, h6.1.1.2, h6.1.2, h6.2⟩

/-- A package with an imports map and an exports map with plain targets. -/
def treePlain : Tree :=
  .dir [(cs!"p", .dir [
    (cs!"a.js", textFile),
    (cs!"package.json", jsonFile (.obj [(cs!"imports", .obj [(cs!"#a", .str cs!"./a.js")]),
      (cs!"exports", .obj [(cs!".", .str cs!"./a.js")])]))])]

-- the hypotheses of C43_plain_partial are met by calls of both kinds
example : (∀ fs' name v s, Versions (treeFs treePlain []) [] fs' → name = cs!"exports" ∨ name = cs!"imports" →
      IsField fs' name v → s ∈ v.strings → PlainTarget s) ∧
    (resolve (treeEnv optsA treePlain) 20 cs!"/p" cs!"#a?q").freshInfo =
      some ⟨cs!"/p/a.js", ⟨[], [], [], .relative⟩⟩ ∧
    (resolve (treeEnv optsA treePlain) 20 cs!"/p" cs!"./a?q").freshInfo =
      some ⟨cs!"/p/a.js", ⟨[], cs!"?q", [], .relative⟩⟩ := by
  refine ⟨fun fs' name v s hv hn hf hs => ?_, by decide +kernel, by decide +kernel⟩
  rcases hv with rfl | hv
  · exact plain_treeFs (t := treePlain) (by decide +kernel) name v s hn hf hs
  · cases hv

-- each way a query can come about, but the request's (see `C43_query_violated` for a filled in one)
example : MarksFrom optsA (fun fs => fs = treeFs treeQ []) cs!"m/x?q" cs!"?q.js" [] :=
  .mapped (treeFs treeQ []) cs!"exports" (.obj [(cs!"./*", .str cs!"./lib/*.js")]) cs!"./lib/*.js"
    cs!"./lib/x?q.js" cs!"./lib/x" rfl (.inl rfl)
    ⟨cs!"/p/node_modules/m/package.json", _, _, (by rfl), rfl, (by rfl)⟩ (by decide +kernel)
    (.star cs!"x?q") ⟨rfl, by decide, by decide, by decide, by decide, by decide, by decide⟩

-- and one that it cannot
example : ¬ MarksFrom optsA (fun fs => fs = treeFs treeA []) cs!"./a?q" cs!"?r" [] := by
  intro h
  rcases h.plain (fun fs name v t hF hn hf ht => by
    subst hF; exact plain_treeFs (t := treeA) (by decide +kernel) name v t hn hf ht) with ⟨target, h1⟩ | ⟨h1, -⟩
  · have h2 := h1.concat
    have h3 : (cs!"./a?q").getLast? = (target ++ cs!"?r" ++ []).getLast? := by rw [← h2]
    simp at h3
  · cases h1

end Verif
