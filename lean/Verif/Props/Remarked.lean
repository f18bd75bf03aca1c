import Verif.Proofs.Remarked
import Verif.Props.Looks
/-!
# Requests that differ in the query and the fragment: C91
-/

namespace Verif.Live

variable {cfg : Nat → Config} {ser : Json → Str} {fs : Fs}

/-- C91: two histories differ only in the queries and the fragments of requests. Each request is by path, with no
option that redirects it, or no JSON file ever has an exports field. Then the caches are the same at every moment. A
call ends at the same moment and in the same way. It leads to the same file, with its own query and fragment or with
those of a rule, which are the same in both.
Missing: other requests where a description file has exports (`C91_exports_violated`). -/
theorem C91_marks_partial {l l' : List Event} (hl : HistoryRemarked l l')
    (h : (∀ fs', Versions fs l fs' → NoExports fs') ∨
      ∀ rid call fuel, .start rid call fuel ∈ l → PathCall (cfg rid).opts call) :
    ((Sys.init fs).after cfg ser l').shared = ((Sys.init fs).after cfg ser l).shared ∧
    ((Sys.init fs).after cfg ser l').tasks.length = ((Sys.init fs).after cfg ser l).tasks.length ∧
    ∀ (i : Nat) (t t' : Task), ((Sys.init fs).after cfg ser l).tasks[i]? = some t →
      ((Sys.init fs).after cfg ser l').tasks[i]? = some t' →
      CallRemarked t.call t'.call ∧
      (∀ x, outcome t.prog = some x → ∃ y, outcome t'.prog = some y ∧
        x.Like (AnswerRemarked t.call t'.call) y) ∧
      ∀ y, outcome t'.prog = some y → ∃ x, outcome t.prog = some x ∧
        x.Like (AnswerRemarked t.call t'.call) y := by
  have key : SysAlike (Versions fs l) (∀ fs', Versions fs l fs' → NoExports fs') ((Sys.init fs).after cfg ser l)
      ((Sys.init fs).after cfg ser l') := by
    refine after_alike (fun h => h) hl (init_alike (.inl rfl)) (fun fs' h => .inr h) fun rid call fuel hc => ?_
    exact h.imp_right fun h => h rid call fuel hc
  refine ⟨key.shared, key.length, fun i t t' ht ht' => ?_⟩
  have hk := key.tasks i t t' ht ht'
  refine ⟨hk.call, fun x hx => hk.prog.outcome hx, fun y hy => ?_⟩
  have hp := hk.prog
  generalize t.prog = p at hp
  generalize t'.prog = p' at hp hy
  cases hp with
  | ret h => cases hy; exact ⟨_, rfl, h⟩
  | crash c => cases hy; exact ⟨_, rfl, rfl⟩
  | ask q _ => cases hy
  | op o _ => cases hy

theorem _root_.Verif.HistoryRemarked.append_inv {a b l' : List Event} (h : HistoryRemarked (a ++ b) l') :
    ∃ a' b', l' = a' ++ b' ∧ HistoryRemarked a a' ∧ HistoryRemarked b b' := by
  induction a generalizing l' with
  | nil => exact ⟨[], l', rfl, .nil, h⟩
  | cons e a ih =>
    cases h with
    | cons he h =>
      obtain ⟨a', b', rfl, h1, h2⟩ := ih h
      exact ⟨_, b', rfl, .cons he h1, h2⟩

theorem _root_.Verif.HistoryRemarked.symm {l l' : List Event} (h : HistoryRemarked l l') : HistoryRemarked l' l := by
  induction h with
  | nil => exact .nil
  | cons he _ ih =>
    refine .cons ?_ ih
    cases he with
    | start rid fuel hc =>
      refine .start rid fuel ?_
      cases hc with
      | same => exact .same _
      | marks h1 h2 => exact .marks h2 h1
    | change fs => exact .change fs
    | step i seed => exact .step i seed

/-- C91: under the conditions of `C91_marks_partial` each call looks at the same files, with the same answers.
Missing: other requests where a description file has exports (`C91_exports_violated`). -/
theorem C91_looks_partial {l l' : List Event} (hl : HistoryRemarked l l')
    (h : (∀ fs', Versions fs l fs' → NoExports fs') ∨
      ∀ rid call fuel, .start rid call fuel ∈ l → PathCall (cfg rid).opts call) (i : Nat) (q : Query) (r : q.Ret) :
    Looked cfg ser fs l i q r ↔ Looked cfg ser fs l' i q r := by
  have keys : ∀ {l1 l2 l1' : List Event}, l = l1 ++ l2 → HistoryRemarked l1 l1' →
      SysAlike (Versions fs l1) (∀ fs', Versions fs l1 fs' → NoExports fs') ((Sys.init fs).after cfg ser l1)
        ((Sys.init fs).after cfg ser l1') := by
    rintro l1 l2 l1' rfl h1
    refine after_alike (fun h => h) h1 (init_alike (.inl rfl)) (fun fs' h => .inr h) fun rid call fuel hc => ?_
    exact h.imp (fun h fs' hv => h fs' (hv.imp_right (List.mem_append_left _)))
      fun h => h rid call fuel (List.mem_append_left _ hc)
  constructor
  · rintro ⟨l1, seed, l2, t, k, rfl, ht, hk, hr⟩
    obtain ⟨l1', l2', rfl, h1, h2⟩ := hl.append_inv
    have key := keys rfl h1
    cases h2 with
    | @cons _ _ _ l2' he h2 =>
      cases he
      have hlt := (List.getElem?_eq_some_iff.1 ht).1
      obtain ⟨t', ht'⟩ : ∃ t', ((Sys.init fs).after cfg ser l1').tasks[i]? = some t' :=
        ⟨_, List.getElem?_eq_getElem (by rw [key.length]; exact hlt)⟩
      have hp := (key.tasks i t t' ht ht').prog
      rw [hk] at hp
      generalize hp' : t'.prog = p' at hp
      cases hp with
      | ask _ hk' => exact ⟨l1', seed, l2', t', _, rfl, ht', hp', by rw [key.fs]; exact hr⟩
  · rintro ⟨l1', seed, l2', t', k, rfl, ht', hk, hr⟩
    obtain ⟨l1, l2, rfl, h1, h2⟩ := hl.symm.append_inv
    have key := keys rfl h1.symm
    cases h2 with
    | @cons _ _ _ l2 he h2 =>
      cases he
      have hlt := (List.getElem?_eq_some_iff.1 ht').1
      obtain ⟨t, ht⟩ : ∃ t, ((Sys.init fs).after cfg ser l1).tasks[i]? = some t :=
        ⟨_, List.getElem?_eq_getElem (by rw [← key.length]; exact hlt)⟩
      have hp := (key.tasks i t t' ht ht').prog
      rw [hk] at hp
      generalize hp' : t.prog = p at hp
      cases hp with
      | ask _ hk' => exact ⟨l1, seed, l2, t, _, rfl, ht, hp', by rw [← key.fs]; exact hr⟩

theorem noExports_treeFs {t : Tree} {cwd : List Str}
    (h : t.allDoc (fun d => match d.json with
      | none => true
      | some j => (j.get cs!"exports").isNone) = true) : NoExports (treeFs t cwd) := by
  intro p doc json h1 h2
  have := allDoc_read h h1
  simp only [h2, Option.isNone_iff_eq_none] at this
  exact this

/-- A package with a main file, a package with exports, and a project with imports. -/
def treeMarks (exports : List (Str × Json)) : Tree :=
  .dir [(cs!"p", .dir [
    (cs!"package.json", jsonFile (.obj [(cs!"imports", .obj [(cs!"#i", .str cs!"./a.js?i")])])),
    (cs!"a.js", textFile),
    (cs!"node_modules", .dir [(cs!"m", .dir [
      (cs!"package.json", jsonFile (.obj ((cs!"main", .str cs!"b.js") :: exports))),
      (cs!"b.js", textFile), (cs!"c.js", textFile)])])])]

/-- Two calls, step by step in turn. -/
def histMarks (a b : Str) : List Event :=
  .start 0 (.resolve cs!"/p" a) 20 :: .start 0 (.resolve cs!"/p" b) 20 ::
    (List.replicate 60 [Event.step 0 0, Event.step 1 0]).flatten

theorem histMarks_remarked {a b a' b' ta qa fa qa' fa' tb qb fb qb' fb' : Str} (h1 : IsSplit a ta qa fa)
    (h2 : IsSplit a' ta qa' fa') (h3 : IsSplit b tb qb fb) (h4 : IsSplit b' tb qb' fb') :
    HistoryRemarked (histMarks a b) (histMarks a' b') := by
  refine .cons (.start 0 20 (.marks h1 h2)) (.cons (.start 0 20 (.marks h3 h4)) ?_)
  generalize 60 = n
  induction n with
  | zero => exact .nil
  | succ n ih => exact .cons (.step 0 0) (.cons (.step 1 0) ih)

-- C91_marks_partial, without exports: a request for a package, and one through imports
example : HistoryRemarked (histMarks cs!"m" cs!"#i?x") (histMarks cs!"m?y#z" cs!"#i") :=
  histMarks_remarked (parse_isSplit cs!"m") (parse_isSplit cs!"m?y#z") (parse_isSplit cs!"#i?x") (parse_isSplit cs!"#i")
example : ∀ fs', Versions (treeFs (treeMarks []) []) (histMarks cs!"m" cs!"#i?x") fs' → NoExports fs' := by
  rintro fs' (rfl | h)
  · exact noExports_treeFs (by decide +kernel)
  · simp [histMarks] at h
example : ((Sys.init (treeFs (treeMarks []) [])).after cfgCh serJson (histMarks cs!"m" cs!"#i?x")).path 0 =
      some cs!"/p/node_modules/m/b.js" ∧
    ((Sys.init (treeFs (treeMarks []) [])).after cfgCh serJson (histMarks cs!"m" cs!"#i?x")).path 1 =
      some cs!"/p/a.js" := by
  decide +kernel

-- C91_marks_partial, with exports: requests by path
example : HistoryRemarked (histMarks cs!"./a" cs!"./node_modules/m/c?x") (histMarks cs!"./a?y" cs!"./node_modules/m/c#z") :=
  histMarks_remarked (parse_isSplit cs!"./a") (parse_isSplit cs!"./a?y") (parse_isSplit cs!"./node_modules/m/c?x")
    (parse_isSplit cs!"./node_modules/m/c#z")
example : ∀ rid call fuel, .start rid call fuel ∈ histMarks cs!"./a" cs!"./node_modules/m/c?x" →
    PathCall (cfgCh rid).opts call := by
  intro rid call fuel h
  have : call = .resolve cs!"/p" cs!"./a" ∨ call = .resolve cs!"/p" cs!"./node_modules/m/c?x" := by
    simp [histMarks] at h
    grind
  rcases this with rfl | rfl <;>
    exact ⟨⟨rfl, .inr (by show ∀ kv ∈ optsA.alias, _; decide +kernel), .inl rfl⟩, rfl, .inl (by decide +kernel)⟩
example : ((Sys.init (treeFs (treeMarks [(cs!"exports", .obj [])]) [])).after cfgCh serJson
      (histMarks cs!"./a?y" cs!"./node_modules/m/c#z")).path 1 = some cs!"/p/node_modules/m/c.js" := by
  decide +kernel

/-- Both calls of `histMarks` on a tree where a package has the given exports. -/
def exportMarks (exports : List (Str × Json)) (a b : Str) : Sys :=
  (Sys.init (treeFs (treeMarks [(cs!"exports", .obj exports)]) [])).after cfgCh serJson (histMarks a b)

/-- C91 fails as stated: query and fragment take part in the lookup in the exports of a package. With
`{".": "./b.js"}` the request `m` leads to a file, and neither `m?x` nor `m#x` does. With `{"./?x": "./c.js"}` it is
the other way round. With both, `m` and `m?x` lead to different files. -/
theorem C91_exports_violated :
    ((exportMarks [(cs!".", .str cs!"./b.js")] cs!"m" cs!"m?x").path 0 = some cs!"/p/node_modules/m/b.js" ∧
      ((exportMarks [(cs!".", .str cs!"./b.js")] cs!"m?x" cs!"m#x").error 0).isSome = true ∧
      ((exportMarks [(cs!".", .str cs!"./b.js")] cs!"m?x" cs!"m#x").error 1).isSome = true) ∧
    (((exportMarks [(cs!"./?x", .str cs!"./c.js")] cs!"m" cs!"m?x").error 0).isSome = true ∧
      (exportMarks [(cs!"./?x", .str cs!"./c.js")] cs!"m" cs!"m?x").path 1 = some cs!"/p/node_modules/m/c.js") ∧
    ((exportMarks [(cs!".", .str cs!"./b.js"), (cs!"./?x", .str cs!"./c.js")] cs!"m" cs!"m?x").path 0 =
        some cs!"/p/node_modules/m/b.js" ∧
      (exportMarks [(cs!".", .str cs!"./b.js"), (cs!"./?x", .str cs!"./c.js")] cs!"m" cs!"m?x").path 1 =
        some cs!"/p/node_modules/m/c.js") := by
  decide +kernel

end Verif.Live
