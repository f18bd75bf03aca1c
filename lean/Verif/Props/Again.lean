import Verif.Proofs.Again
import Verif.Props.Changes
import Verif.Props.Debug
/-!
# Properties of calls that are made again: C77
-/

namespace Verif

/-- C77: a resolver sticks to its answers. If a call returns, then the same call made again after any other
calls, as long as the files stay as they are, returns the same and leaves all caches as they are. Missing:
description files that are not well-formed (`C35_malformed_violated`); description files deleted after they
were read (`C77_deleted_violated`); several resolvers with one cache (`C77_shared_violated`); with a tsconfig
the hash seeds have to be the same (`C49_tsconfig_violated`). -/
theorem C77_again_partial {e : Env} (he : e.Steady) {w w1 : World}
    (hn : NoneLost e.fs e.opts.descriptionFile w)
    (hs : e.opts.tsconfig = none ∨ ∃ s, w.seeds = fun _ => s) {call : Call} {fuel : Nat} {a : Answer}
    (h : (call.prog e fuel).run w = (.done a, w1)) (l : List (Call × Nat)) :
    (call.prog e fuel).run (afterCalls e l w1) = (.done a, afterCalls e l w1) := by
  obtain ⟨s, hs⟩ : ∃ s, e.opts.tsconfig ≠ none → w.seeds = fun _ => s := by
    rcases hs with hs | ⟨s, hs⟩
    · exact ⟨0, fun h => absurd hs h⟩
    · exact ⟨s, fun _ => hs⟩
  obtain ⟨h1, h2, -, h4⟩ := call_again he (S := e.opts.tsconfig ≠ none) (s := s) id fuel call w hs hn
  rw [h] at h1 h2 h4
  obtain ⟨h5, -, h6⟩ := afterCalls_stays he (S := e.opts.tsconfig ≠ none) (s := s) id l w1 h1 h2
  exact h4 a rfl _ h5 h6

/-- C77 for a new resolver: whatever calls come before, in between and after. -/
theorem C77_new_partial {e : Env} (he : e.Steady) {seeds : Nat → Nat}
    (hs : e.opts.tsconfig = none ∨ ∃ s, seeds = fun _ => s) (l l' : List (Call × Nat)) {call : Call}
    {fuel : Nat} {a : Answer} {w1 : World}
    (h : (call.prog e fuel).run (afterCalls e l (World.init seeds)) = (.done a, w1)) :
    (call.prog e fuel).run (afterCalls e l' w1) = (.done a, afterCalls e l' w1) := by
  have hn : NoneLost e.fs e.opts.descriptionFile (World.init seeds) := fun _ _ _ _ h => by cases h
  rcases hs with hs | ⟨s, hs⟩
  · have h1 := (afterCalls_stays he (S := e.opts.tsconfig ≠ none) (s := 0) id l _ (fun h => absurd hs h) hn).2.1
    exact C77_again_partial he h1 (.inl hs) h l'
  · obtain ⟨h1, h2, -⟩ := afterCalls_stays he (S := True) (s := s) (fun _ => trivial) l _ (fun _ => hs) hn
    exact C77_again_partial he h2 (.inr ⟨s, h1 trivial⟩) h l'

/-! ## The hypotheses are met -/

theorem lookup_spelled {t : Tree} {cwd : List Str} {desc : Str} (hd : '/' ∉ desc) (hne : desc ≠ [])
    (hp : PlainName desc) {d d' : Str} (h : comps d = comps d') :
    t.lookup cwd (pjoin d desc) = t.lookup cwd (pjoin d' desc) := by
  cases ha : isAbs d with
  | true => exact Tree.lookup_sim (isAbs_pjoin_left desc ha) (sim_pjoin ha h desc)
  | false =>
    have ha' : isAbs d' = false := by rw [← isAbs_of_comps h]; exact ha
    have hc := plain_join hp h
    have hs : ∀ d, isAbs d = false → isAbs (pjoin d desc) = false ∧ pjoin d desc ≠ [] ∧
        ∃ A, splitC '/' (pjoin d desc) = A ++ [desc] := by
      intro d ha
      have hself := splitC_of_not_mem hd
      by_cases hn : d = []
      · subst hn
        have e1 : pjoin [] desc = desc := by
          unfold pjoin
          rw [hp.1]
          simp
        rw [e1]
        exact ⟨hp.1, hne, [], hself⟩
      · have h0 := splitC_pjoin_last hn hp.1
        rw [hself] at h0
        have h1 : isAbs (pjoin d desc) = false := by
          rw [Bool.eq_false_iff] at ha ⊢
          intro h2
          apply ha
          rw [isAbs_iff_comps] at h2 ⊢
          rw [comps_pjoin hn hp.1] at h2
          rcases List.mem_append.1 h2 with h3 | h3
          · exact h3
          · refine absurd ((isAbs_iff_comps (p := desc)).2 ?_) (by simp [hp.1])
            unfold body at h3
            split at h3
            · rename_i l hl
              exact absurd hl (hp.2 l)
            · exact h3
        refine ⟨h1, ?_, List.getLast?_eq_some_iff.1 h0⟩
        intro he
        rw [he] at h0
        have h0 : some ([] : Str) = some desc := h0
        cases h0
        exact hne rfl
    obtain ⟨h1, h2, A, hA⟩ := hs d ha
    obtain ⟨h1', h2', B, hB⟩ := hs d' ha'
    have hb : body (comps (pjoin d desc)) = body (comps (pjoin d' desc)) := by rw [hc]
    rw [body_comps_rel (isAbs_false h1), body_comps_rel (isAbs_false h1'), hA, hB, segComps_append,
      segComps_append] at hb
    have hAB : segComps A = segComps B := List.append_cancel_right hb
    unfold Tree.lookup
    rw [if_neg h2, if_neg h2', if_neg (by simp [h1]), if_neg (by simp [h1']), hA, hB, Tree.reach_walk,
      Tree.reach_walk, hAB]

/-- Trees do not mind the spelling of directories. -/
theorem treeFs_spelled (t : Tree) (cwd : List Str) {desc : Str} (hd : '/' ∉ desc) (hne : desc ≠ [])
    (hp : PlainName desc) : Spelled (treeFs t cwd) desc where
  file d d' h := by simp only [treeFs, Tree.node, lookup_spelled hd hne hp h]
  mtime d d' h := by simp only [treeFs, Tree.node, lookup_spelled hd hne hp h]

/-- The tree in which an exports value equals an imports value. -/
def envMixed : Env := (config optsA 0).env serJson (treeFs treeMixed [])

theorem envMixed_steady : envMixed.Steady where
  plain name h := by
    obtain rfl : cs!"package.json" = name := Option.some.inj h
    exact ⟨rfl, fun l h => by cases h⟩
  sound name h := by
    obtain rfl : cs!"package.json" = name := Option.some.inj h
    refine sound_of_docs (by decide) fun doc hdoc fs dir file hr hm => ?_
    obtain ⟨m, hm⟩ := Option.isSome_iff_exists.1 hm
    have hdoc : doc ∈ [_, _] := hdoc
    simp only [List.mem_cons, List.not_mem_nil, or_false] at hdoc
    rcases hdoc with rfl | rfl
    · exact ⟨_, by simp only [readPkg, hr, hm]; rfl⟩
    · exact ⟨_, by simp only [readPkg, hr, hm]; rfl⟩
  spelled name h := by
    obtain rfl : cs!"package.json" = name := Option.some.inj h
    exact treeFs_spelled _ _ (by decide) (by decide) ⟨rfl, fun l h => by cases h⟩
  duration := by decide

/-- The path of the file that a call finds. -/
def Outcome.found : Outcome Answer → Option Str
  | .done (.resolve (.ok (.info i))) => some i.path
  | _ => none

-- what the first answer is depends on the calls before; C77 says that it is then the same ever after
example :
    let ask (l : List (Call × Nat)) := (((Call.resolve cs!"/p" cs!"b/x").prog envMixed 20).run
      (afterCalls envMixed l (World.init fun _ => 0))).1.found
    let other : Call × Nat := (.resolve cs!"/p" cs!"a/package.json", 20)
    ask [] = none ∧ ask [other] = some cs!"/p/node_modules/b/y.js" ∧
      ask [(.resolve cs!"/p" cs!"b/x", 20), other] = none := by
  decide +kernel

/-! ## Where the answer changes -/

/-- C77 does not hold after a description file was deleted: the call for `/p` still answers from it, until a
call for another directory comes along. -/
theorem C77_deleted_violated :
    let s := (Sys.init (treeFs (treeSub true) [])).after cfgCh serJson
      (.start 0 (.sideEffects cs!"/p") 20 :: List.replicate 20 (.step 0 0) ++
        .change (treeFs (treeSub false) []) ::
        .start 0 (.sideEffects cs!"/p") 20 :: List.replicate 20 (.step 1 0) ++
        askSub 2 ++
        .start 0 (.sideEffects cs!"/p") 20 :: List.replicate 20 (.step 3 0))
    s.effects 1 = some (.bool true) ∧ s.effects 3 = none := by
  decide +kernel

/-- C77 does not hold if another resolver uses the same cache: the answer of resolver 0 changes with calls of
resolver 1. -/
theorem C77_shared_violated :
    let s := (Sys.init (treeFs treeMixed [])).after (fun _ => config optsA 0) serJson
      (oneByOne 40 0 [(0, .resolve cs!"/p" cs!"b/x"), (1, .resolve cs!"/p" cs!"a/package.json"),
        (1, .resolve cs!"/p" cs!"b/x"), (0, .resolve cs!"/p" cs!"b/x")])
    s.failed 0 = true ∧ (s.info 3).map Info.path = some cs!"/p/node_modules/b/y.js" := by
  decide +kernel

end Verif
