import Verif.Proofs.Below
import Verif.Props.Packages
import Verif.Props.Named
import Verif.Props.Watched
/-!
# C100: a directory without `node_modules` asks the directories above
-/

namespace Verif

variable {cfg cfg' : Nat → Config} {ser : Json → Str} {fs : Fs}

/-- Without caches: the same programs but for the message. -/
theorem resolveCtx_below {o : Opts} {k : Nat} {p q request : Str} (h : NoModulesBelow fs k p q)
    (hp : Plain o p (parseRequest request).target) (hq : Plain o q (parseRequest request).target)
    (hk : getTargetKind (parseRequest request).target = .normal)
    (hl : FirstLoad o fs p (parseRequest request).target) (hl' : FirstLoad o fs q (parseRequest request).target) (n : Nat) :
    (resolveCtx (pureCtx o fs false) (n + 2 + k) p request).Linked (SameReply p request q request)
      (resolveCtx (pureCtx o fs false) (n + 2) q request) := by
  have hhash : ¬ cs!"#" <+: (parseRequest request).target := by
    rintro ⟨r, hr⟩
    rw [← hr] at hk
    cases hk
  have stages : ∀ m x, Plain o x (parseRequest request).target → FirstLoad o fs x (parseRequest request).target →
      resolveCtx (pureCtx o fs false) (m + 2) x request =
        (resolveAsModules (pureCtx o fs false) (m + 1) ⟨x, parseRequest request⟩).bind
          (answer (pureCtx o fs false) ⟨x, parseRequest request⟩) := by
    intro m x hx hlx
    obtain ⟨pkg, h1, h2⟩ := hlx
    rw [resolveCtx_plain (pureCtx o fs false) (m + 1) x request hx.tsconfig
      (hx.alias.imp_left (containsStr_iff _ _).2) hx.prefer]
    unfold plainStages
    rw [pkgStage_ok (c := pureCtx o fs false) (info := ⟨x, parseRequest request⟩) (pkg := pkg) hk h2 hhash h1]
    simp only [Prog.ret_bind, Stats.andThen_resolving]
    unfold lastStage
    simp only [show (parseRequest request).kind = .normal from hk]
  rw [show n + 2 + k = n + k + 2 by omega, stages (n + k) p hp hl, stages n q hq hl',
    show n + k + 1 = n + 1 + k by omega, modules_below (c := pureCtx o fs false) h]
  have hdisp : (parseRequest request).display = request := (parse_isSplit request).concat.symm
  refine Prog.Linked.same _ fun s => ?_
  cases s with
  | error e i =>
    refine fun x hx => ⟨_, .ret _, ?_⟩
    cases hx
    by_cases he : e.isTag = true
    · rw [if_pos he, if_pos he]
      refine .inr ⟨?_, ?_⟩ <;> unfold failedMessage <;> rw [hdisp] <;> exact ErrSim.refl _
    · rw [if_neg he, if_neg he]
      exact .inl (ErrSim.refl _)
  | resolving i => exact fun x hx => ⟨x, hx, by cases hx; rfl⟩
  | success r =>
    intro x hx
    refine ⟨x, hx, ?_⟩
    cases x with
    | crashed c => rfl
    | done a =>
      cases a with
      | ok r => rfl
      | error e => exact .inl (ErrSim.refl _)

/-- C100: a request by name from a directory without `node_modules` ends as from the directory above (and so on, `k`
times), in any two histories. In the case that nothing is found, the message has the directory. (`fuel` bounds the
depth of calls: the request from below needs `k` more.) -/
theorem C100_below (hs : Static cfg ser fs) (hs' : Static cfg' ser fs) (l l' : List Event)
    (hl : ∀ e ∈ l, e.calm) (hl' : ∀ e ∈ l', e.calm) (t t' : Task)
    (ht : t ∈ ((Sys.init fs).after cfg ser l).tasks) (ht' : t' ∈ ((Sys.init fs).after cfg' ser l').tasks)
    (ho : (cfg' t'.rid).opts = (cfg t.rid).opts) {p q request : Str} {k n : Nat}
    (hc : t.call = .resolve p request) (hc' : t'.call = .resolve q request)
    (hfuel : t.fuel = n + 2 + k) (hfuel' : t'.fuel = n + 2)
    (h : NoModulesBelow fs k p q)
    (hp : Plain (cfg t.rid).opts p (parseRequest request).target)
    (hq : Plain (cfg t.rid).opts q (parseRequest request).target)
    (hk : getTargetKind (parseRequest request).target = .normal)
    (hf : FirstLoad (cfg t.rid).opts fs p (parseRequest request).target)
    (hf' : FirstLoad (cfg t.rid).opts fs q (parseRequest request).target)
    (x x' : Outcome Answer) (hx : t.prog.outcome = some x) (hx' : t'.prog.outcome = some x') :
    x.Like (Answer.SameReply p request q request) x' := by
  obtain ⟨y, h1, h2⟩ := static_ends hs hl ht hx
  obtain ⟨y', h1', h2'⟩ := static_ends hs' hl' ht' hx'
  have e : t'.call.pure (cfg' t'.rid) fs t'.fuel = t'.call.pure (cfg t.rid) fs t'.fuel := by
    unfold Call.pure
    rw [ho, hs.debug t.rid, hs'.debug t'.rid]
  rw [e] at h1'
  have hts' : TsClear (cfg t.rid).opts fs t'.call := by
    rw [hc']
    intro loc h
    rw [hp.tsconfig] at h
    cases h
  obtain ⟨z, hz⟩ := call_sure hs t.rid hts' t'.fuel
  have hlink : (t.call.pure (cfg t.rid) fs t.fuel).Linked (Answer.SameReply p request q request)
      (t'.call.pure (cfg t.rid) fs t'.fuel) := by
    rw [hc, hc', hfuel, hfuel']
    unfold Call.pure
    dsimp only
    rw [hs.debug t.rid]
    exact Prog.Linked.bind (resolveCtx_below h hp hq hk hf hf' n) fun a b hab => .ret hab
  obtain ⟨x'', h3, h4⟩ := hlink _ h1
  rw [hz _ h1', ← hz _ h3] at h2'
  cases x <;> cases y <;> cases x'' <;> cases x' <;> first
    | exact (h2 : False).elim
    | exact (h4 : False).elim
    | exact (h2' : False).elim
    | exact Answer.SameReply.sim h2 h4 h2'
    | exact Eq.trans h2 (Eq.trans h4 (Eq.symm h2'))

/-! ## The hypotheses are met -/

/-- A project with the package `foo`, and directories without `node_modules`. -/
def treeBelow (description : Tree) : Tree :=
  .dir [(cs!"p", .dir [(cs!"package.json", description), (cs!"node_modules", .dir [(cs!"foo", .dir
    [(cs!"package.json", jsonFile (.obj [(cs!"main", .str cs!"lib.js")])), (cs!"lib.js", textFile)])]),
    (cs!"src", .dir [(cs!"lib", .dir [])])])]

def treeBelowOk : Tree := treeBelow (jsonFile (.obj []))

example : NoModulesBelow (treeFs treeBelowOk []) 2 cs!"/p/src/lib" cs!"/p" :=
  .up (d := cs!"/p/src") (by decide +kernel) (by decide +kernel) (.up (by decide +kernel) (by decide +kernel) (.here _))

example : Static (fun _ => config optsA 0) serJson (treeFs treeBelowOk []) := static_new rfl (by decide +kernel)

example : Plain (config optsA 0).opts cs!"/p/src/lib" (parseRequest cs!"foo").target := ⟨rfl, .inr nofun, .inl rfl⟩

example : FirstLoad (config optsA 0).opts (treeFs treeBelowOk []) cs!"/p/src/lib" (parseRequest cs!"foo").target :=
  ⟨_, rfl, nofun⟩

example : FirstLoad (config optsA 0).opts (treeFs treeBelowOk []) cs!"/p" (parseRequest cs!"foo").target :=
  ⟨_, rfl, nofun⟩

example : foundPath optsA treeBelowOk cs!"/p/src/lib" cs!"foo" = some cs!"/p/node_modules/foo/lib.js" ∧
    foundPath optsA treeBelowOk cs!"/p" cs!"foo" = some cs!"/p/node_modules/foo/lib.js" := by
  decide +kernel

/-- The description file that is looked at first must be readable: from below, this is that of the project. -/
theorem C100_load_fails :
    foundPath optsA (treeBelow textFile) cs!"/p/src/lib" cs!"foo" = none ∧
    foundPath optsA (treeBelow textFile) cs!"/p" cs!"foo" = some cs!"/p/node_modules/foo/lib.js" := by
  decide +kernel

end Verif
