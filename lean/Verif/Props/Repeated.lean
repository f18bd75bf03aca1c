import Verif.Proofs.LiveSame
import Verif.Props.Unused
import Verif.Props.Caches
import Verif.Props.Findings
/-!
# C87: the order of options that are not related, and repeated entries
-/

namespace Verif

variable {cfg cfg' : Nat → Config} {ser : Json → Str} {fs : Fs}

/-- C87, order: if for every target the same aliases apply in the same order, and if the condition names are the
same in any order and with any repetitions, then the resolvers cannot be told apart: in every history, with calls at
the same time, shared caches and changes of files, the state of the system is the same. -/
theorem C87_order (h : ∀ rid, SameConfig (cfg rid) (cfg' rid)) (l : List Event) :
    (Sys.init fs).after cfg' ser l = (Sys.init fs).after cfg ser l := by
  refine sys_same (fun rid => by rw [← (h rid).rest]) (fun rid fs => ?_) _ _
  have hb : cfg' rid = { cfg rid with opts := (cfg' rid).opts } := by
    conv => rhs; rw [← (h rid).rest]
  obtain ⟨⟨ha, hc, he, hr⟩, -⟩ := h rid
  rw [hb]
  have hag : ((cfg rid).env ser fs).ctx.Agree (((cfg rid).env ser fs).withOpts (cfg' rid).opts).ctx := by
    refine Env.agree_withOpts _ _ ?_ ?_ ?_ ?_ ?_ ?_ fun k => ?_
    · rw [show ((cfg rid).env ser fs).opts = (cfg rid).opts from rfl, ← hr]
    · rw [show ((cfg rid).env ser fs).opts = (cfg rid).opts from rfl, ← hr]
    · exact he
    · rw [show ((cfg rid).env ser fs).opts = (cfg rid).opts from rfl, ← hr]
    · rw [show ((cfg rid).env ser fs).opts = (cfg rid).opts from rfl, ← hr]
    · rw [show ((cfg rid).env ser fs).opts = (cfg rid).opts from rfl, ← hr]
    · rw [Bool.eq_iff_iff, List.contains_iff_mem, List.contains_iff_mem]
      exact hc k
  have hp : (cfg rid).opts.preferRelative = (cfg' rid).opts.preferRelative := by rw [← hr]
  have ht : (cfg' rid).opts.tsconfig = (cfg rid).opts.tsconfig := by rw [← hr]
  have hl : (cfg' rid).opts.symlinks = (cfg rid).opts.symlinks := by rw [← hr]
  have hd : (cfg' rid).opts.descriptionFile = (cfg rid).opts.descriptionFile := by rw [← hr]
  funext n call
  cases call with
  | sideEffects p =>
    show (loadSideEffects (((cfg rid).env ser fs).withOpts (cfg' rid).opts) p).bind _ =
      (loadSideEffects ((cfg rid).env ser fs) p).bind _
    have h1 : loadPkg (((cfg rid).env ser fs).withOpts (cfg' rid).opts) = loadPkg ((cfg rid).env ser fs) :=
      loadPkg_opts _ _ hd
    simp only [loadSideEffects, h1]
    rw [show (((cfg rid).env ser fs).withOpts (cfg' rid).opts).opts.descriptionFile =
      ((cfg rid).env ser fs).opts.descriptionFile from hd]
  | resolve p r =>
    have hi := inner_same hag hp fun n info => aliasPlugin_same ha _ _
    show (resolveCtx (((cfg rid).env ser fs).withOpts (cfg' rid).opts).ctx n p r).bind _ =
      (resolveCtx ((cfg rid).env ser fs).ctx n p r).bind _
    rw [resolveCtx_same hi rfl ht hl rfl]

/-- C87, order, with files that change at any moment. -/
theorem C87_live (h : ∀ rid, SameConfig (cfg rid) (cfg' rid)) (l : List Event) :
    (Live.Sys.init fs).after cfg' ser l = (Live.Sys.init fs).after cfg ser l := by
  refine Live.sys_same (fun rid => by rw [← (h rid).rest]) (fun rid n => ?_) _ _
  have hb : cfg' rid = { cfg rid with opts := (cfg' rid).opts } := by
    conv => rhs; rw [← (h rid).rest]
  obtain ⟨⟨ha, hc, he, hr⟩, -⟩ := h rid
  have ho : (cfg' rid).opts =
      { (cfg rid).opts with
        alias := (cfg' rid).opts.alias
        conditionNames := (cfg' rid).opts.conditionNames
        enforceExtension := (cfg' rid).opts.enforceExtension } := by
    conv => rhs; rw [← hr]
  have e : Live.host (cfg' rid) ser n =
      (Live.host (cfg rid) ser n).other (cfg' rid).opts.alias (cfg' rid).opts.conditionNames
        (cfg' rid).opts.enforceExtension := by
    rw [hb]
    unfold Live.host Live.Host.other
    dsimp only
    rw [← ho]
  rw [e]
  refine Live.prog_other he ha fun k => ?_
  rw [Bool.eq_iff_iff, List.contains_iff_mem, List.contains_iff_mem]
  exact hc k

/-- The commonest case: two neighbours change places, and neither key begins the other. -/
theorem C87_swap (o : Opts) (l r : List (Str × AliasMap)) (a b : Str × AliasMap)
    (hab : ¬ a.1 <+: b.1) (hba : ¬ b.1 <+: a.1) :
    SameOptions { o with alias := l ++ a :: b :: r } { o with alias := l ++ b :: a :: r } where
  alias t := by
    unfold applying
    rw [List.filter_append, List.filter_append]
    congr 1
    by_cases ha : a.1 <+: t
    · by_cases hb : b.1 <+: t
      · exact ((List.prefix_or_prefix_of_prefix ha hb).elim hab hba).elim
      · simp [ha, hb]
    · by_cases hb : b.1 <+: t <;> simp [ha, hb]
  conditions _ := Iff.rfl
  enforce := rfl
  rest := rfl

/-- C87, repeated aliases: on an unchanging file system, two calls with the same arguments end alike if the
options differ only in aliases that repeat an earlier one, whatever calls come before and in between. -/
theorem C87_aliases (hs : Static cfg ser fs) (hs' : Static cfg' ser fs) (l l' : List Event)
    (hl : ∀ e ∈ l, e.calm) (hl' : ∀ e ∈ l', e.calm) (t t' : Task)
    (ht : t ∈ ((Sys.init fs).after cfg ser l).tasks) (ht' : t' ∈ ((Sys.init fs).after cfg' ser l').tasks)
    (hopts : RepeatedAliases (cfg t.rid).opts (cfg' t'.rid).opts) (hcall : t.call = t'.call)
    (hfuel : t.fuel = t'.fuel) (hts : TsClear (cfg t.rid).opts fs t.call)
    (o o' : Outcome Answer) (ho : t.prog.outcome = some o) (ho' : t'.prog.outcome = some o') :
    o.Like Answer.Sim o' := by
  obtain ⟨x, h1, h2⟩ := static_ends hs hl ht ho
  obtain ⟨x', h1', h2'⟩ := static_ends hs' hl' ht' ho'
  obtain ⟨y, hy⟩ := call_sure hs t.rid hts t.fuel
  have e : t'.call.pure (cfg' t'.rid) fs t'.fuel = t.call.pure (cfg t.rid) fs t.fuel := by
    rw [← hcall, ← hfuel, ← callPure_repeated hopts]
    cases t.call with
    | resolve p r =>
      simp only [Call.pure]
      rw [hs.debug t.rid, hs'.debug t'.rid]
    | sideEffects p => rfl
  rw [e] at h1'
  rw [hy _ h1] at h2
  rw [hy _ h1'] at h2'
  exact Answer.like_join h2 h2'

theorem find?_eraseDups (p : Str → Bool) (n : Nat) : ∀ l : List Str, l.length ≤ n → l.eraseDups.find? p = l.find? p := by
  induction n with
  | zero =>
    intro l hl
    cases l with
    | nil => rfl
    | cons => cases hl
  | succ n ih =>
    intro l hl
    cases l with
    | nil => rfl
    | cons x l =>
      rw [List.eraseDups_cons, List.find?_cons, List.find?_cons]
      split
      · rfl
      · rename_i hx
        rw [ih _ (Nat.le_trans (List.length_filter_le ..) (Nat.le_of_succ_le_succ hl)), List.find?_filter]
        congr 1
        funext a
        by_cases ha : a = x
        · subst ha; simp [hx]
        · simp [ha]

/-- C87, extensions: an extension that repeats an earlier one changes nothing: in every history, with calls at the same
time, shared caches and changes of files, every call ends alike, and the caches have the same content. -/
theorem C87_extensions {l : List Event} (h : ∀ rid, ∃ exts, exts.eraseDups = (cfg rid).opts.extensions.eraseDups ∧
      cfg' rid = { cfg rid with opts := { (cfg rid).opts with extensions := exts } }) :
    ((Sys.init fs).after cfg' ser l).shared = ((Sys.init fs).after cfg ser l).shared ∧
    ((Sys.init fs).after cfg' ser l).tasks.map (fun t => (t.rid, t.call, t.prog.outcome)) =
      ((Sys.init fs).after cfg ser l).tasks.map fun t => (t.rid, t.call, t.prog.outcome) := by
  refine C62_unused fun rid => ?_
  obtain ⟨exts, he, hc⟩ := h rid
  rw [hc]
  refine ⟨?_, rfl, rfl, rfl⟩
  exact {
    alias := rfl, preferRelative := rfl, symlinks := rfl, descriptionFile := rfl, tsconfig := rfl,
    browserField := rfl, enforceExtension := rfl
    conditions := fun _ _ _ _ _ _ _ => Iff.rfl
    mainFields := fun _ _ _ _ _ _ _ => rfl
    extensions := fun fs p _ => by
      show _ = exts.find? _
      rw [← find?_eraseDups _ _ _ (Nat.le_refl _), ← he, find?_eraseDups _ _ _ (Nat.le_refl _)]
    mainFiles := ⟨fun _ => true, rfl, nofun⟩
    someFile := Iff.rfl
    browser := fun _ => ⟨fun ext => by
      show _ ↔ ext ∈ exts
      rw [← List.mem_eraseDups, ← he, List.mem_eraseDups], rfl⟩ }

/-! ## The hypotheses are met -/

/-- Three aliases, of which the last two are related. -/
def optsOrder (l : List (Str × AliasMap)) (names : List Str) : Opts :=
  { optsA with alias := l, conditionNames := names }

-- neither key is the beginning of the other: the order does not matter
example : SameOptions
    (optsOrder [(cs!"a", .target cs!"./x"), (cs!"b", .target cs!"./y"), (cs!"b/c", .ignored)] [cs!"node", cs!"import"])
    (optsOrder [(cs!"b", .target cs!"./y"), (cs!"a", .target cs!"./x"), (cs!"b/c", .ignored)]
      [cs!"import", cs!"node", cs!"import"]) where
  alias t := by
    unfold applying optsOrder
    by_cases ha : cs!"a" <+: t
    · have hb : ¬ cs!"b" <+: t := by
        obtain ⟨u, rfl⟩ := ha
        rintro ⟨v, hv⟩
        cases hv
      simp only [List.filter_cons, ha, hb, decide_true, decide_false]
      rfl
    · simp only [List.filter_cons, ha, decide_false]
      rfl
  conditions k := by simp [optsOrder]; grind
  enforce := rfl
  rest := rfl

example : RepeatedAliases (optsOrder [(cs!"a", .target cs!"./x"), (cs!"b", .ignored)] [])
    (optsOrder [(cs!"a", .target cs!"./x"), (cs!"b", .ignored), (cs!"a", .target cs!"./x")] []) where
  alias t := by
    unfold applying optsOrder
    by_cases ha : cs!"a" <+: t <;> by_cases hb : cs!"b" <+: t <;>
      simp [ha, hb, List.eraseDups_cons]
  rest := rfl

example : [cs!".js", cs!".ts", cs!".js"].eraseDups = [cs!".js", cs!".ts"].eraseDups := by decide

/-- Why keys must not be related: there the order decides. -/
example :
    foundPath (optsOrder [(cs!"./", .target cs!"/p/lib/"), (cs!"./a", .target cs!"/p/b.js")] [])
      (.dir [(cs!"p", .dir [(cs!"b.js", textFile), (cs!"lib", .dir [(cs!"a.js", textFile)])])]) cs!"/p" cs!"./a" =
        some cs!"/p/lib/a.js" ∧
    foundPath (optsOrder [(cs!"./a", .target cs!"/p/b.js"), (cs!"./", .target cs!"/p/lib/")] [])
      (.dir [(cs!"p", .dir [(cs!"b.js", textFile), (cs!"lib", .dir [(cs!"a.js", textFile)])])]) cs!"/p" cs!"./a" =
        some cs!"/p/b.js" := by
  decide +kernel

/-! ## Main fields and main files -/

/-- `/p` has the main field `./d`; there are `/p/index.js` and `/p/d/d/index.js`. -/
def treeTwice : Tree :=
  .dir [(cs!"p", .dir [(cs!"package.json", jsonFile (.obj [(cs!"main", .str cs!"./d")])), (cs!"index.js", textFile),
    (cs!"d", .dir [(cs!"d", .dir [(cs!"index.js", textFile)])])])]

/-- C87 does not hold for main fields: if `main` is repeated, the second time it is seen from the directory that the
first time led to. -/
theorem C87_fields_violated :
    foundPath { optsA with mainFields := [cs!"main"] } treeTwice cs!"/" cs!"./p" = some cs!"/p/index.js" ∧
    foundPath { optsA with mainFields := [cs!"main", cs!"main"] } treeTwice cs!"/" cs!"./p" =
      some cs!"/p/d/d/index.js" := by
  decide +kernel

/-- `/p/q` without main files; the `browser` map of `/p` replaces its `index`. -/
def treeTwiceBr : Tree :=
  .dir [(cs!"p", .dir [(cs!"package.json", jsonFile (.obj [(cs!"browser", .obj [(cs!"./q/index", .str cs!"./none")])])),
    (cs!"index.js", textFile), (cs!"q", .dir [])])]

/-- C87 does not hold for main files with a `browser` map: if `index` is repeated, the second time it is looked for in
the directory of the map. -/
theorem C87_files_violated :
    let o := { optsA with browserField := true }
    foundPath { o with mainFiles := [cs!"index"] } treeTwiceBr cs!"/" cs!"./p/q" = none ∧
    foundPath { o with mainFiles := [cs!"index", cs!"index"] } treeTwiceBr cs!"/" cs!"./p/q" = some cs!"/p/index.js" := by
  decide +kernel

end Verif
