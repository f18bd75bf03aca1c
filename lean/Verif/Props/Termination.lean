import Verif.Proofs.NoCycle
import Verif.Props.Browser
/-!
# C45: calls come to an end
-/

namespace Verif

variable {cfg : Nat → Config} {ser : Json → Str} {fs : Fs}

theorem at_succ (s : Sys) (ev : Nat → Event) (n : Nat) :
    s.at cfg ser ev (n + 1) = (s.at cfg ser ev n).next cfg ser (ev n) := by
  simp [Sys.at, Sys.after, List.range_succ]

/-- A task stays where it is; only its own steps change it. -/
theorem next_task {s : Sys} {e : Event} {i : Nat} {t : Task} (h : s.tasks[i]? = some t) :
    (s.next cfg ser e).tasks[i]? = some t ∨
      ∃ o k r, t.prog = .op o k ∧ (s.next cfg ser e).tasks[i]? = some { t with prog := k r } := by
  have hi : i < s.tasks.length := (List.getElem?_eq_some_iff.1 h).1
  cases e with
  | start rid call fuel => exact .inl (by rw [Sys.next]; simp only; rw [List.getElem?_append_left hi, h])
  | change fs => exact .inl h
  | step j seed =>
    unfold Sys.next
    simp only
    split
    · exact .inl h
    · rename_i u hu
      split
      · rename_i o k hp
        simp only
        by_cases hj : j = i
        · subst hj
          rw [h] at hu
          cases hu
          exact .inr ⟨o, k, _, hp, by rw [List.getElem?_set_self hi]⟩
        · exact .inl (by rw [List.getElem?_set_ne hj, h])
      · exact .inl h

theorem step_task {s : Sys} {seed i : Nat} {t : Task} (h : s.tasks[i]? = some t) {o : Op}
    {k : o.Ret → Prog Answer} (hp : t.prog = .op o k) :
    ∃ r, (s.next cfg ser (.step i seed)).tasks[i]? = some { t with prog := k r } := by
  have hi : i < s.tasks.length := (List.getElem?_eq_some_iff.1 h).1
  unfold Sys.next
  simp only [h]
  rw [hp]
  simp only
  exact ⟨_, by rw [List.getElem?_set_self hi]⟩

/-- C45, scheduling: calls do not wait for each other. In every interleaving, with any changes of the
file system, a call whose thread gets to run comes to the end of its program. -/
theorem C45_progress (cfg : Nat → Config) (ser : Json → Str) (s : Sys) (ev : Nat → Event) (i : Nat)
    (hf : Fair ev i) (k : Nat) (t : Task) (h : (s.at cfg ser ev k).tasks[i]? = some t) :
    ∃ m o, k ≤ m ∧ o.isSome ∧ ∃ p : Prog Answer, p.outcome = o ∧
      (s.at cfg ser ev m).tasks[i]? = some { t with prog := p } := by
  obtain ⟨rid, f, call, fuel, p⟩ := t
  induction p generalizing k with
  | ret a => exact ⟨k, _, Nat.le_refl _, rfl, _, rfl, h⟩
  | crash c => exact ⟨k, _, Nat.le_refl _, rfl, _, rfl, h⟩
  | op o g ih =>
    obtain ⟨m, hm, seed, he⟩ := hf k
    obtain ⟨d, rfl⟩ := Nat.exists_eq_add_of_le hm
    clear hm
    induction d generalizing k with
    | zero =>
      obtain ⟨r, hr⟩ := step_task (cfg := cfg) (ser := ser) (seed := seed) h rfl
      rw [Nat.add_zero] at he
      rw [← he, ← at_succ] at hr
      obtain ⟨m, x, h1, h2⟩ := ih r (k + 1) hr
      exact ⟨m, x, by omega, h2⟩
    | succ d ihd =>
      rcases next_task (cfg := cfg) (ser := ser) (e := ev k) h with h1 | ⟨o', g', r, hp, h1⟩
      · rw [← at_succ] at h1
        obtain ⟨m, x, h2, h3⟩ := ihd (k + 1) h1 (by rw [show k + 1 + d = k + (d + 1) by omega]; exact he)
        exact ⟨m, x, by omega, h3⟩
      · rw [← at_succ] at h1
        cases hp
        obtain ⟨m, x, h2, h3⟩ := ih r (k + 1) h1
        exact ⟨m, x, by omega, h3⟩

theorem stops_of_halts (hs : Static cfg ser fs) {rid : Nat} {call : Call}
    (h : ∃ N, ∀ n, N ≤ n → Halts (call.pure (cfg rid) fs n)) : Stops cfg ser fs rid call := by
  obtain ⟨N, hN⟩ := h
  refine ⟨N, fun ev hc i hf k t ht hr hcall hn => ?_⟩
  obtain ⟨m, x, hkm, hx, p, hp, hm⟩ := C45_progress cfg ser _ ev i hf k t ht
  cases x with
  | none => cases hx
  | some o =>
    refine ⟨m, _, o, hkm, hm, hp, ?_⟩
    have hl : ∀ e ∈ (List.range m).map ev, e.calm := by
      intro e he
      obtain ⟨j, -, rfl⟩ := List.mem_map.1 he
      exact hc j
    obtain ⟨o', h1, h2⟩ := static_ends hs hl (List.mem_of_getElem? hm) hp
    simp only [hr, hcall] at h1
    rcases hN _ hn o' h1 with ⟨a, rfl⟩ | ⟨s, rfl⟩
    · cases o with
      | done b => exact .inl ⟨b, rfl⟩
      | crashed c => exact (h2 : False).elim
    · cases o with
      | done b => exact (h2 : False).elim
      | crashed c => cases (h2 : c = .panic s); exact .inr ⟨s, rfl⟩

/-- C45: on an unchanging file system in which nothing goes round in circles, every `resolve` comes to
an end. Missing: aliases, `browser` entries, imports, main fields and tsconfig files that go round in
circles (`C45_*_violated`), and relative paths (`C45_hang_violated`). For files that change during the run
see `Live.C45_changes_partial`. -/
theorem C45_terminates_partial (hs : Static cfg ser fs) {rid : Nat}
    (hn : NoCycle (cfg rid).opts fs) (path request : Str) :
    Stops cfg ser fs rid (.resolve path request) := by
  obtain ⟨N, h⟩ := resolveCtx_halts hn path request
  refine stops_of_halts hs ⟨N, fun n hn => ?_⟩
  unfold Call.pure
  simp only [hs.debug]
  exact (h n hn).bind fun r => Over.halts (.inl ⟨_, rfl⟩)

/-- C45 for `load_side_effects`: always. -/
theorem C45_side_effects (hs : Static cfg ser fs) (rid : Nat) (path : Str) :
    Stops cfg ser fs rid (.sideEffects path) := by
  refine stops_of_halts hs ⟨0, fun n _ => ?_⟩
  unfold Call.pure
  refine Halts.bind ?_ fun r => Over.halts (.inl ⟨_, rfl⟩)
  refine Halts.bind ?_ fun r => ?_
  · rcases findPkg_settles fs (cfg rid).opts.descriptionFile path with ⟨a, h⟩ | ⟨s, h⟩
    · rw [h]; exact Over.halts (.inl ⟨_, rfl⟩)
    · rw [h]; exact Over.halts (.inr ⟨_, rfl⟩)
  · rcases r with e | _ | p <;> exact Over.halts (.inl ⟨_, rfl⟩)

/-- `browser` maps as in `docBr`; exports are not an object, so that they cannot be taken for
imports. -/
def docEnds (d : Doc) : Bool :=
  match d.json with
  | none => true
  | some j =>
    (match j.get cs!"exports" with
      | some (.obj _) => false
      | _ => true) &&
    match browserFields j with
    | none => true
    | some fields => fields.all fun kv => !isAbs kv.1 &&
        (match kv.2 with
          | .ignored => true
          | .target t => t ≠ [] && t ≠ cs!".") &&
        fields.all fun kv' => decide (kv.1 = kv'.1) || decide (body (comps kv.1) ≠ body (comps kv'.1))

theorem static_ends_tree {t : Tree} {o : Opts} (ht : t.isDir = true)
    (hts : ∀ l, o.tsconfig = some l → isAbs l = true)
    (hx : o.extensions = []) (hi : t.allDoc docEnds = true) :
    Static (fun _ => config o 0) serJson (treeFs t []) where
  lawful := treeFs_lawful [] ht
  debug _ := rfl
  inj _ _ := serJson_inj
  mix v t' h _ hb := by
    obtain ⟨p, doc, json, hr, hj, hv⟩ := h
    have := allDoc_read hi hr
    simp only [docEnds, hj, hv, Bool.and_eq_true] at this
    have h1 := this.1
    cases v with
    | obj l => cases h1
    | arr l =>
      simp only [buildTree, fromJson] at hb
      cases hf : fromJsonArr l with
      | none => simp [hf] at hb
      | some x => simp [hf] at hb
    | str s => simp [buildTree, fromJson] at hb
    | null => simp [buildTree, fromJson] at hb
    | bool b => simp [buildTree, fromJson] at hb
    | num n => simp [buildTree, fromJson] at hb
  desc rid rid' d d' _ h h' := by rw [h] at h'; exact Option.some.inj h'
  browser rid desc h _ d doc json fields hd hr hj hf := by
    have h1 := allDoc_read hi hr
    unfold docEnds at h1
    simp only [hj, hf, Bool.and_eq_true, List.all_eq_true] at h1
    have hne : d ≠ [] := by rintro rfl; cases hd
    constructor
    · intro x k v k' v' _ hm hm' hc hc'
      have hrel := (h1.2 _ hm).1.1
      have hrel' := (h1.2 _ hm').1.1
      have hdis := (h1.2 _ hm).2 _ hm'
      simp only [Bool.not_eq_true', Bool.or_eq_true, decide_eq_true_eq] at hrel hrel' hdis
      rcases hdis with hdis | hdis
      · exact hdis
      · exfalso
        have e : ∀ k, Covers (config o 0).opts.extensions d k x → comps (pjoin d k) = comps x := by
          intro k hk
          rcases hk with hk | ⟨ext, hk, -⟩
          · exact hk
          · rw [show (config o 0).opts.extensions = [] from hx] at hk
            cases hk
        have := (e _ hc).trans (e _ hc').symm
        rw [comps_pjoin hne hrel, comps_pjoin hne hrel'] at this
        exact hdis (List.append_cancel_left this)
    · intro k t hm
      have := (h1.2 _ hm).1.2
      simpa using this
  tsconfig rid l h := hts l h

/-- A package that uses everything that might go round in circles. -/
def treeTe : Tree :=
  .dir [
    (cs!"tsconfig.json", jsonFile (.obj [(cs!"compilerOptions", .obj [
      (cs!"baseUrl", .str cs!"."), (cs!"paths", .obj [(cs!"x/*", .arr [.str cs!"p/*"])])])])),
    (cs!"s", .dir [
      (cs!"package.json", jsonFile (.obj [(cs!"main", .str cs!".")])), (cs!"index.js", textFile)]),
    (cs!"p", .dir [
      (cs!"package.json", jsonFile (.obj [
        (cs!"main", .str cs!"./a.js"),
        (cs!"exports", .str cs!"./a.js"),
        (cs!"imports", .obj [(cs!"#i", .str cs!"./a.js")]),
        (cs!"browser", .obj [(cs!"./a.js", .str cs!"./b.js")])])),
      (cs!"a.js", textFile), (cs!"b.js", textFile)])]

def optsTe : Opts :=
  { optsA with
    browserField := true, extensions := [], tsconfig := some cs!"/tsconfig.json", preferRelative := true,
    alias := [(cs!"@/", .target cs!"/p/"), (cs!"q", .target cs!"/p")] }

/-- It meets the conditions. -/
example : Static (fun _ => config optsTe 0) serJson (treeFs treeTe []) ∧
    NoCycle (config optsTe 0).opts (treeFs treeTe []) :=
  ⟨static_ends_tree rfl (fun l h => by cases h; rfl) rfl (by decide +kernel),
    noCycle_tree (by decide +kernel) (by decide +kernel) (by decide +kernel)⟩

/-! ## Circles -/

theorem loops_of_pure (hs : Static cfg ser fs) {rid : Nat} {path request : Str}
    (h : ∀ n x, (resolveCtx (pureCtx (cfg rid).opts fs false) n path request).Ends x →
      x = .crashed .fuel) : Loops cfg ser fs rid (.resolve path request) := by
  intro l hl t ht hr hc o ho
  obtain ⟨o', h1, h2⟩ := static_ends hs hl ht ho
  simp only [hr, hc] at h1
  have : (resolveCtx (pureCtx (cfg rid).opts fs false) t.fuel path request).bind
      (fun r => Prog.ret (Answer.resolve r)) = (Call.resolve path request).pure (cfg rid) fs t.fuel := by
    unfold Call.pure
    rw [hs.debug]
  rw [← this] at h1
  have key : ∀ (p : Prog (Except Err Result)), (∀ x, p.Ends x → x = .crashed .fuel) →
      ∀ x, (p.bind fun r => Prog.ret (Answer.resolve r)).Ends x → x = .crashed .fuel := by
    intro p hp
    induction p with
    | ret a => cases hp _ (.ret a)
    | crash c => intro x hx; cases hp _ (.crash c); cases hx; rfl
    | op o k ih =>
      intro x hx
      cases hx with
      | op r hx => exact ih r (fun x hx => hp x (.op r hx)) x hx
  rw [key _ (h t.fuel) _ h1] at h2
  cases o with
  | done a => exact (h2 : False).elim
  | crashed c => cases (h2 : c = .fuel); rfl

theorem loops_of_inner (hs : Static cfg ser fs) {rid : Nat} {path request : Str}
    (ht : (cfg rid).opts.tsconfig = none)
    (h : ∀ n, resolveInner (pureCtx (cfg rid).opts fs false) n ⟨path, parseRequest request⟩ = .crash .fuel) :
    Loops cfg ser fs rid (.resolve path request) := by
  refine loops_of_pure hs fun n x hx => ?_
  unfold resolveCtx resolveStats at hx
  simp only [show (pureCtx (cfg rid).opts fs false).opts.tsconfig = none from ht, h] at hx
  cases hx
  rfl

/-- Two aliases for each other, neither of which is the beginning of the other, and a request that
starts with one of them: the call never ends, on any file system. -/
theorem C45_alias_violated (hs : Static cfg ser fs) {rid : Nat} {path request a b rest : Str}
    (ht : (cfg rid).opts.tsconfig = none)
    (ha : (cfg rid).opts.alias = [(a, .target b), (b, .target a)]) (hab : ¬ a <+: b) (hba : ¬ b <+: a)
    (hp : containsStr path MODULE = false) (hr : (parseRequest request).target = a ++ rest) :
    Loops cfg ser fs rid (.resolve path request) := by
  refine loops_of_inner hs ht fun n => ?_
  have hno : ∀ {x y : Str}, ¬ x <+: y → ¬ y <+: x → ∀ r, startsWith (x ++ r) y = false := by
    intro x y h1 h2 r
    rw [Bool.eq_false_iff]
    intro h
    rw [startsWith_iff] at h
    rcases Nat.le_total x.length y.length with hl | hl
    · exact h1 (List.prefix_of_prefix_length_le (List.prefix_append x r) h hl)
    · exact h2 (List.prefix_of_prefix_length_le h (List.prefix_append x r) hl)
  have hyes : ∀ x r : Str, startsWith (x ++ r) x = true := fun x r =>
    (startsWith_iff _ _).2 (List.prefix_append x r)
  have hne : ∀ {x y : Str}, ¬ x <+: y → ∀ r, x ++ r ≠ y := fun h r e => h ⟨r, e⟩
  have key : ∀ n (q : Request), q.target = a ++ rest ∨ q.target = b ++ rest →
      resolveInner (pureCtx (cfg rid).opts fs false) n ⟨path, q⟩ = .crash .fuel := by
    intro n
    induction n with
    | zero => intro q _; rfl
    | succ n ih =>
      intro q hq
      rw [resolveInner]
      unfold aliasPlugin
      simp only [hp, Bool.false_eq_true, if_false, show (pureCtx (cfg rid).opts fs false).opts.alias =
        [(a, .target b), (b, .target a)] from ha]
      rcases hq with hq | hq
      · rw [aliasLoop]
        simp only [hq, hyes, if_true, hne hab rest, decide_false, Bool.false_or, hno hab hba,
          Bool.false_eq_true, if_false, replaceFirst_prefix]
        rw [ih _ (.inr rfl)]
        rfl
      · rw [aliasLoop]
        simp only [hq, hno hba hab, Bool.false_eq_true, if_false]
        rw [aliasLoop]
        simp only [hq, hyes, if_true, hne hba rest, decide_false, Bool.false_or, hno hba hab,
          Bool.false_eq_true, if_false, replaceFirst_prefix]
        rw [ih _ (.inl rfl)]
        rfl
  exact key n _ (.inl hr)

/-- `a` and `b` for each other. -/
example : Loops (fun _ => config { optsA with alias := [(cs!"a", .target cs!"b"), (cs!"b", .target cs!"a")] } 0)
    serJson (treeFs treeA []) 0 (.resolve cs!"/p" cs!"a/x") :=
  C45_alias_violated (a := cs!"a") (b := cs!"b") (rest := cs!"/x")
    (static_tree rfl rfl rfl (by decide +kernel)) rfl rfl (by decide) (by decide) (by decide) rfl

theorem loops_of_pkg (hs : Static cfg ser fs) {rid : Nat} {path request : Str}
    (hp : Plain (cfg rid).opts path (parseRequest request).target)
    (h : ∀ n, pkgStage (pureCtx (cfg rid).opts fs false) n ⟨path, parseRequest request⟩ = .crash .fuel) :
    Loops cfg ser fs rid (.resolve path request) := by
  refine loops_of_inner hs hp.tsconfig fun n => ?_
  cases n with
  | zero => rfl
  | succ n =>
    rw [resolveInner_plain (c := pureCtx (cfg rid).opts fs false) (info := ⟨path, parseRequest request⟩) n
      (hp.alias.imp_left (containsStr_iff _ _).2) hp.prefer]
    unfold plainStages
    rw [h]
    rfl

/-- Imports that lead to each other: the targets in `S`. -/
theorem importsPlugin_circle {c : Ctx} {pkg : Pkg} {root : Node} {S : Str → Prop}
    (hr : pkg.importsTree = some root)
    (hS : ∀ t, S t → startsWith t cs!"#" = true ∧ ∃ item l, S (parseRequest item).target ∧
      (parseRequest item).kind = .internal ∧
      fieldProcess .imports root t c.opts.conditionNames = some (.ok (item :: l)))
    (n : Nat) (info : Info) (h : S info.request.target) :
    importsPlugin c n (some pkg) info = .crash .fuel := by
  induction n generalizing info with
  | zero => rfl
  | succ n ih =>
    obtain ⟨h1, item, l, h2, h3, h4⟩ := hS _ h
    rw [importsPlugin]
    simp only [h1, Bool.not_true, Bool.false_eq_true, if_false, hr, h4, h3]
    rw [if_neg nofun, if_pos trivial, ih _ h2]

/-- `browser` entries that lead to each other: the targets in `S`. -/
theorem aliasChain_circle {fields : List (Str × AliasMap)} {S : Str → Prop}
    (hS : ∀ t, S t → ∃ u, S u ∧ alookup t fields = some (.target u)) (n : Nat) (t : Str) (h : S t) :
    aliasChain fields n (.target t) = none := by
  induction n generalizing t with
  | zero => rfl
  | succ n ih =>
    obtain ⟨u, h1, h2⟩ := hS t h
    rw [aliasChain]
    simp only [h2]
    exact ih u h1

def optsLo : Opts := { optsA with extensions := [] }

/-- A package with these imports: `#a` is `#b`, and the other way round. -/
def treeLi : Tree :=
  .dir [(cs!"package.json", jsonFile (.obj [(cs!"imports", .obj [
    (cs!"#a", .str cs!"#b"), (cs!"#b", .str cs!"#a")])]))]

theorem static_li : Static (fun _ => config optsLo 0) serJson (treeFs treeLi []) :=
  static_ends_tree rfl nofun rfl (by decide +kernel)

/-- What a package says about an import. -/
def importAt (o : Opts) (fs : Fs) (p t : Str) : Option (List Str) :=
  (pkgAt o fs p).bind fun pkg => pkg.importsTree.bind fun root =>
    match fieldProcess .imports root t o.conditionNames with
    | some (.ok l) => some l
    | _ => none

theorem importAt_spec {o : Opts} {p t : Str} {l : List Str} {pkg : Pkg} {root : Node}
    (hp : pkgAt o fs p = some pkg) (hr : pkg.importsTree = some root)
    (h : importAt o fs p t = some l) :
    fieldProcess .imports root t o.conditionNames = some (.ok l) := by
  unfold importAt at h
  rw [hp] at h
  simp only [Option.bind_some, hr] at h
  split at h
  · rename_i l' hf; cases h; exact hf
  · cases h

theorem loads_some {o : Opts} {p : Str} {pkg : Pkg} (hp : pkgAt o fs p = some pkg) :
    Loads o fs p (.ok (some pkg)) := by
  have := loads_get (o := o) (fs := fs) (p := p) (by rw [hp]; rfl)
  simpa only [hp, Option.get_some] using this

theorem li_import : importAt optsLo.new (treeFs treeLi []) cs!"/#a" cs!"#a" = some [cs!"#b"] ∧
    importAt optsLo.new (treeFs treeLi []) cs!"/#a" cs!"#b" = some [cs!"#a"] := by decide +kernel

/-- Imports that lead to each other. -/
theorem C45_imports_violated :
    Loops (fun _ => config optsLo 0) serJson (treeFs treeLi []) 0 (.resolve cs!"/" cs!"#a") := by
  refine loops_of_pkg static_li ⟨rfl, .inr nofun, .inl rfl⟩ fun n => ?_
  obtain ⟨h1, h2⟩ := li_import
  cases hp : pkgAt optsLo.new (treeFs treeLi []) cs!"/#a" with
  | none => unfold importAt at h1; rw [hp] at h1; cases h1
  | some pkg =>
    cases hr : pkg.importsTree with
    | none => unfold importAt at h1; rw [hp] at h1; simp only [Option.bind_some, hr] at h1; cases h1
    | some root =>
      unfold pkgStage
      have hl : (pureCtx optsLo.new (treeFs treeLi []) false).load cs!"/#a" = .ret (.ok (some pkg)) :=
        loads_some hp
      show (((pureCtx optsLo.new (treeFs treeLi []) false).load cs!"/#a").bind _) = _
      rw [hl]
      simp only [Prog.ret_bind]
      change (importsPlugin (pureCtx optsLo.new (treeFs treeLi []) false) n _ _).bind _ = _
      rw [importsPlugin_circle (S := fun t => t = cs!"#a" ∨ t = cs!"#b") hr ?_ n _ (.inl rfl)]
      · rfl
      · rintro t (rfl | rfl)
        · exact ⟨rfl, cs!"#b", [], .inr rfl, by decide, importAt_spec hp hr h1⟩
        · exact ⟨rfl, cs!"#a", [], .inl rfl, by decide, importAt_spec hp hr h2⟩

def optsLb : Opts := { optsLo with browserField := true }

/-- A package with these `browser` entries: `./a.js` is `./b.js`, and the other way round. -/
def treeLb : Tree :=
  .dir [(cs!"package.json", jsonFile (.obj [(cs!"browser", .obj [
    (cs!"./a.js", .str cs!"./b.js"), (cs!"./b.js", .str cs!"./a.js")])])),
    (cs!"a.js", textFile), (cs!"b.js", textFile)]

theorem static_lb : Static (fun _ => config optsLb 0) serJson (treeFs treeLb []) :=
  static_ends_tree rfl nofun rfl (by decide +kernel)

theorem lb_fields : (pkgAt optsLb.new (treeFs treeLb []) cs!"/./a.js").map (·.aliasFields) =
    some [(cs!"./a.js", .target cs!"./b.js"), (cs!"./b.js", .target cs!"./a.js")] ∧
    (pkgAt optsLb.new (treeFs treeLb []) cs!"/./a.js").map (·.absDir) = some cs!"/" := by
  decide +kernel

theorem lb_path : pathEq (pjoin cs!"/" cs!"./a.js") cs!"/./a.js" = true := by decide +kernel

/-- `browser` entries that lead to each other. -/
theorem C45_browser_violated :
    Loops (fun _ => config optsLb 0) serJson (treeFs treeLb []) 0 (.resolve cs!"/" cs!"./a.js") := by
  refine loops_of_pkg static_lb ⟨rfl, .inr nofun, .inl rfl⟩ fun n => ?_
  obtain ⟨h1, h2⟩ := lb_fields
  cases hp : pkgAt optsLb.new (treeFs treeLb []) cs!"/./a.js" with
  | none => rw [hp] at h1; cases h1
  | some pkg =>
    rw [hp] at h1 h2
    simp only [Option.map_some, Option.some.injEq] at h1 h2
    unfold pkgStage
    have hl : (pureCtx optsLb.new (treeFs treeLb []) false).load cs!"/./a.js" = .ret (.ok (some pkg)) :=
      loads_some hp
    show (((pureCtx optsLb.new (treeFs treeLb []) false).load cs!"/./a.js").bind _) = _
    rw [hl]
    simp only [Prog.ret_bind]
    change (importsPlugin (pureCtx optsLb.new (treeFs treeLb []) false) n _
      ⟨cs!"/", parseRequest cs!"./a.js"⟩).bind _ = _
    cases n with
    | zero => rfl
    | succ n =>
      rw [importsPlugin_pass (by decide)]
      simp only [Prog.ret_bind, Stats.andThen_resolving]
      change aliasFieldPlugin (pureCtx optsLb.new (treeFs treeLb []) false) (n + 1) _
        ⟨cs!"/", parseRequest cs!"./a.js"⟩ = _
      unfold aliasFieldPlugin
      have hm : aliasMatches (pureCtx optsLb.new (treeFs treeLb []) false) pkg
          ⟨cs!"/", parseRequest cs!"./a.js"⟩ cs!"./a.js" = true := by
        unfold aliasMatches aliasPathMatches
        rw [if_neg (by decide), h2]
        exact Bool.or_eq_true_iff.2 (.inl lb_path)
      simp only [show (pureCtx optsLb.new (treeFs treeLb []) false).opts.browserField = true from rfl,
        Bool.not_true, Bool.false_eq_true, if_false, h1, List.find?_cons, hm]
      rw [aliasChain_circle (S := fun t => t = cs!"./a.js" ∨ t = cs!"./b.js") ?_ _ _ (.inr rfl)]
      rintro t (rfl | rfl)
      · exact ⟨_, .inr rfl, rfl⟩
      · exact ⟨_, .inl rfl, rfl⟩

theorem loads_comps {o : Opts} (hfs : fs.Lawful) {p q : Str} {pkg : Pkg} (ha : isAbs p = true)
    (h : comps p = comps q) (hl : Loads o fs p (.ok (some pkg))) :
    ∃ pkg', Loads o fs q (.ok (some pkg')) ∧ pkg'.raw = pkg.raw ∧ comps pkg'.absDir = comps pkg.absDir := by
  unfold Loads at hl ⊢
  cases hd : o.descriptionFile with
  | none => rw [hd] at hl; cases hl
  | some desc =>
    rw [hd] at hl
    rcases closest_comps (desc := desc) hfs ha h with ⟨h1, -⟩ | ⟨d, d', h1, h2, h3, h4, -⟩
    · rw [findPkg_none h1] at hl; cases hl
    · rw [findPkg_here h1] at hl
      rw [findPkg_here h2]
      have hr := readPkg_comps (G := fun _ => True) (R := fun _ _ => True) (desc := desc) hfs h4 h3
      rcases readPkg_cases fs d (pjoin d desc) with ⟨a, e⟩ | ⟨c, e⟩
      · rw [e] at hl hr
        cases a with
        | error err => cases hl
        | ok pk =>
          cases hl
          generalize e' : readPkg fs d' (pjoin d' desc) = y at hr
          cases hr with
          | @ret _ b hr =>
            cases b with
            | error err => exact hr.elim
            | ok pk' =>
              refine ⟨pk', rfl, ?_, ?_⟩
              · rw [show pkg = _ from hr]
              · rw [readPkg_dir e', readPkg_dir e, h3]
      · rw [e] at hl; cases hl

/-- A main field that leads back to its directory: the call never ends. -/
theorem C45_main_violated (hs : Static cfg ser fs) {rid : Nat} {path request f m : Str}
    {fl : List Str} {pkg : Pkg}
    (hp : Plain (cfg rid).opts path (parseRequest request).target)
    (hk : IsPath (parseRequest request).target)
    (hb : (cfg rid).opts.browserField = false) (hx : (cfg rid).opts.extensions = [])
    (hf : (cfg rid).opts.mainFields = f :: fl)
    (ha : isAbs (targetPath path (parseRequest request).target) = true)
    (hd : fs.isDir (targetPath path (parseRequest request).target) = true)
    (hl : Loads (cfg rid).opts fs (targetPath path (parseRequest request).target) (.ok (some pkg)))
    (ho : comps (targetPath path (parseRequest request).target) = comps pkg.absDir)
    (hm : pkg.raw.get f = some (.str m)) (h1 : m ≠ cs!".") (h2 : m ≠ cs!"./")
    (hback : comps (fieldPath (targetPath path (parseRequest request).target) m) =
      comps (targetPath path (parseRequest request).target)) :
    Loops cfg ser fs rid (.resolve path request) := by
  generalize hc : pureCtx (cfg rid).opts fs false = c
  have hcfs : c.fs = fs := by rw [← hc]; rfl
  have hco : c.opts = (cfg rid).opts := by rw [← hc]; rfl
  have hcl : ∀ p r, Loads (cfg rid).opts fs p r → c.load p = .ret r := by
    intro p r h; rw [← hc]; exact h
  generalize hdd : targetPath path (parseRequest request).target = d at *
  have notFile : ∀ q, comps q = comps d → ∀ x ∈ fileCandidates c.opts q, c.fs.isFile x = false := by
    intro q hq x hxm
    have haq : isAbs q = true := by rw [isAbs_of_comps hq]; exact ha
    unfold fileCandidates at hxm
    rw [hco, hx] at hxm
    simp only [List.map_nil, List.append_nil] at hxm
    split at hxm
    · cases hxm
    · cases List.mem_singleton.1 hxm
      rw [hcfs]
      exact hs.lawful.dirNotFile _ haq (by rw [hs.lawful.dir _ _ haq hq]; exact hd)
  have key : ∀ n (info : Info), comps (targetPath info.path info.request.target) = comps d →
      resolveAsDir c n info = .crash .fuel := by
    intro n
    induction n with
    | zero => intro info _; rfl
    | succ n ih =>
      intro info hi
      have hai : isAbs (targetPath info.path info.request.target) = true := by
        rw [isAbs_of_comps hi]; exact ha
      obtain ⟨pkg', hl', hraw, habs⟩ := loads_comps hs.lawful ha hi.symm hl
      rw [resolveAsDir_step n rfl (by rw [hcfs, hs.lawful.dir _ _ hai hi]; exact hd), hcl _ _ hl']
      simp only [Prog.ret_bind]
      have hmain : mainFieldPlugin c n (resolveAsDir c n) (some pkg')
          ((info.withPath (targetPath info.path info.request.target)).withTarget []) = .crash .fuel := by
        unfold mainFieldPlugin
        simp only [show ((info.withPath (targetPath info.path info.request.target)).withTarget []).path =
          targetPath info.path info.request.target from rfl]
        rw [if_neg (by simp [pathEq, hi, habs, ho]), hco, hf]
        have hback' : comps (fieldPath (targetPath info.path info.request.target) m) = comps d := by
          rw [← hback]
          unfold fieldPath
          exact (sim_pjoin hai hi _).1
        rw [mainFieldLoop_round (c := c) (v := m) (by rw [hraw, hm]; rfl) h1 h2,
          aliasFieldPlugin_off (by rw [hco]; exact hb)]
        simp only [Prog.ret_bind, Stats.andThen_resolving]
        rw [resolveAsFile_none (by rw [fieldInfo_target h1]; exact notFile _ hback')]
        simp only [Stats.andThen_resolving]
        rw [ih]
        · rfl
        · rw [fieldInfo_target h1]
          exact hback'
      rw [hmain]
      rfl
  refine loops_of_pure hs fun n x hx => ?_
  rw [hc] at hx
  have hfuel : resolveCtx c (n + 2) path request = .crash .fuel := by
    rw [path_stages (c := c) (pkg := some pkg) (by rw [hco]; exact hp) hk (by rw [hdd]; exact hcl _ _ hl) ?_,
      resolveAsFile_none (by rw [hdd]; exact notFile d rfl)]
    · rw [Stats.andThen_resolving, key]
      · rfl
      · rw [hdd]
    · rw [hco]
      exact fun h => by cases hb.symm.trans h
  rcases (resolveCtx_cut (c := c) (show n ≤ n + 2 by omega) path request).ends hx with h | h
  · exact h
  · rw [hfuel] at h
    cases h
    rfl

/-- `/p`, with the main field `./.`. -/
def treeLm : Tree :=
  .dir [(cs!"p", .dir [(cs!"package.json", jsonFile (.obj [(cs!"main", .str cs!"./.")]))])]

theorem lm_pkg : (pkgAt optsLo.new (treeFs treeLm []) cs!"/./p").map (·.absDir) = some cs!"/./p" ∧
    (((pkgAt optsLo.new (treeFs treeLm []) cs!"/./p").map (·.raw)).bind (·.get cs!"main")).bind
      Json.asStr = some cs!"./." := by decide +kernel

example : Loops (fun _ => config optsLo 0) serJson (treeFs treeLm []) 0 (.resolve cs!"/" cs!"./p") := by
  obtain ⟨h1, h2⟩ := lm_pkg
  cases hp : pkgAt optsLo.new (treeFs treeLm []) cs!"/./p" with
  | none => rw [hp] at h1; cases h1
  | some pkg =>
    rw [hp] at h1 h2
    simp only [Option.map_some, Option.some.injEq, Option.bind_some] at h1 h2
    have h2 : pkg.raw.get cs!"main" = some (.str cs!"./.") := by
      cases hg : pkg.raw.get cs!"main" with
      | none => rw [hg] at h2; cases h2
      | some v => rw [hg] at h2; cases v <;> cases h2; rfl
    refine C45_main_violated (pkg := pkg) (f := cs!"main") (m := cs!"./.") (fl := [])
      (static_ends_tree (o := optsLo) rfl nofun rfl (by decide +kernel))
      ⟨rfl, .inr nofun, .inl rfl⟩ (.inl ?_) rfl rfl rfl rfl ?_ (loads_some hp) ?_ h2 nofun nofun ?_
    · decide
    · decide +kernel
    · rw [h1]; rfl
    · decide +kernel

/-- `/t.json` extends itself. -/
def treeLt : Tree :=
  .dir [(cs!"t.json", jsonFile (.obj [(cs!"extends", .str cs!"/t.json")]))]

def optsLt : Opts := { optsLo with tsconfig := some cs!"/t.json" }

/-- Where the extended file is found. -/
def foundAt : Prog Stats → Option Str
  | .ret (.success (.info i)) => some i.getPath
  | _ => none

theorem lt_found : foundAt (resolveInner (pureCtx optsLt.new (treeFs treeLt []) false) 3
    ⟨cs!"/", parseRequest cs!"/t.json"⟩) = some cs!"/t.json" := by decide +kernel

theorem Prog.Cut.before {α : Type} {p : Prog α} {a : α} (h : p.Cut (.ret a)) :
    p = .crash .fuel ∨ p = .ret a := by
  cases h with
  | fuel q => exact .inl rfl
  | ret a => exact .inr rfl

theorem Prog.Cut.after {α : Type} {q : Prog α} {a : α} (h : (Prog.ret a).Cut q) : q = .ret a := by
  cases h with
  | ret a => rfl

/-- A tsconfig file that extends itself: no call of the resolver ever ends. -/
theorem C45_tsconfig_violated (path request : Str) :
    Loops (fun _ => config optsLt 0) serJson (treeFs treeLt []) 0 (.resolve path request) := by
  have hs : Static (fun _ => config optsLt 0) serJson (treeFs treeLt []) :=
    static_ends_tree rfl (fun l h => by cases h; rfl) rfl (by decide +kernel)
  refine loops_of_pure hs fun n x hx => ?_
  have hfound := lt_found
  change (resolveCtx (pureCtx optsLt.new (treeFs treeLt []) false) n path request).Ends x at hx
  have hts : (pureCtx optsLt.new (treeFs treeLt []) false).opts.tsconfig = some cs!"/t.json" := rfl
  have hread : (pureCtx optsLt.new (treeFs treeLt []) false).fs.read cs!"/t.json" =
      some ⟨some (.obj [(cs!"extends", .str cs!"/t.json")]),
        .ok (some (.obj [(cs!"extends", .str cs!"/t.json")]))⟩ := rfl
  generalize pureCtx optsLt.new (treeFs treeLt []) false = c at *
  generalize h3 : resolveInner c 3 ⟨cs!"/", parseRequest cs!"/t.json"⟩ = p3 at hfound
  have hrec : ∀ n, resolveInner c n ⟨cs!"/", parseRequest cs!"/t.json"⟩ = .crash .fuel ∨
      ∃ i, resolveInner c n ⟨cs!"/", parseRequest cs!"/t.json"⟩ = .ret (.success (.info i)) ∧
        i.getPath = cs!"/t.json" := by
    unfold foundAt at hfound
    split at hfound
    · rename_i i
      intro n
      rcases Nat.le_total n 3 with hn | hn
      · have := resolveInner_cut (c := c) hn ⟨cs!"/", parseRequest cs!"/t.json"⟩
        rw [h3] at this
        exact this.before.imp_right fun h => ⟨i, h, Option.some.inj hfound⟩
      · have := resolveInner_cut (c := c) hn ⟨cs!"/", parseRequest cs!"/t.json"⟩
        rw [h3] at this
        exact .inr ⟨i, this.after, Option.some.inj hfound⟩
    · cases hfound
  have key : ∀ n, tsValue c n cs!"/t.json" = .crash .fuel := by
    intro n
    induction n with
    | zero => rfl
    | succ n ih =>
      rw [tsValue, hread]
      simp only
      rw [show (Json.obj [(cs!"extends", .str cs!"/t.json")]).get cs!"extends" = some (.str cs!"/t.json") from rfl]
      simp only
      rw [show pparent cs!"/t.json" = some cs!"/" by decide +kernel]
      simp only
      rcases hrec n with h | ⟨i, h, hi⟩
      · rw [h]; rfl
      · rw [h]
        simp only [Prog.ret_bind, hi, ih]
        rfl
  unfold resolveCtx resolveStats at hx
  simp only [hts] at hx
  unfold resolveWithTsconfig at hx
  rw [key] at hx
  cases hx
  rfl

/-- A relative path: above it there is no directory with that text, and the loop that notes that there is
no description file stands still. -/
theorem C45_hang_violated :
    ((Sys.init (treeFs treeA [])).after (fun _ => config optsA 0) serJson
      (oneByOne 5 0 [(0, .resolve cs!"p" cs!"./a.js")])).crash 0 = some .hang := by
  decide +kernel

end Verif
