import Verif.Spec.Trees
import Verif.Proofs.Transparent
import Verif.Proofs.Lawful
import Verif.Proofs.Nearest
import Verif.Proofs.Clear
import Verif.Spec.Examples
/-!
# Properties about caches: C32, C33, C34, C37, C38, C46, C49
-/

namespace Verif

variable {cfg : Nat → Config} {ser : Json → Str} {fs : Fs}

theorem AnsSim.symm {a b : Except Err Result} (h : AnsSim a b) : AnsSim b a := by
  cases a <;> cases b
  · exact ErrSim.symm h
  · exact h
  · exact h
  · exact Eq.symm h

theorem AnsSim.trans {a b c : Except Err Result} (h : AnsSim a b) (h' : AnsSim b c) :
    AnsSim a c := by
  cases a <;> cases b <;> cases c <;> first
    | exact ErrSim.trans h h'
    | exact Eq.trans h h'
    | exact (h : False).elim
    | exact (h' : False).elim

theorem SideSim.symm {a b : Except Err (Option (Str × Option SideEffects))} (h : SideSim a b) :
    SideSim b a := by
  rcases a with a | _ | ⟨d, x⟩ <;> rcases b with b | _ | ⟨d', x'⟩ <;> first
    | exact ErrSim.symm h
    | exact ⟨h.1.symm, h.2.symm⟩
    | exact h

theorem SideSim.trans {a b c : Except Err (Option (Str × Option SideEffects))} (h : SideSim a b)
    (h' : SideSim b c) : SideSim a c := by
  rcases a with a | _ | ⟨d, x⟩ <;> rcases b with b | _ | ⟨d', x'⟩ <;>
    rcases c with c | _ | ⟨d'', x''⟩ <;> first
    | exact (h : False).elim
    | exact (h' : False).elim
    | exact ErrSim.trans h h'
    | exact ⟨h.1.trans h'.1, h.2.trans h'.2⟩
    | exact trivial

theorem Answer.Sim.symm {a b : Answer} (h : a.Sim b) : b.Sim a := by
  cases a <;> cases b <;> first
    | exact (h : False).elim
    | exact AnsSim.symm h
    | exact SideSim.symm h

theorem Answer.Sim.trans {a b c : Answer} (h : a.Sim b) (h' : b.Sim c) : a.Sim c := by
  cases a <;> cases b <;> cases c <;> first
    | exact (h : False).elim
    | exact (h' : False).elim
    | exact AnsSim.trans h h'
    | exact SideSim.trans h h'

theorem Outcome.Like.join {α β : Type} {Q : α → β → Prop} {Q' : α → α → Prop}
    (hQ : ∀ a b c, Q a c → Q b c → Q' a b) {a b : Outcome α} {c : Outcome β} (h : a.Like Q c)
    (h' : b.Like Q c) : a.Like Q' b := by
  cases a <;> cases b <;> cases c <;> first
    | exact (h : False).elim
    | exact (h' : False).elim
    | exact hQ _ _ _ h h'
    | exact Eq.trans h (Eq.symm h')

theorem Answer.like_join {a b c : Outcome Answer} (h : a.Like Answer.Sim c)
    (h' : b.Like Answer.Sim c) : a.Like Answer.Sim b :=
  h.join (fun _ _ _ h h' => h.trans h'.symm) h'

/-! ## C32 -/

/-- C32: after any history of calls on an unchanging file system, in any interleaving, looking for
the package of a path gives the contents of the closest description file. Missing: an exports value
that equals an imports value (`C38_mixed_violated`); debug builds (`C33_debug_violated`); resolvers that
share a cache but name their description files differently (`C37_description_violated`). -/
theorem C32_lookup_partial (hs : Static cfg ser fs) (l : List Event) (hl : ∀ e ∈ l, e.calm)
    (rid : Nat) (desc : Str) (hd : (cfg rid).opts.descriptionFile = some desc) (seeds : Nat → Nat)
    (p : Str) (ha : isAbs p = true) :
    let w := ((Sys.init fs).after cfg ser l).shared.view cfg rid seeds
    let found := ((loadPkg ((cfg rid).env ser fs) p).run w).1
    match closest fs desc p with
    | none => found.Like (SameLoad fs) (.done (.ok none))
    | some d =>
      (∀ pkg, readPkg fs d (pjoin d desc) = .ret (.ok pkg) →
        found.Like (SameLoad fs) (.done (.ok (some pkg)))) ∧
      (∀ err, readPkg fs d (pjoin d desc) = .ret (.error err) →
        found.Like (SameLoad fs) (.done (.error err))) ∧
      ∀ c, readPkg fs d (pjoin d desc) = .crash c → found.Like (SameLoad fs) (.crashed c) := by
  intro w found
  have hrel := loadPkgAux_rel (e := (cfg rid).env ser fs) (n := p.length + 1) (hs.env rid).toFaith hd
    (by omega) ha (rfl : comps p = comps p)
  have hw := (static_after hs hl).1 rid seeds
  have hG : (FGo fs (some desc) ser) = FG fs desc ser := rfl
  rw [hd] at hw
  obtain ⟨o, h1, h2⟩ := Prog.Rel.run (desc := some desc) hrel hw
  have h2 : found.Like (SameLoad fs) o := h2
  have h1 : (findPkg fs (some desc) p).Ends o := h1
  cases hcl : closest fs desc p with
  | none =>
    rw [findPkg_none hcl] at h1
    cases h1
    exact h2
  | some d =>
    rw [findPkg_here hcl] at h1
    refine ⟨fun pkg hp => ?_, fun err hp => ?_, fun c hp => ?_⟩ <;> rw [hp] at h1
    · cases h1; exact h2
    · cases h1; exact h2
    · cases h1; exact h2

/-- C32, the contents, also in debug builds and if an exports value equals an imports value: a package
that is found has the name and contents of the closest description file, and if none is found there is
none. Missing: resolvers that share a cache but name their description files differently. -/
theorem C32_contents_partial (hfs : fs.Lawful)
    (hdesc : ∀ rid rid' d d', (cfg rid).cache = (cfg rid').cache →
      (cfg rid).opts.descriptionFile = some d → (cfg rid').opts.descriptionFile = some d' → d = d')
    (l : List Event) (hl : ∀ fs', Event.change fs' ∉ l) (rid : Nat) (desc : Str)
    (hd : (cfg rid).opts.descriptionFile = some desc) (seeds : Nat → Nat) (p : Str)
    (ha : isAbs p = true) :
    let w := ((Sys.init fs).after cfg ser l).shared.view cfg rid seeds
    let found := ((loadPkg ((cfg rid).env ser fs) p).run w).1
    (found = .done (.ok none) → closest fs desc p = none) ∧
    ∀ pkg, found = .done (.ok (some pkg)) → ∃ d doc, closest fs desc p = some d ∧
      comps pkg.absDir = comps d ∧ fs.read (pjoin d desc) = some doc ∧ doc.json = some pkg.raw ∧
      pkg.name = (pkg.raw.get cs!"name").bind Json.asStr := by
  intro w found
  have hn := near_after (ser := ser) hfs hdesc l hl
  let I : World → Prop := fun w => ∃ s seeds, Near fs cfg s ∧ w = s.view cfg rid seeds
  have hrun := Prog.Sat.run (I := I) (w := w) (fun w o hI hG => ?_) (loadPkg_entry (cfg := cfg) (ser := ser) hfs rid p)
    ⟨_, seeds, hn, rfl⟩
  · have hpost : ∀ x, found = .done x → NearPost fs desc p x := fun x hx => hrun.2 x hx desc hd
    refine ⟨fun h => (hpost _ h ha).1 rfl, fun pkg h => ?_⟩
    obtain ⟨d, h1, h2⟩ := (hpost _ h ha).2 pkg rfl
    obtain ⟨doc, h3, h4⟩ := h2.json
    exact ⟨d, doc, h1, h2.dir, h3, h4, h2.name⟩
  · obtain ⟨s, seeds, h1, rfl⟩ := hI
    obtain ⟨h2, h3⟩ := near_step hfs hdesc s rid o seeds h1 hG
    refine ⟨⟨_, (Op.exec (s.view cfg rid seeds) o).2.seeds, h2, ?_⟩, h3⟩
    simp [Shared.view, Shared.store, upd]

/-! ## C33, C34, C37 -/

/-- C33: on an unchanging file system, a call that is over ended as it does on a fresh resolver with
the same options, whatever happened before and meanwhile. (If
two entries of the `paths` of a tsconfig match, they are tried in an order that differs between runs:
the fresh resolver ends so for some order.) Missing: as
for `C32_lookup_partial`; `browser` maps with keys that cover the same path
(`C49_order_violated`). -/
theorem C33_transparent_partial (hs : Static cfg ser fs) (l : List Event) (hl : ∀ e ∈ l, e.calm)
    (t : Task) (ht : t ∈ ((Sys.init fs).after cfg ser l).tasks) (hc : t.call.abs)
    (o : Outcome Answer) (ho : t.prog.outcome = some o) :
    (∃ seeds, o.Like Answer.Sim
      ((t.call.prog ((cfg t.rid).env ser fs) t.fuel).run (World.init seeds)).1) ∧
    (TsClear (cfg t.rid).opts fs t.call → ∀ seeds, o.Like Answer.Sim
      ((t.call.prog ((cfg t.rid).env ser fs) t.fuel).run (World.init seeds)).1) := by
  obtain ⟨o', h1, h2⟩ := static_ends hs hl ht ho
  have hrel := call_rel hs t.rid hc t.fuel
  have hw : ∀ seeds, FaithWo fs (cfg t.rid).opts.descriptionFile ser (World.init seeds) :=
    fun seeds d _ => faithW_init fs d ser seeds
  constructor
  · obtain ⟨seeds, h⟩ := hrel.run_exists (hw fun _ => 0) h1
    exact ⟨seeds, Answer.like_join h2 h⟩
  · intro hts seeds
    obtain ⟨x, hx⟩ := call_sure hs t.rid hts t.fuel
    obtain ⟨o'', h3, h4⟩ := hrel.run (hw seeds)
    rw [hx _ h1] at h2
    rw [hx _ h3] at h4
    exact Answer.like_join h2 h4

/-- C34, C37: two calls with the same arguments, of resolvers with the same options, end alike: in
any two systems on the same unchanging file system, with any other calls before and in between, and
with caches shared with other resolvers or not. -/
theorem calls_agree {cfg' : Nat → Config} (hs : Static cfg ser fs) (hs' : Static cfg' ser fs)
    (l l' : List Event) (hl : ∀ e ∈ l, e.calm) (hl' : ∀ e ∈ l', e.calm)
    (t t' : Task) (ht : t ∈ ((Sys.init fs).after cfg ser l).tasks)
    (ht' : t' ∈ ((Sys.init fs).after cfg' ser l').tasks)
    (hopts : (cfg t.rid).opts = (cfg' t'.rid).opts) (hcall : t.call = t'.call)
    (hfuel : t.fuel = t'.fuel) (hts : TsClear (cfg t.rid).opts fs t.call)
    (o o' : Outcome Answer) (ho : t.prog.outcome = some o) (ho' : t'.prog.outcome = some o') :
    o.Like Answer.Sim o' := by
  obtain ⟨x, h1, h2⟩ := static_ends hs hl ht ho
  obtain ⟨x', h1', h2'⟩ := static_ends hs' hl' ht' ho'
  obtain ⟨y, hy⟩ := call_sure hs t.rid hts t.fuel
  have e : t'.call.pure (cfg' t'.rid) fs t'.fuel = t.call.pure (cfg t.rid) fs t.fuel := by
    rw [← hcall, ← hfuel]
    simp only [Call.pure]
    rw [hopts, hs.debug t.rid, hs'.debug t'.rid]
  rw [e] at h1'
  rw [hy _ h1] at h2
  rw [hy _ h1'] at h2'
  exact Answer.like_join h2 h2'

/-- C34: a call that runs interleaved with others ends as it does when it runs alone on a fresh
system. Missing: as for `C33_transparent_partial`; two entries of the `paths` of a tsconfig that match the
request (there the order differs between runs, with or without other calls: `C49_tsconfig_violated`). -/
theorem C34_interleaved_partial (hs : Static cfg ser fs) (l l' : List Event)
    (hl : ∀ e ∈ l, e.calm) (t t' : Task) (ht : t ∈ ((Sys.init fs).after cfg ser l).tasks)
    (rid : Nat) (call : Call) (fuel : Nat) (hrid : t.rid = rid) (hcall : t.call = call)
    (hfuel : t.fuel = fuel) (hc : call.abs) (hts : TsClear (cfg rid).opts fs call)
    (halone : ∀ e ∈ l', ∃ seed, e = .step 0 seed)
    (ht' : t' ∈ ((Sys.init fs).after cfg ser (.start rid call fuel :: l')).tasks)
    (o o' : Outcome Answer) (ho : t.prog.outcome = some o) (ho' : t'.prog.outcome = some o') :
    o.Like Answer.Sim o' := by
  have key : ∀ (l' : List Event) (s : Sys), (∀ e ∈ l', ∃ seed, e = .step 0 seed) →
      (∀ t ∈ s.tasks, t.rid = rid ∧ t.call = call ∧ t.fuel = fuel) →
      ∀ t ∈ (s.after cfg ser l').tasks, t.rid = rid ∧ t.call = call ∧ t.fuel = fuel := by
    intro l'
    induction l' with
    | nil => intro s _ h; exact h
    | cons e l' ih =>
      intro s he h
      refine ih (s.next cfg ser e) (fun e h => he e (List.mem_cons_of_mem _ h)) ?_
      obtain ⟨seed, rfl⟩ := he e (by simp)
      unfold Sys.next
      simp only
      split
      · exact h
      · rename_i u hu
        split
        · intro t ht
          rcases List.mem_or_eq_of_mem_set ht with ht | rfl
          · exact h t ht
          · exact h u (List.mem_of_getElem? hu)
        · exact h
  obtain ⟨h1, h2, h3⟩ := key l' ((Sys.init fs).next cfg ser (.start rid call fuel)) halone
    (by intro t ht; simp only [Sys.next, Sys.init, List.nil_append, List.mem_singleton] at ht
        subst ht; exact ⟨rfl, rfl, rfl⟩) t' ht'
  refine calls_agree hs hs l (.start rid call fuel :: l') hl ?_ t t' ht ht' (by rw [hrid, h1])
    (by rw [hcall, h2]) (by rw [hfuel, h3]) (by rw [hrid, hcall]; exact hts)
    o o' ho ho'
  intro e he
  rcases List.mem_cons.1 he with rfl | he
  · exact hc
  · obtain ⟨seed, rfl⟩ := halone e he
    trivial

/-- C37: resolvers that share a cache answer like resolvers with the same options that each have a
cache of their own. Missing: as for `C34_interleaved_partial`; different names for the description
file (`C37_description_violated`). -/
theorem C37_sharing_partial {cfg' : Nat → Config} (hs : Static cfg ser fs)
    (hopts : ∀ rid, (cfg' rid).opts = (cfg rid).opts ∧ (cfg' rid).debug = false)
    (hown : ∀ rid rid', (cfg' rid).cache = (cfg' rid').cache → rid = rid')
    (l l' : List Event) (hl : ∀ e ∈ l, e.calm) (hl' : ∀ e ∈ l', e.calm)
    (t t' : Task) (ht : t ∈ ((Sys.init fs).after cfg ser l).tasks)
    (ht' : t' ∈ ((Sys.init fs).after cfg' ser l').tasks) (hrid : t.rid = t'.rid)
    (hcall : t.call = t'.call) (hfuel : t.fuel = t'.fuel)
    (hts : TsClear (cfg t.rid).opts fs t.call)
    (o o' : Outcome Answer) (ho : t.prog.outcome = some o) (ho' : t'.prog.outcome = some o') :
    o.Like Answer.Sim o' := by
  have hs' : Static cfg' ser fs := {
    lawful := hs.lawful
    debug := fun rid => (hopts rid).2
    inj := hs.inj
    mix := hs.mix
    desc := fun rid rid' d d' hc hd hd' => by
      obtain rfl := hown rid rid' hc
      rw [hd] at hd'; cases hd'; rfl
    browser := fun rid desc hb hd => by
      rw [(hopts rid).1] at hb hd ⊢
      exact hs.browser rid desc hb hd
    tsconfig := fun rid l h => by
      rw [(hopts rid).1] at h
      exact hs.tsconfig rid l h }
  exact calls_agree hs hs' l l' hl hl' t t' ht ht' (by rw [hrid, (hopts _).1]) hcall hfuel hts
    o o' ho ho'

/-! ## C38 -/

theorem withTree_ret {α : Type} {k : FieldKind} {v : Option Json}
    {next : Option Node → Prog (Except Err α)} {a : α}
    (h : withTree k v next = .ret (.ok a)) :
    ∃ t, next t = .ret (.ok a) ∧ OwnTree k v t := by
  unfold withTree at h
  cases v with
  | none => exact ⟨none, h, rfl⟩
  | some v =>
    simp only at h
    cases hb : buildTree k v with
    | none => rw [hb] at h; cases h
    | some x =>
      rw [hb] at h
      cases x with
      | error err => cases h
      | ok t => exact ⟨some t, h, t, rfl, hb⟩

theorem readPkg_trees {d file : Str} {p : Pkg} (h : readPkg fs d file = .ret (.ok p)) :
    OwnTree .exports (p.raw.get cs!"exports") p.exportsTree ∧
      OwnTree .imports (p.raw.get cs!"imports") p.importsTree := by
  unfold readPkg at h
  split at h
  · split at h
    · cases h
    · rename_i json hj
      split at h
      · cases h
      · obtain ⟨et, h, h1⟩ := withTree_ret h
        obtain ⟨it, h, h2⟩ := withTree_ret h
        split at h
        · cases h
        · cases h; exact ⟨h1, h2⟩
  · cases h

/-- C38: on an unchanging file system, every package in the cache has the exports tree built from
its own exports value, and the imports tree built from its own imports value, whichever packages
were read before. Missing: an exports value that equals an imports value of another package
(`C38_mixed_violated`). -/
theorem C38_trees_partial (hs : Static cfg ser fs) (l : List Event) (hl : ∀ e ∈ l, e.calm)
    (rid : Nat) (hd : (cfg rid).opts.descriptionFile ≠ none) (key : List Comp) (p : Pkg)
    (hp : (((Sys.init fs).after cfg ser l).shared.caches (cfg rid).cache).pkg key =
      some (some p)) :
    OwnTree .exports (p.raw.get cs!"exports") p.exportsTree ∧
      OwnTree .imports (p.raw.get cs!"imports") p.importsTree := by
  obtain ⟨desc, hd⟩ := Option.ne_none_iff_exists'.1 hd
  have hw := (static_after hs hl).1 rid (fun _ => 0) desc hd
  obtain ⟨d, p', seed, -, -, -, -, hr, rfl⟩ := hw.pkg key (some p) hp
  have := readPkg_trees (readPkg_returns hr)
  exact this

/-! ## C46 -/

/-- C46: after any history of calls on an unchanging file system, `load_side_effects` returns the
closest description file and its `sideEffects` entry, or nothing if there is none. Missing: as for
`C32_lookup_partial` (see `C46_found_partial` for what holds without `Static`). -/
theorem C46_closest_partial (hs : Static cfg ser fs) (l : List Event) (hl : ∀ e ∈ l, e.calm)
    (rid : Nat) (desc : Str) (hd : (cfg rid).opts.descriptionFile = some desc) (seeds : Nat → Nat)
    (p : Str) (ha : isAbs p = true) :
    let w := ((Sys.init fs).after cfg ser l).shared.view cfg rid seeds
    let answer := ((loadSideEffects ((cfg rid).env ser fs) p).run w).1
    (closest fs desc p = none → answer = .done (.ok none)) ∧
    ∀ d pkg, closest fs desc p = some d → readPkg fs d (pjoin d desc) = .ret (.ok pkg) →
      ∃ file, comps file = comps (pjoin d desc) ∧ answer = .done (.ok (some (file, pkg.sideEffects))) := by
  intro w answer
  have hrel := sideEffects_rel (hs.env rid).toFaith ha
  have hw := (static_after hs hl).1 rid seeds
  obtain ⟨o, h1, h2⟩ := Prog.Rel.run hrel hw
  have h2 : answer.Like SideSim o := h2
  have h1 : (findSideEffects fs (cfg rid).opts.descriptionFile p).Ends o := h1
  rw [hd] at h1
  unfold findSideEffects at h1
  constructor
  · intro hcl
    rw [findPkg_none hcl] at h1
    cases h1
    rcases hans : answer with a | c
    · rw [hans] at h2
      rcases a with _ | _ | ⟨_, _⟩
      · exact (h2 : False).elim
      · rfl
      · exact (h2 : False).elim
    · rw [hans] at h2; exact (h2 : False).elim
  · intro d pkg hcl hr
    rw [findPkg_here hcl, hr] at h1
    cases h1
    have hpd := readPkg_dir hr
    rcases hans : answer with a | c
    · rw [hans] at h2
      rcases a with _ | _ | ⟨f, x⟩
      · exact (h2 : False).elim
      · exact (h2 : False).elim
      · obtain ⟨h3, h4⟩ : comps f = comps (pjoin pkg.absDir desc) ∧ x = pkg.sideEffects := h2
        rw [hpd] at h3
        exact ⟨f, h3, by rw [h4]⟩
    · rw [hans] at h2; exact (h2 : False).elim

/-! ## C49 -/

/-- C49: on a fresh resolver, a call ends alike whatever the iteration order of hash maps.
Missing: `browser` maps with keys that cover the same path (`C49_order_violated`); two entries
of the `paths` of a tsconfig that match the request (`C49_tsconfig_violated`). -/
theorem C49_order_partial (hs : Static cfg ser fs) (rid : Nat) (call : Call) (hc : call.abs)
    (hts : TsClear (cfg rid).opts fs call) (fuel : Nat) (seeds seeds' : Nat → Nat) :
    ((call.prog ((cfg rid).env ser fs) fuel).run (World.init seeds)).1.Like Answer.Sim
      ((call.prog ((cfg rid).env ser fs) fuel).run (World.init seeds')).1 := by
  have hrel := call_rel hs rid hc fuel
  have hw : ∀ seeds, FaithWo fs (cfg rid).opts.descriptionFile ser (World.init seeds) :=
    fun seeds d _ => faithW_init fs d ser seeds
  obtain ⟨x, hx⟩ := call_sure hs rid hts fuel
  obtain ⟨o, h3, h4⟩ := hrel.run (hw seeds)
  obtain ⟨o', h3', h4'⟩ := hrel.run (hw seeds')
  rw [hx _ h3] at h4
  rw [hx _ h3'] at h4'
  exact Answer.like_join h4 h4'

/-! ## Counterexamples -/

/-- `/p/node_modules/a/package.json` has imports, `/p/node_modules/b/package.json` has the same
value as exports. -/
def treeMixed : Tree :=
  .dir [(cs!"p", .dir [(cs!"node_modules", .dir [
    (cs!"a", .dir [
      (cs!"package.json", jsonFile (.obj [(cs!"imports", .obj [(cs!"#x", .str cs!"./y.js")])]))]),
    (cs!"b", .dir [
      (cs!"package.json", jsonFile (.obj [(cs!"exports", .obj [(cs!"#x", .str cs!"./y.js")])])),
      (cs!"y.js", textFile)])])])]

/-- The system after calls of one resolver on `treeMixed`, one after the other. -/
def sysMixed (l : List Call) : Sys :=
  (Sys.init (treeFs treeMixed [])).after (fun _ => config optsA 0) serJson
    (oneByOne 40 0 (l.map fun c => (0, c)))

/-- The exports tree of the package cached for a directory. -/
def Sys.treeOf (s : Sys) (dir : Str) : Option Node :=
  match (s.shared.caches 0).pkg (comps dir) with
  | some (some p) => p.exportsTree
  | _ => none

/-- The targets that an exports tree has for a request. -/
def cachedTargets (t : Option Node) (r : Str) : Option (List Str) :=
  match t with
  | none => none
  | some t =>
    match fieldProcess .exports t r [] with
    | some (.ok l) => some l
    | _ => none

/-- C38 does not hold in general: the tree of the imports of `a` is used as the exports tree of `b`.
With its own tree `b` has no target for `./x`. -/
theorem C38_mixed_violated :
    cachedTargets ((sysMixed [.sideEffects cs!"/p/node_modules/a", .sideEffects cs!"/p/node_modules/b"]).treeOf
        cs!"/p/node_modules/b") cs!"./x" = some [cs!"./y.js"] ∧
      (∃ t, buildTree .exports (.obj [(cs!"#x", .str cs!"./y.js")]) = some (.ok t) ∧
        cachedTargets (some t) cs!"./x" = some []) :=
  ⟨by decide +kernel, _, rfl, by decide +kernel⟩

/-- C33 does not hold in general: a request fails on a fresh resolver, and succeeds after another
call. -/
theorem C33_mixed_violated :
    (sysMixed [.resolve cs!"/p" cs!"b/x"]).failed 0 = true ∧
      ((sysMixed [.resolve cs!"/p" cs!"a/package.json", .resolve cs!"/p" cs!"b/x"]).info 1).map
        Info.path = some cs!"/p/node_modules/b/y.js" := by
  decide +kernel

/-- C32 does not hold in general: what is cached for the package `/p/node_modules/b` depends on
the calls made before. -/
theorem C32_mixed_violated :
    cachedTargets ((sysMixed [.sideEffects cs!"/p/node_modules/b"]).treeOf
        cs!"/p/node_modules/b") cs!"./x" = some [] ∧
      cachedTargets ((sysMixed
        [.sideEffects cs!"/p/node_modules/a", .sideEffects cs!"/p/node_modules/b"]).treeOf
        cs!"/p/node_modules/b") cs!"./x" = some [cs!"./y.js"] := by
  decide +kernel

/-- Two calls that run at the same time; the first is `n` steps ahead. -/
def eventsAhead (n : Nat) : List Event :=
  .start 0 (.resolve cs!"/p" cs!"a/package.json") 20 :: .start 0 (.resolve cs!"/p" cs!"b/x") 20 ::
    (List.replicate n (.step 0 0) ++ (List.replicate 40 [.step 0 0, .step 1 0]).flatten)

/-- C34 does not hold in general: the result depends on how two calls interleave. -/
theorem C34_mixed_violated :
    let s (n : Nat) := (Sys.init (treeFs treeMixed [])).after (fun _ => config optsA 0) serJson
      (eventsAhead n)
    (s 0).failed 1 = true ∧ ((s 1).info 1).map Info.path = some cs!"/p/node_modules/b/y.js" := by
  decide +kernel

/-- `/p/package.json` is not JSON. -/
def treeBroken : Tree := .dir [(cs!"p", .dir [(cs!"package.json", textFile), (cs!"a.js", textFile)])]

/-- C33 does not hold in debug builds: the second call panics where the first returned an error. -/
theorem C33_debug_violated :
    let s := (Sys.init (treeFs treeBroken [])).after
      (fun _ => { config optsA 0 with debug := true }) serJson
      (oneByOne 40 0 [(0, .resolve cs!"/p" cs!"./a"), (0, .resolve cs!"/p" cs!"./a")])
    s.failed 0 = true ∧ s.crash 1 = some (.panic .dbgReparse) := by
  decide +kernel

/-- `/p/package.json` with imports, and no other description file. -/
def treeDesc : Tree :=
  .dir [(cs!"p", .dir [
    (cs!"package.json", jsonFile (.obj [(cs!"imports", .obj [(cs!"#x", .str cs!"./y.js")])])),
    (cs!"y.js", textFile)])]

/-- C37 does not hold in general: a resolver for `other.json` uses what a resolver for
`package.json` put into the shared cache. -/
theorem C37_description_violated :
    let cfg (shared : Bool) (rid : Nat) :=
      if rid = 0 then config optsA 0
      else config { optsA with descriptionFile := some cs!"other.json" } (if shared then 0 else 1)
    let s (shared : Bool) := (Sys.init (treeFs treeDesc [])).after (cfg shared) serJson
      (oneByOne 40 0 [(0, .resolve cs!"/p" cs!"./y.js"), (1, .resolve cs!"/p" cs!"#x")])
    (s false).failed 1 = true ∧ ((s true).info 1).map Info.path = some cs!"/p/y.js" := by
  decide +kernel

/-- `browser` maps both `./a` and `./a.js`. -/
def treeOrder : Tree :=
  .dir [(cs!"p", .dir [
    (cs!"package.json", jsonFile (.obj [(cs!"browser", .obj [
      (cs!"./a", .str cs!"./x.js"), (cs!"./a.js", .str cs!"./y.js")])])),
    (cs!"x.js", textFile), (cs!"y.js", textFile)])]

/-- C49 does not hold in general: the result depends on the iteration order of the `browser` map. -/
theorem C49_order_violated :
    let s (seed : Nat) := (Sys.init (treeFs treeOrder [])).after
      (fun _ => config { optsA with browserField := true } 0) serJson
      (oneByOne 40 seed [(0, .resolve cs!"/p" cs!"./a")])
    ((s 0).info 0).map Info.path = some cs!"/p/x.js" ∧
      ((s 1).info 0).map Info.path = some cs!"/p/y.js" := by
  decide +kernel

/-- `/t.json` with two `paths` entries. -/
def treeClear (key : Str) : Tree :=
  .dir [(cs!"t.json", jsonFile (.obj [(cs!"compilerOptions", .obj [(cs!"baseUrl", .str cs!"."),
      (cs!"paths", .obj [(cs!"@/*", .arr [.str cs!"x/*"]), (key, .arr [.str cs!"y/*"])])])])),
    (cs!"x", .dir [(cs!"a.js", textFile)]),
    (cs!"y", .dir [(cs!"a.js", textFile), (cs!"@", .dir [(cs!"a.js", textFile)])])]

/-- The resolver that uses it. -/
def cfgClear (_ : Nat) : Config := config { optsA with tsconfig := some cs!"/t.json" } 0

/-- C49 does not hold in general: if two entries of the `paths` of a tsconfig match, the result depends
on their iteration order. -/
theorem C49_tsconfig_violated :
    let s (seed : Nat) := (Sys.init (treeFs (treeClear cs!"*") [])).after cfgClear serJson
      (oneByOne 40 seed [(0, .resolve cs!"/" cs!"@/a")])
    ((s 0).info 0).map Info.path = some cs!"/x/a.js" ∧
      ((s 1).info 0).map Info.path = some cs!"/y/@/a.js" := by
  decide +kernel


/-! ## The hypotheses can be met -/

/-- `/p` with imports and a `browser` map, `/p/node_modules/m` with exports and `sideEffects`. -/
def treeStatic : Tree :=
  .dir [(cs!"p", .dir [
    (cs!"package.json", jsonFile (.obj [
      (cs!"imports", .obj [(cs!"#x", .str cs!"./a.js")]),
      (cs!"browser", .obj [(cs!"./a.js", .str cs!"./b.js")])])),
    (cs!"a.js", textFile), (cs!"b.js", textFile),
    (cs!"node_modules", .dir [(cs!"m", .dir [
      (cs!"package.json", jsonFile (.obj [
        (cs!"exports", .obj [(cs!".", .str cs!"./index.js")]),
        (cs!"sideEffects", .bool false)])),
      (cs!"index.js", textFile)])])])]

/-- Two resolvers with different options that share a cache. -/
def cfgStatic (rid : Nat) : Config :=
  config { optsA with browserField := decide (rid = 1) } 0

/-- What the files of `treeStatic` contain, in a form that can be checked. -/
def docStatic (d : Doc) : Bool :=
  match d.json with
  | none => true
  | some j =>
    (match j.get cs!"exports" with
      | none => true
      | some v => decide (serJson v = serJson (.obj [(cs!".", .str cs!"./index.js")]))) &&
    (match j.get cs!"imports" with
      | none => true
      | some v => decide (serJson v = serJson (.obj [(cs!"#x", .str cs!"./a.js")]))) &&
    match browserFields j with
    | none | some [] => true
    | some [(_, .target t)] => t ≠ [] && t ≠ cs!"."
    | _ => false

theorem static_example : Static cfgStatic serJson (treeFs treeStatic []) where
  lawful := treeFs_lawful [] rfl
  debug _ := rfl
  inj _ _ := serJson_inj
  mix v t he hi _ := by
    exfalso
    obtain ⟨p, doc, json, hr, hj, hv⟩ := he
    obtain ⟨p', doc', json', hr', hj', hv'⟩ := hi
    have h1 := allDoc_read (P := docStatic) (t := treeStatic) (by decide +kernel) hr
    have h2 := allDoc_read (P := docStatic) (t := treeStatic) (by decide +kernel) hr'
    unfold docStatic at h1 h2
    rw [hj] at h1
    rw [hj'] at h2
    simp only [hv, hv', Bool.and_eq_true, decide_eq_true_eq] at h1 h2
    have := h1.1.1.symm.trans h2.1.2
    revert this
    decide +kernel
  desc rid rid' d d' _ h h' := by
    have e : ∀ rid, (cfgStatic rid).opts.descriptionFile = some cs!"package.json" := fun _ => rfl
    rw [e] at h h'
    rw [← Option.some.inj h, ← Option.some.inj h']
  browser rid desc _ _ d doc json fields _ hr hj hf := by
    have h1 := allDoc_read (P := docStatic) (t := treeStatic) (by decide +kernel) hr
    unfold docStatic at h1
    rw [hj] at h1
    simp only [hf, Bool.and_eq_true] at h1
    replace h1 := h1.2
    split at h1
    · rename_i h; cases h
    · rename_i h; cases h
      exact ⟨nofun, nofun⟩
    · rename_i k t h; cases h
      refine ⟨fun x k v k' v' _ hk hk' _ _ => ?_, fun k t hk => ?_⟩
      · rw [List.mem_singleton] at hk hk'
        cases hk; cases hk'; rfl
      · rw [List.mem_singleton] at hk
        cases hk
        simpa using h1
    · cases h1
  tsconfig rid l h := by cases h

/-- Calls of both resolvers, step by step in turn. -/
def eventsStatic : List Event :=
  [.start 0 (.resolve cs!"/p" cs!"m") 20, .start 1 (.resolve cs!"/p" cs!"./a") 20,
    .start 0 (.resolve cs!"/p" cs!"#x") 20, .start 1 (.sideEffects cs!"/p/node_modules/m") 20] ++
  (List.replicate 60 [.step 0 0, .step 1 0, .step 2 0, .step 3 0]).flatten

example : (∀ e ∈ eventsStatic, e.calm) ∧
    let s := (Sys.init (treeFs treeStatic [])).after cfgStatic serJson eventsStatic
    (s.info 0).map Info.path = some cs!"/p/node_modules/m/index.js" ∧
    (s.info 1).map Info.path = some cs!"/p/b.js" ∧
    (s.info 2).map Info.path = some cs!"/p/a.js" ∧
    (s.outcome 3).isSome = true := by
  refine ⟨?_, by decide +kernel⟩
  have : ∀ e ∈ eventsStatic, (match e with
      | .start _ (.resolve p _) _ => isAbs p
      | .start _ (.sideEffects p) _ => isAbs p
      | .change _ => false
      | .step _ _ => true) = true := by
    intro e he
    simp only [eventsStatic, List.mem_append, List.mem_flatten, List.mem_replicate] at he
    rcases he with he | ⟨l, ⟨-, rfl⟩, he⟩
    · simp only [List.mem_cons, List.not_mem_nil, or_false] at he
      rcases he with rfl | rfl | rfl | rfl <;> decide
    · simp only [List.mem_cons, List.not_mem_nil, or_false] at he
      rcases he with rfl | rfl | rfl | rfl <;> rfl
  intro e he
  have := this e he
  rcases e with ⟨_, _ | _, _⟩ | _ | _
  · exact this
  · exact this
  · cases this
  · trivial

theorem wfDocs_tree {t : Tree} {cwd : List Str} (h : t.allDoc (fun d => match d.jsonc with
    | .ok (some j) => j.wf
    | _ => true) = true) : WfDocs (treeFs t cwd) := by
  intro p doc j h1 h2
  simpa only [h2] using allDoc_read h h1

theorem clear_example : TsClear (cfgClear 0).opts (treeFs (treeClear cs!"~/*") [])
    (.resolve cs!"/" cs!"@/a") := by
  intro loc hloc
  have : loc = cs!"/t.json" := (Option.some.inj hloc).symm
  subst this
  refine ⟨wfDocs_tree (by decide +kernel), fun n json entries hr he => .inr ⟨by decide, ?_⟩⟩
  have hj : json = .obj [(cs!"compilerOptions", .obj [(cs!"baseUrl", .str cs!"."),
      (cs!"paths", .obj [(cs!"@/*", .arr [.str cs!"x/*"]), (cs!"~/*", .arr [.str cs!"y/*"])])])] := by
    cases n with
    | zero => cases hr
    | succ n => cases hr; rfl
  subst hj
  have hkeys : entries.map (·.1) = [cs!"@/*", cs!"~/*"] := by
    obtain ⟨dir, -, ⟨h | h, -⟩ | ⟨b, paths, -, h2, rfl⟩⟩ := he
    · cases h
    · cases h
    · have := congrArg (List.map (·.1)) (Json.obj.inj (Option.some.inj h2))
      simpa [Function.comp_def] using this.symm
  clear he hr
  match entries, hkeys with
  | [], hk => cases hk
  | [_], hk => simp at hk
  | _ :: _ :: _ :: _, hk => simp at hk
  | [a, b], hk =>
    obtain ⟨h1, h2⟩ : a.1 = cs!"@/*" ∧ b.1 = cs!"~/*" := by simpa using hk
    refine List.pairwise_cons.2 ⟨fun x hx => ?_, List.pairwise_singleton _ _⟩
    rw [List.mem_singleton] at hx
    subst hx
    rintro ⟨-, m, hm⟩
    rw [h2] at hm
    have : matchStar cs!"~/*" (parseRequest cs!"@/a").target = some none := by decide +kernel
    rcases hm with ⟨h, -⟩ | ⟨-, hm, h⟩
    · exact absurd h (by decide)
    · rw [matchStar_some.2 ⟨hm, h⟩] at this
      cases this
theorem static_clear : Static cfgClear serJson (treeFs (treeClear cs!"~/*") []) where
  lawful := treeFs_lawful [] rfl
  debug _ := rfl
  inj _ _ := serJson_inj
  mix v t' _ h _ := by
    obtain ⟨p, doc, json, hr, hj, hv⟩ := h
    have := allDoc_read (P := fun d => match d.json with
      | none => true
      | some j => (j.get cs!"imports").isNone) (t := treeClear cs!"~/*") (by decide +kernel) hr
    simp only [hj, hv] at this
    cases this
  desc rid rid' d d' _ h h' := by
    have h := Option.some.inj h
    have h' := Option.some.inj h'
    exact h.symm.trans h'
  browser rid desc hb _ := by cases hb
  tsconfig rid l h := by
    have h := Option.some.inj h
    subst h
    decide


end Verif
