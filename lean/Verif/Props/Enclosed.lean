import Verif.Props.Moved
import Verif.Spec.Enclosed
/-!
# C85: what lies outside of a project does not matter
-/

namespace Verif

variable {cfg cfg' : Nat → Config} {ser : Json → Str} {fs fs' : Fs}

theorem placed_self {a : List Str} {p q : Str} (h : Placed a a p q) : InProject a p ∧ q = p := by
  obtain ⟨s, hs, rfl, rfl⟩ := h
  exact ⟨⟨s, hs, rfl⟩, rfl⟩

theorem placedSim_self {a : List Str} {p q : Str} (h : PlacedSim a a p q) : InProjectSim a p ∧ comps q = comps p := by
  obtain ⟨x, y, h1, h2, h3⟩ := h
  obtain ⟨h4, rfl⟩ := placed_self h3
  exact ⟨⟨_, h1, h4⟩, h2.trans h1.symm⟩

theorem SameProject.moved {a : List Str} (h : SameProject a fs fs') : MovedTo a a fs fs' where
  isFile p q hp := by obtain ⟨h1, rfl⟩ := placed_self hp; exact h.isFile _ h1
  isDir p q hp := by obtain ⟨h1, rfl⟩ := placed_self hp; exact h.isDir _ h1
  pathExists p q hp := by obtain ⟨h1, rfl⟩ := placed_self hp; exact h.pathExists _ h1
  read p q hp := by obtain ⟨h1, rfl⟩ := placed_self hp; exact h.read _ h1
  mtime p q hp := by obtain ⟨h1, rfl⟩ := placed_self hp; exact h.mtime _ h1
  canon p q hp := by
    obtain ⟨h1, rfl⟩ := placed_self hp
    rw [h.canon _ h1]
    cases hc : fs.canon q with
    | none => exact .inl ⟨rfl, rfl⟩
    | some r =>
      obtain ⟨s, h2, h3⟩ := h.links _ _ h1 hc
      exact .inr ⟨r, r, rfl, rfl, s, h2, h3, h3⟩

theorem Call.InProject.moved {o : Opts} {a : List Str} {c : Call} (h : c.InProject o a) : Call.Moved o a a c c := by
  cases h with
  | resolve h1 h2 => exact .resolve h1 h2
  | sideEffects h => exact .sideEffects h

theorem errMoved_self {a : List Str} {e e' : Err} (h : ErrMoved a a e e') :
    ErrSim e' e ∧ ∀ p, e.place = some p → InProjectSim a p := by
  cases h with
  | same h => exact ⟨.refl _, fun p hp => by rw [h] at hp; cases hp⟩
  | failed r h => exact ⟨.failed r (placedSim_self h).2, fun p hp => by cases hp; exact (placedSim_self h).1⟩
  | openFailed h => exact ⟨.openFailed (placedSim_self h).2, fun p hp => by cases hp; exact (placedSim_self h).1⟩
  | parseFailed h => exact ⟨.parseFailed (placedSim_self h).2, fun p hp => by cases hp; exact (placedSim_self h).1⟩
  | sideEffects v h => exact ⟨.sideEffects v (placedSim_self h).2, fun p hp => by cases hp; exact (placedSim_self h).1⟩

theorem answerMoved_self {a : List Str} {x y : Answer} (h : Answer.Moved a a x y) : y.Sim x ∧ x.InProject a := by
  cases x with
  | resolve x =>
    cases y with
    | sideEffects _ => exact (h : False).elim
    | resolve y =>
      rcases x with e | i | _
      · rcases y with e' | j | _ <;> try exact (h : False).elim
        exact errMoved_self h
      · rcases y with e' | j | _ <;> try exact (h : False).elim
        obtain ⟨h1, h2⟩ : Placed a a i.path j.path ∧ i.request = j.request := h
        obtain ⟨h3, h4⟩ := placed_self h1
        refine ⟨?_, h3⟩
        cases i
        cases j
        cases h4
        cases h2
        rfl
      · rcases y with e' | j | _ <;> try exact (h : False).elim
        exact ⟨rfl, trivial⟩
  | sideEffects x =>
    cases y with
    | resolve _ => exact (h : False).elim
    | sideEffects y =>
      rcases x with e | _ | ⟨p, s⟩
      · rcases y with e' | _ | ⟨p', s'⟩ <;> try exact (h : False).elim
        exact errMoved_self h
      · rcases y with e' | _ | ⟨p', s'⟩ <;> try exact (h : False).elim
        exact ⟨trivial, trivial⟩
      · rcases y with e' | _ | ⟨p', s'⟩ <;> try exact (h : False).elim
        obtain ⟨h1, h2⟩ : PlacedSim a a p p' ∧ s = s' := h
        exact ⟨⟨(placedSim_self h1).2, h2.symm⟩, (placedSim_self h1).1⟩

theorem Enclosed.two {o : Opts} {a : List Str} (H : Enclosed o a fs) (hn : OnItsOwn o fs' a)
    (h : SameProject a fs fs') : TwoPlaces o a a fs fs' :=
  ⟨H.place, H.place, h.moved, H.alone, hn, H.self, H.opts, Iff.rfl⟩

/-- C85: two file systems have the same project in the directory `a`, and anything else may differ. Two resolvers
have the same options. After any histories, a call for a path in the project ends in the same way on both. (The
second call needs at most one unit of the model's fuel more for each directory above the project.) Missing: this is for
projects on their own, that do not refer to their place or lead out of it, see `Enclosed`; the witnesses below
show that this is needed. -/
theorem C85_elsewhere_partial (hs : Static cfg ser fs) (hs' : Static cfg' ser fs') {a : List Str}
    {l l' : List Event} {t t' : Task} (H : Enclosed (cfg t.rid).opts a fs) (hn : OnItsOwn (cfg t.rid).opts fs' a)
    (h : SameProject a fs fs') (ho : (cfg' t'.rid).opts = (cfg t.rid).opts) (hl : ∀ e ∈ l, e.calm)
    (ht : t ∈ ((Sys.init fs).after cfg ser l).tasks) (hl' : ∀ e ∈ l', e.calm)
    (ht' : t' ∈ ((Sys.init fs').after cfg' ser l').tasks) (hc : t.call.InProject (cfg t.rid).opts a)
    (hcc : t'.call = t.call) {x x' : Outcome Answer} (hx : t.prog.outcome = some x)
    (hx' : t'.prog.outcome = some x') (hf : x ≠ .crashed .fuel) :
    (x' = .crashed .fuel ∧ t'.fuel < t.fuel + a.length) ∨ x'.Like Answer.Sim x := by
  refine (C84_moved_partial hs hs' (H.two hn h) ho hl ht hl' ht' (by rw [hcc]; exact hc.moved) hx hx' hf).imp id ?_
  intro h
  cases x with
  | done x =>
    cases x' with
    | done x' => exact (answerMoved_self (x := x) (y := x') h).1
    | crashed c => exact (h : False).elim
  | crashed c =>
    cases x' with
    | done x' => exact (h : False).elim
    | crashed c' => exact (h : c = c').symm

/-- C85: a call for a path in such a project comes to something in the project, after any history: the file that
is found, the description file with the side effects, and the places that errors are about. Missing: as for
`C85_elsewhere_partial`. -/
theorem C85_inside_partial (hs : Static cfg ser fs) {a : List Str} {l : List Event} {t : Task}
    (H : Enclosed (cfg t.rid).opts a fs) (hlinks : ∀ p q, InProject a p → fs.canon p = some q → InProject a q)
    (hl : ∀ e ∈ l, e.calm) (ht : t ∈ ((Sys.init fs).after cfg ser l).tasks)
    (hc : t.call.InProject (cfg t.rid).opts a) {x : Answer} (hx : t.prog.outcome = some (.done x)) :
    x.InProject a := by
  have h : SameProject a fs fs := ⟨fun _ _ => rfl, fun _ _ => rfl, fun _ _ => rfl, fun _ _ => rfl, fun _ _ => rfl,
    fun _ _ => rfl, hlinks⟩
  rcases C84_moved_partial hs hs (H.two H.alone h) rfl hl ht hl ht hc.moved hx hx nofun with ⟨h, -⟩ | h
  · cases h
  · exact (answerMoved_self (x := x) (y := x) h).2

/-- C85 on trees: the same directory `u` at the place `a` of two trees, and anything else next to it. -/
theorem C85_tree_partial {u v v' : Tree} {a cwd cwd' : List Str} (hu : v.at a = some u) (hu' : v'.at a = some u)
    (hs : Static cfg ser (treeFs v cwd)) (hs' : Static cfg' ser (treeFs v' cwd'))
    {l l' : List Event} {t t' : Task} (H : Enclosed (cfg t.rid).opts a (treeFs v cwd))
    (hn : OnItsOwn (cfg t.rid).opts (treeFs v' cwd') a) (ho : (cfg' t'.rid).opts = (cfg t.rid).opts)
    (hl : ∀ e ∈ l, e.calm) (ht : t ∈ ((Sys.init (treeFs v cwd)).after cfg ser l).tasks) (hl' : ∀ e ∈ l', e.calm)
    (ht' : t' ∈ ((Sys.init (treeFs v' cwd')).after cfg' ser l').tasks) (hc : t.call.InProject (cfg t.rid).opts a)
    (hcc : t'.call = t.call) {x x' : Outcome Answer} (hx : t.prog.outcome = some x)
    (hx' : t'.prog.outcome = some x') (hf : x ≠ .crashed .fuel) :
    ((x' = .crashed .fuel ∧ t'.fuel < t.fuel + a.length) ∨ x'.Like Answer.Sim x) ∧
      ∀ y, x = .done y → y.InProject a := by
  have hm := movedTo_tree (cwd := cwd) (cwd' := cwd') H.place H.place hu hu'
  have hp : ∀ p, InProject a p → Placed a a p p := by
    rintro p ⟨s, h1, h2⟩
    exact ⟨s, h1, h2, h2⟩
  have hlinks : ∀ p q, InProject a p → (treeFs v cwd).canon p = some q → InProject a q := by
    intro p q h1 h2
    rcases hm.canon p p (hp p h1) with ⟨h3, -⟩ | ⟨p', q', h3, -, h5⟩
    · rw [h3] at h2; cases h2
    · rw [h3] at h2; cases h2; exact (placed_self h5).1
  have h : SameProject a (treeFs v cwd) (treeFs v' cwd') := {
    isFile := fun p h => hm.isFile p p (hp p h)
    isDir := fun p h => hm.isDir p p (hp p h)
    pathExists := fun p h => hm.pathExists p p (hp p h)
    read := fun p h => hm.read p p (hp p h)
    mtime := fun p h => hm.mtime p p (hp p h)
    canon := fun p h => by
      rcases hm.canon p p (hp p h) with ⟨h3, h4⟩ | ⟨p', q', h3, h4, h5⟩
      · rw [h3, h4]
      · rw [h3, h4, (placed_self h5).2]
    links := hlinks }
  refine ⟨C85_elsewhere_partial hs hs' H hn h ho hl ht hl' ht' hc hcc hx hx' hf, ?_⟩
  rintro y rfl
  exact C85_inside_partial hs H hlinks hl ht hc hx

/-! ## The hypotheses are met -/

/-- The project of C84, next to another project and a file. -/
def besideTree : Tree := .dir [
  (cs!"other", .dir [(cs!"package.json", jsonFile (.obj [(cs!"name", .str cs!"q"), (cs!"main", .str cs!"./b.js")])),
    (cs!"b.js", textFile), (cs!"node_modules", .dir [(cs!"m", .dir [(cs!"index.js", textFile)])])]),
  (cs!"srv", moveTree), (cs!"a.js", textFile)]

example : (mountAt [cs!"srv"] moveTree).at [cs!"srv"] = some moveTree ∧ besideTree.at [cs!"srv"] = some moveTree :=
  ⟨rfl, rfl⟩
example : Static (fun _ => config optsA 0) serJson (treeFs besideTree []) := static_new rfl (by decide +kernel)
example : Enclosed optsA [cs!"srv"] (treeFs (mountAt [cs!"srv"] moveTree) []) where
  place := ⟨by simp, by decide⟩
  alone := alone_mountAt ⟨by simp, by decide⟩ rfl (by decide) (by intro d h; cases h; unfold ValidName; decide) (fun e he =>
    (placeless_A.extensions e he).1)
  self := selfContained_of_easy (easy_move _ (by decide +kernel))
  opts := placeless_A
example : OnItsOwn optsA (treeFs besideTree []) [cs!"srv"] where
  desc l d h hne hd := by
    cases hd
    rcases List.prefix_cons_iff.1 h with rfl | ⟨l', rfl, h'⟩
    · decide +kernel
    · exact absurd (by rw [List.prefix_nil.1 h']) hne
  modules l h hne := by
    rcases List.prefix_cons_iff.1 h with rfl | ⟨l', rfl, h'⟩
    · decide +kernel
    · exact absurd (by rw [List.prefix_nil.1 h']) hne
  next := by decide +kernel
example : Call.InProject optsA [cs!"srv"] (.resolve cs!"/srv/src" cs!"q/lib/a") :=
  .resolve (s := cs!"/src") (.inr ⟨cs!"src", rfl, by decide +kernel⟩) ⟨by decide +kernel, .inl (by decide +kernel)⟩
example : foundPath optsA besideTree cs!"/srv/src" cs!"q/lib/a" = some cs!"/srv/src/lib/a.js" ∧
    foundPath optsA besideTree cs!"/srv" cs!"m" = some cs!"/srv/node_modules/m/i.js" := by decide +kernel

/-! ## What is needed -/

/-- C85 does not hold if a file next to the project has its name, with an extension: it is taken for the project
itself. -/
theorem C85_next_violated :
    let u : Tree := .dir [(cs!"index.js", textFile)]
    foundPath optsA (.dir [(cs!"p", u)]) cs!"/p" cs!"." = some cs!"/p/index.js" ∧
    foundPath optsA (.dir [(cs!"p", u), (cs!"p.js", textFile)]) cs!"/p" cs!"." = some cs!"/p.js" := by
  decide +kernel

/-- C85 does not hold if there is a description file above the project, which counts for files in a directory
without one: here it replaces a file of the project. -/
theorem C85_above_violated :
    let u : Tree := .dir [(cs!"a.js", textFile), (cs!"b.js", textFile)]
    let o := { optsA with browserField := true }
    foundPath o (.dir [(cs!"p", u)]) cs!"/p" cs!"./a" = some cs!"/p/a.js" ∧
    foundPath o (.dir [(cs!"p", u), (cs!"package.json", jsonFile (.obj [(cs!"browser", .obj [
      (cs!"./p/a", .str cs!"./p/b.js")])]))]) cs!"/p" cs!"./a" = some cs!"/p/b.js" := by
  decide +kernel

/-- C85 does not hold for exports targets with empty segments, which the containment check counts as
steps down: they lead out of the project. -/
theorem C85_escape_violated :
    let u : Tree := .dir [(cs!"node_modules", .dir [(cs!"m", .dir [(cs!"package.json", jsonFile (.obj [
      (cs!"exports", .str cs!".//////../../../../x.js")]))])])]
    foundPath optsA (.dir [(cs!"p", u)]) cs!"/p" cs!"m" = none ∧
    foundPath optsA (.dir [(cs!"p", u), (cs!"x.js", textFile)]) cs!"/p" cs!"m" = some cs!"/x.js" := by
  decide +kernel

end Verif
