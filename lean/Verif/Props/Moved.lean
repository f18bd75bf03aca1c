import Verif.Proofs.MovedDocs
import Verif.Props.NewFiles
import Verif.Props.Findings
/-!
# C84: moving a project moves the answers
-/

namespace Verif

variable {cfg cfg' : Nat → Config} {ser : Json → Str} {fs fs' : Fs}

theorem PlacedSim.sim {a b : List Str} {p q p' q' : Str} (h : PlacedSim a b p q) (hp : comps p' = comps p)
    (hq : comps q' = comps q) : PlacedSim a b p' q' := by
  obtain ⟨x, y, h1, h2, h3⟩ := h
  exact ⟨x, y, hp.trans h1, hq.trans h2, h3⟩

theorem ErrMoved.sim {a b : List Str} {e e' d d' : Err} (h : ErrMoved a b e e') (hd : ErrSim d e)
    (hd' : ErrSim d' e') : ErrMoved a b d d' := by
  cases h with
  | same h =>
    cases hd with
    | refl => cases hd' <;> first | exact .same h | cases h
    | _ => cases h
  | failed r h =>
    cases hd <;> cases hd' <;> exact .failed r (h.sim (by first | rfl | assumption) (by first | rfl | assumption))
  | openFailed h =>
    cases hd <;> cases hd' <;> exact .openFailed (h.sim (by first | rfl | assumption) (by first | rfl | assumption))
  | parseFailed h =>
    cases hd <;> cases hd' <;> exact .parseFailed (h.sim (by first | rfl | assumption) (by first | rfl | assumption))
  | sideEffects v h =>
    cases hd <;> cases hd' <;> exact .sideEffects v (h.sim (by first | rfl | assumption) (by first | rfl | assumption))

theorem AnsMoved.sim {a b : List Str} {x x' y y' : Except Err Result} (h : AnsMoved a b x x') (hy : AnsSim y x)
    (hy' : AnsSim y' x') : AnsMoved a b y y' := by
  cases x with
  | ok x =>
    cases y with
    | error e => exact (hy : False).elim
    | ok y =>
      cases (hy : y = x)
      cases x' with
      | ok x' =>
        cases y' with
        | error e => exact (hy' : False).elim
        | ok y' => cases (hy' : y' = x'); exact h
      | error e' => cases x <;> exact (h : False).elim
  | error e =>
    cases y with
    | ok y => exact (hy : False).elim
    | error d =>
      cases x' with
      | ok x' => cases x' <;> exact (h : False).elim
      | error e' =>
        cases y' with
        | ok y' => exact (hy' : False).elim
        | error d' => exact ErrMoved.sim (e := e) (e' := e') h hy hy'

theorem SideMoved.sim {a b : List Str} {x x' y y' : Except Err (Option (Str × Option SideEffects))}
    (h : SideMoved a b x x') (hy : SideSim y x) (hy' : SideSim y' x') : SideMoved a b y y' := by
  rcases x with e | _ | ⟨p, s⟩
  · rcases x' with e' | _ | ⟨p', s'⟩ <;> try exact (h : False).elim
    rcases y with d | _ | ⟨q, t⟩ <;> try exact (hy : False).elim
    rcases y' with d' | _ | ⟨q', t'⟩ <;> try exact (hy' : False).elim
    exact ErrMoved.sim (e := e) (e' := e') h hy hy'
  · rcases x' with e' | _ | ⟨p', s'⟩ <;> try exact (h : False).elim
    rcases y with d | _ | ⟨q, t⟩ <;> try exact (hy : False).elim
    rcases y' with d' | _ | ⟨q', t'⟩ <;> try exact (hy' : False).elim
    exact trivial
  · rcases x' with e' | _ | ⟨p', s'⟩ <;> try exact (h : False).elim
    rcases y with d | _ | ⟨q, t⟩ <;> try exact (hy : False).elim
    rcases y' with d' | _ | ⟨q', t'⟩ <;> try exact (hy' : False).elim
    obtain ⟨h1, rfl⟩ : PlacedSim a b p p' ∧ s = s' := h
    obtain ⟨h2, rfl⟩ : comps q = comps p ∧ t = s := hy
    obtain ⟨h3, rfl⟩ : comps q' = comps p' ∧ t' = t := hy'
    exact ⟨h1.sim h2 h3, rfl⟩

theorem Answer.Moved.sim {a b : List Str} {x x' y y' : Answer} (h : Answer.Moved a b x x') (hy : y.Sim x)
    (hy' : y'.Sim x') : Answer.Moved a b y y' := by
  cases x with
  | resolve x =>
    cases x' with
    | sideEffects _ => exact (h : False).elim
    | resolve x' =>
      cases y with
      | sideEffects _ => exact (hy : False).elim
      | resolve y =>
        cases y' with
        | sideEffects _ => exact (hy' : False).elim
        | resolve y' => exact AnsMoved.sim (x := x) (x' := x') h hy hy'
  | sideEffects x =>
    cases x' with
    | resolve _ => exact (h : False).elim
    | sideEffects x' =>
      cases y with
      | resolve _ => exact (hy : False).elim
      | sideEffects y =>
        cases y' with
        | resolve _ => exact (hy' : False).elim
        | sideEffects y' => exact SideMoved.sim (x := x) (x' := x') h hy hy'

theorem Call.Moved.pure {o : Opts} {a b : List Str} {c c' : Call} (H : TwoPlaces o a b fs fs')
    (h : Call.Moved o a b c c') {cfg cfg' : Config} (ho : cfg.opts = o) (ho' : cfg'.opts = o)
    (hd : cfg.debug = false) (hd' : cfg'.debug = false) (n : Nat) :
    (c.pure cfg fs n).Moves (Answer.Moved a b) (c'.pure cfg' fs' (n + b.length)) := by
  cases h with
  | resolve hs hr =>
    unfold Call.pure
    simp only [ho, ho', hd, hd']
    exact (resolveCtx_moved H (Nat.le_refl _) (mi_of_asks H.ha H.hb hs hr)).bind fun x y h => .ret h
  | sideEffects hs =>
    unfold Call.pure
    simp only [ho, ho']
    exact (findSideEffects_moved H ⟨_, hs, rfl, rfl⟩).bind fun x y h => .ret h

/-- C84: a project is in the directory `a` of one file system and in the directory `b` of another one. Two
resolvers have the same options. After any histories, compare a call of one for a path in the first project
with the same call of the other for the path in the second project. They end in the same way: the answers are
the same files of the project, with the same queries and fragments, and the errors are the same, about the same
places. (The second call needs at most one unit of the model's fuel more for each directory above the project.)
Missing: this is for projects on their own, that do not refer to their place or lead out of it, see
`TwoPlaces`, and both or none of the places have `node_modules` in their text; the witnesses below show that
this is needed. -/
theorem C84_moved_partial (hs : Static cfg ser fs) (hs' : Static cfg' ser fs') {a b : List Str}
    {l l' : List Event} {t t' : Task} (H : TwoPlaces (cfg t.rid).opts a b fs fs')
    (ho : (cfg' t'.rid).opts = (cfg t.rid).opts) (hl : ∀ e ∈ l, e.calm)
    (ht : t ∈ ((Sys.init fs).after cfg ser l).tasks) (hl' : ∀ e ∈ l', e.calm)
    (ht' : t' ∈ ((Sys.init fs').after cfg' ser l').tasks)
    (hc : Call.Moved (cfg t.rid).opts a b t.call t'.call) {x x' : Outcome Answer}
    (hx : t.prog.outcome = some x) (hx' : t'.prog.outcome = some x') (hf : x ≠ .crashed .fuel) :
    (x' = .crashed .fuel ∧ t'.fuel < t.fuel + b.length) ∨ x.Like (Answer.Moved a b) x' := by
  obtain ⟨y, h1, h2⟩ := static_ends hs hl ht hx
  obtain ⟨y', h1', h2'⟩ := static_ends hs' hl' ht' hx'
  have hyf : y ≠ .crashed .fuel := by
    rintro rfl
    cases x with
    | done a => exact h2
    | crashed c => cases (h2 : c = .fuel); exact hf rfl
  have hg := hc.pure H rfl ho (hs.debug _) (hs'.debug _) t.fuel
  have key : ∃ z, (t'.call.pure (cfg' t'.rid) fs' (t.fuel + b.length)).outcome = some z ∧
      z ≠ .crashed .fuel ∧ y.Like (Answer.Moved a b) z := by
    generalize t.call.pure (cfg t.rid) fs t.fuel = p at hg h1
    generalize t'.call.pure (cfg' t'.rid) fs' (t.fuel + b.length) = q at hg
    cases hg with
    | fuel => cases h1; exact (hyf rfl).elim
    | ret h => cases h1; exact ⟨_, rfl, nofun, h⟩
    | crash c => cases h1; exact ⟨_, rfl, hyf, rfl⟩
  obtain ⟨z, hz, hzf, hzy⟩ := key
  rcases ends_of_enough (callPure_cut _) hz hzf h1' with ⟨rfl, hlt⟩ | rfl
  · left
    cases x' with
    | done a => exact (h2' : False).elim
    | crashed c => cases (h2' : c = .fuel); exact ⟨rfl, hlt⟩
  · right
    cases y with
    | done y =>
      cases y' with
      | crashed _ => exact (hzy : False).elim
      | done y' =>
        cases x with
        | crashed _ => exact (h2 : False).elim
        | done x =>
          cases x' with
          | crashed _ => exact (h2' : False).elim
          | done x' => exact Answer.Moved.sim (x := y) (x' := y') hzy h2 h2'
    | crashed d =>
      cases y' with
      | done _ => exact (hzy : False).elim
      | crashed d' =>
        cases x with
        | done _ => exact (h2 : False).elim
        | crashed c =>
          cases x' with
          | done _ => exact (h2' : False).elim
          | crashed c' => exact (h2 : c = d).trans ((hzy : d = d').trans (h2' : c' = d').symm)

/-- C84 on trees: nothing but the directory `u` is there, once at the place `a` and once at the place `b`. -/
theorem C84_tree_partial {u : Tree} (hu : u.isDir = true) {a b cwd cwd' : List Str} (ha : IsPlace a) (hb : IsPlace b)
    (hs : Static cfg ser (treeFs (mountAt a u) cwd)) (hs' : Static cfg' ser (treeFs (mountAt b u) cwd'))
    (hma : cs!"node_modules" ∉ a) (hmb : cs!"node_modules" ∉ b)
    (hm : cs!"node_modules" <:+: absText a ↔ cs!"node_modules" <:+: absText b)
    {l l' : List Event} {t t' : Task} (ho : (cfg' t'.rid).opts = (cfg t.rid).opts)
    (hp : PlacelessOpts (cfg t.rid).opts)
    (hdesc : ∀ desc, (cfg t.rid).opts.descriptionFile = some desc → ValidName desc)
    (hdocs : ∀ json, Describes (cfg t.rid).opts (treeFs (mountAt a u) cwd) a json → EasyDoc (cfg t.rid).opts json)
    (hl : ∀ e ∈ l, e.calm) (ht : t ∈ ((Sys.init (treeFs (mountAt a u) cwd)).after cfg ser l).tasks)
    (hl' : ∀ e ∈ l', e.calm) (ht' : t' ∈ ((Sys.init (treeFs (mountAt b u) cwd')).after cfg' ser l').tasks)
    (hc : Call.Moved (cfg t.rid).opts a b t.call t'.call) {x x' : Outcome Answer}
    (hx : t.prog.outcome = some x) (hx' : t'.prog.outcome = some x') (hf : x ≠ .crashed .fuel) :
    (x' = .crashed .fuel ∧ t'.fuel < t.fuel + b.length) ∨ x.Like (Answer.Moved a b) x' :=
  C84_moved_partial hs hs' ⟨ha, hb, movedTo_tree ha hb (at_mountAt a u) (at_mountAt b u),
    alone_mountAt ha hu hma hdesc fun e he => (hp.extensions e he).1,
    alone_mountAt hb hu hmb hdesc fun e he => (hp.extensions e he).1,
    selfContained_of_easy hdocs, hp, hm⟩ ho hl ht hl' ht' hc hx hx' hf

/-! ## The hypotheses are met -/

instance (l : List Str) : Decidable (NoClimb l) :=
  decidable_of_iff (∀ n, n ≤ l.length → (l.take n).countP (· = cs!"..") ≤ (l.take n).countP isName) (by
    constructor
    · intro h pre hp
      have := h pre.length hp.length_le
      rwa [← List.prefix_iff_eq_take.1 hp] at this
    · exact fun h n _ => h _ (List.take_prefix ..))

instance (t : Str) : Decidable (StaysIn t) := inferInstanceAs (Decidable (_ ∧ _))
instance (t : Str) : Decidable (NoUp t) := inferInstanceAs (Decidable (∀ s ∈ splitC '/' t, s ≠ cs!".."))
instance (t : Str) : Decidable (Harmless t) := inferInstanceAs (Decidable (_ ∧ _))
instance (r : Request) : Decidable (Fits r) :=
  decidable_of_iff (Harmless r.target ∧ NoUp (r.query ++ r.fragment)) ⟨fun h => ⟨h.1, h.2⟩, fun h => ⟨h.1, h.2⟩⟩

example : StaysIn cs!"./src/../src/a.js" ∧ ¬ StaysIn cs!"./src/../../a.js" ∧ ¬ StaysIn cs!"/src" := by decide +kernel
example : Fits (parseRequest cs!"dep/a?x#y") ∧ ¬ Fits (parseRequest cs!"dep/../a") := by decide +kernel

/-- The `package.json` of a project. -/
def moveJson : Json := .obj [(cs!"name", .str cs!"q"), (cs!"main", .str cs!"./src/../src/index.js"),
  (cs!"exports", .obj [(cs!".", .str cs!"./src/index.js"), (cs!"./lib/*", .str cs!"./src/lib/*.js"),
    (cs!"./files/", .str cs!"./src/lib/")]),
  (cs!"sideEffects", .bool false)]

/-- A project: a package with a main file, exports with patterns, and a dependency. -/
def moveTree : Tree := .dir [
  (cs!"package.json", jsonFile moveJson),
  (cs!"src", .dir [(cs!"index.js", textFile), (cs!"lib", .dir [(cs!"a.js", textFile)])]),
  (cs!"node_modules", .dir [(cs!"m", .dir [
    (cs!"package.json", jsonFile (.obj [(cs!"main", .str cs!"./i.js")])), (cs!"i.js", textFile)])])]

/-- What the description files of the example are. -/
def docMove (d : Doc) : Bool :=
  match d.json with
  | none => true
  | some j => (j.get cs!"imports").isNone && (match j.get cs!"main" with
      | some (.str v) => decide (NoClimb (splitC '/' v))
      | _ => true) && (match j.get cs!"exports" with
      | none => true
      | some v => v.strings.all fun t => t = cs!"./src/index.js" || t = cs!"./src/lib/*.js" || t = cs!"./src/lib/")

theorem easyDoc_move {j : Json} {d : Doc} (hj : d.json = some j) (h : docMove d = true) : EasyDoc optsA j := by
  unfold docMove at h
  rw [hj] at h
  simp only [Bool.and_eq_true] at h
  obtain ⟨⟨h1, h2⟩, h3⟩ := h
  refine ⟨?_, nofun, ?_, ?_⟩
  · intro f hf v hv
    cases List.mem_singleton.1 (hf : f ∈ [cs!"main"])
    rw [hv] at h2
    simpa using h2
  · intro v hv t ht
    rw [hv] at h3
    have := List.all_eq_true.1 h3 t ht
    simp only [Bool.or_eq_true, decide_eq_true_eq] at this
    rcases this with (rfl | rfl) | rfl
    · exact .plain (by decide) (by decide) (by decide +kernel)
    · exact .star cs!"src" cs!"lib" cs!".js" rfl (by decide) (by decide) (by decide) (.inr ⟨'j', by decide, by decide⟩)
    · exact .folder cs!"src" cs!"lib" rfl (by decide) (by decide) (by decide)
  · intro v hv
    rw [hv] at h1
    cases h1

theorem easy_move (a : List Str) (ha : (mountAt a moveTree).allDoc docMove = true) (json : Json)
    (h : Describes optsA (treeFs (mountAt a moveTree) []) a json) : EasyDoc optsA json := by
  obtain ⟨desc, s, doc, -, -, hr, hj⟩ := h
  exact easyDoc_move hj (allDoc_read ha hr)

example (json : Json) : Describes optsA (treeFs (mountAt [cs!"home", cs!"u", cs!"p"] moveTree) [])
    [cs!"home", cs!"u", cs!"p"] json → EasyDoc optsA json := easy_move _ (by decide +kernel) json

theorem placeless_A : PlacelessOpts optsA where
  desc d h := by cases h; decide +kernel
  mainFiles m h := by cases List.mem_singleton.1 (h : m ∈ [cs!"index"]); decide +kernel
  extensions e h := by
    have : e ∈ [cs!".js", cs!".json", cs!".node"] := h
    simp only [List.mem_cons, List.not_mem_nil, or_false] at this
    rcases this with rfl | rfl | rfl
    · exact ⟨by decide, .inr ⟨'j', by decide, by decide⟩⟩
    · exact ⟨by decide, .inr ⟨'j', by decide, by decide⟩⟩
    · exact ⟨by decide, .inr ⟨'n', by decide, by decide⟩⟩
  alias k t h := by cases h
  tsconfig := rfl

theorem static_move (a : List Str) (ha : (mountAt a moveTree).allDoc docNoImports = true) :
    Static (fun _ => config optsA 0) serJson (treeFs (mountAt a moveTree) []) :=
  static_new (isDir_mountAt rfl) ha

example : Static (fun _ => config optsA 0) serJson (treeFs (mountAt [cs!"home", cs!"u", cs!"p"] moveTree) []) :=
  static_move _ (by decide +kernel)
example : Static (fun _ => config optsA 0) serJson (treeFs (mountAt [cs!"srv"] moveTree) []) :=
  static_move _ (by decide +kernel)
example : IsPlace [cs!"home", cs!"u", cs!"p"] ∧ IsPlace [cs!"srv"] := by
  constructor <;> exact ⟨by simp, by decide⟩
example : ¬ cs!"node_modules" <:+: absText [cs!"home", cs!"u", cs!"p"] ∧ ¬ cs!"node_modules" <:+: absText [cs!"srv"] := by
  constructor <;> (rw [← containsStr_iff]; decide)

-- calls that do not lead out: by a pattern of the package itself, for the dependency, up and down again
example : Call.Moved optsA [cs!"home", cs!"u", cs!"p"] [cs!"srv"] (.resolve cs!"/home/u/p/src" cs!"q/lib/a")
    (.resolve cs!"/srv/src" cs!"q/lib/a") :=
  .resolve (s := cs!"/src") (.inr ⟨cs!"src", rfl, by decide +kernel⟩) ⟨by decide +kernel, .inl (by decide +kernel)⟩
example : Call.Moved optsA [cs!"home", cs!"u", cs!"p"] [cs!"srv"] (.resolve cs!"/home/u/p/src/lib" cs!"../../node_modules/m")
    (.resolve cs!"/srv/src/lib" cs!"../../node_modules/m") :=
  .resolve (s := cs!"/src/lib") (.inr ⟨cs!"src/lib", rfl, by decide +kernel⟩)
    ⟨by decide +kernel, .inr ⟨by decide +kernel, .inr ⟨_, rfl, by decide +kernel⟩, nofun, .inl rfl⟩⟩
example :
    let calls (d : Str) := oneByOne 60 0 [(0, .resolve (d ++ cs!"/src") cs!"q/lib/a"), (0, .resolve d cs!"m"),
      (0, .resolve (d ++ cs!"/src/lib") cs!"../../node_modules/m"), (0, .resolve d cs!"."), (0, .resolve d cs!"./src/x")]
    let run := (Sys.init (treeFs (mountAt [cs!"home", cs!"u", cs!"p"] moveTree) [])).after (fun _ => config optsA 0)
      serJson (calls cs!"/home/u/p")
    let run' := (Sys.init (treeFs (mountAt [cs!"srv"] moveTree) [])).after (fun _ => config optsA 0) serJson
      (calls cs!"/srv")
    (List.range 5).map (fun i => (run.info i).map (·.path)) =
      [some cs!"/home/u/p/src/lib/a.js", some cs!"/home/u/p/node_modules/m/i.js",
        some cs!"/home/u/p/node_modules/m/i.js", some cs!"/home/u/p/src/index.js", none] ∧
    (List.range 5).map (fun i => (run'.info i).map (·.path)) =
      [some cs!"/srv/src/lib/a.js", some cs!"/srv/node_modules/m/i.js", some cs!"/srv/node_modules/m/i.js",
        some cs!"/srv/src/index.js", none] := by decide +kernel

/-! ## What is needed -/

/-- A package with exports, and a dependency without a description file. -/
def moveLoose : Tree := .dir [
  (cs!"package.json", jsonFile (.obj [(cs!"name", .str cs!"q"), (cs!"exports", .str cs!"./a.js")])), (cs!"a.js", textFile),
  (cs!"node_modules", .dir [(cs!"m", .dir [(cs!"index.js", textFile)])])]

/-- C84 does not hold if only one place has `node_modules` in its text, even in the middle of a name: in
`/node_modules_old` the request for the dependency is answered by the exports of the project. -/
theorem C84_modules_violated :
    foundPath optsA (mountAt [cs!"p"] moveLoose) cs!"/p" cs!"m" = some cs!"/p/node_modules/m/index.js" ∧
    foundPath optsA (mountAt [cs!"node_modules_old"] moveLoose) cs!"/node_modules_old" cs!"m" =
      some cs!"/node_modules_old/a.js" := by
  decide +kernel

/-- C84 does not hold for requests that lead out of the project and back by its name. -/
theorem C84_out_violated :
    foundPath optsA (mountAt [cs!"p"] moveLoose) cs!"/p" cs!"../p/a" = some cs!"/p/a.js" ∧
    foundPath optsA (mountAt [cs!"q"] moveLoose) cs!"/q" cs!"../p/a" = none := by
  decide +kernel

/-- C84 does not hold with an alias to an absolute path, though it is in the project. -/
theorem C84_alias_violated :
    let o := { optsA with alias := [(cs!"x", .target cs!"/p/a.js")] }
    foundPath o (mountAt [cs!"p"] moveLoose) cs!"/p" cs!"x" = some cs!"/p/a.js" ∧
    foundPath o (mountAt [cs!"q"] moveLoose) cs!"/q" cs!"x" = none := by
  decide +kernel

/-- C84 does not hold if the main file is given by the name of the project. -/
theorem C84_main_violated :
    let u : Tree := .dir [(cs!"package.json", jsonFile (.obj [(cs!"main", .str cs!"../p/a.js")])), (cs!"a.js", textFile)]
    foundPath optsA (mountAt [cs!"p"] u) cs!"/p" cs!"." = some cs!"/p/a.js" ∧
    foundPath optsA (mountAt [cs!"q"] u) cs!"/q" cs!"." = none := by
  decide +kernel

/-- C84 does not hold if a file next to the project has its name, with an extension. -/
theorem C84_next_violated :
    foundPath optsA (.dir [(cs!"p", .dir [(cs!"index.js", textFile)])]) cs!"/p" cs!"." = some cs!"/p/index.js" ∧
    foundPath optsA (.dir [(cs!"p", .dir [(cs!"index.js", textFile)]), (cs!"p.js", textFile)]) cs!"/p" cs!"." =
      some cs!"/p.js" := by
  decide +kernel

/-- C84 does not hold if there are dependencies above the project. -/
theorem C84_above_violated :
    let u : Tree := .dir []
    foundPath optsA (mountAt [cs!"p"] u) cs!"/p" cs!"m" = none ∧
    foundPath optsA (.dir [(cs!"p", u), (cs!"node_modules", .dir [(cs!"m", .dir [(cs!"index.js", textFile)])])])
      cs!"/p" cs!"m" = some cs!"/node_modules/m/index.js" := by
  decide +kernel

end Verif
