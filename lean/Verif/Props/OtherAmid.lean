import Verif.Spec.SeesFiles
import Verif.Props.Kept
import Verif.Props.OtherPackages
/-!
# C97 and C98 amid changes of the files
-/

namespace Verif.Live

variable {cfg cfg' : Nat → Config} {fs fs' fs1 fs2 : Fs} {l l' : List Event} {i i' : Nat} {t t' : Task}

/-- Calls end alike amid changes if they do on the files that they have seen. -/
theorem amid_two (h : SeesFiles cfg fs l i t fs1) (h' : SeesFiles cfg' fs' l' i' t' fs2)
    (ha : t.call.abs) (ha' : t'.call.abs)
    (hlike : ∀ k k' : List Event, (∀ e ∈ k, e.calm) → (∀ e ∈ k', e.calm) →
      ∀ u ∈ ((Verif.Sys.init fs1).after cfg serJson k).tasks, ∀ u' ∈ ((Verif.Sys.init fs2).after cfg' serJson k').tasks,
      u.rid = t.rid → u.call = t.call → u.fuel = t.fuel → u'.rid = t'.rid → u'.call = t'.call → u'.fuel = t'.fuel →
      ∀ y y', u.prog.outcome = some y → u'.prog.outcome = some y' → y.Like Answer.Sim y')
    {x x' : Outcome Answer} (hx : outcome t.prog = some x) (hx' : outcome t'.prog = some x') :
    x.Like Answer.Sim x' := by
  obtain ⟨seeds, h1⟩ := (C96_kept h.static h.task ha h.look h.kept h.place h.mix hx).1
  obtain ⟨seeds', h1'⟩ := (C96_kept h'.static h'.task ha' h'.look h'.kept h'.place h'.mix hx').1
  obtain ⟨k, g1, u, g2, g3, g4, g5, g6⟩ := fresh_calm cfg serJson fs1 t.rid t.call t.fuel ha seeds
  obtain ⟨k', e1, u', e2, e3, e4, e5, e6⟩ := fresh_calm cfg' serJson fs2 t'.rid t'.call t'.fuel ha' seeds'
  have h2 := hlike k k' g1 e1 u g2 u' e2 g3 g4 g5 e3 e4 e5 _ _ g6 e6
  exact Answer.like_join h1 (Answer.like_join h1' h2)

/-- C97 for calls in histories in which files come and go at any moment: if the files that two calls have seen agree at
the paths that are `WatchedBare`, the calls end in the same way. They may be calls of the same history. -/
theorem C97_amid (h : SeesFiles cfg fs l i t fs1) (h' : SeesFiles cfg' fs' l' i' t' fs2)
    (ho : (cfg' t'.rid).opts = (cfg t.rid).opts) (hfuel : t'.fuel = t.fuel) {path request name : Str}
    (hc : t.call = .resolve path request) (hc' : t'.call = .resolve path request) (ha : isAbs path = true)
    (hp : Plain (cfg t.rid).opts path (parseRequest request).target)
    (hk : getTargetKind (parseRequest request).target = .normal)
    (hname : PackageName (parseRequest request).target name)
    (hascii : AsciiStr name ∨ (parseRequest request).target = name)
    (hb : (cfg t.rid).opts.browserField = false) (hx : DottedExports fs1)
    (hw : SameAt (WatchedBare (cfg t.rid).opts fs1 path (parseRequest request).target request name) fs1 fs2)
    (he : ∀ a ∈ upward (path.length + 1) path,
      fs2.pathExists (pjoin (pjoin a cs!"node_modules") (parseRequest request).target) =
        fs1.pathExists (pjoin (pjoin a cs!"node_modules") (parseRequest request).target))
    (x x' : Outcome Answer) (hx1 : outcome t.prog = some x) (hx2 : outcome t'.prog = some x') :
    x.Like Answer.Sim x' := by
  refine amid_two h h' (by rw [hc]; exact ha) (by rw [hc']; exact ha) ?_ hx1 hx2
  intro k k' g1 e1 u g2 u' e2 g3 g4 g5 e3 e4 e5 y y' hy hy'
  exact C97_watched h.static h'.static k k' g1 e1 u u' g2 e2 (by rw [g3, e3]; exact ho) (by rw [g5, e5]; exact hfuel)
    (g4.trans hc) (e4.trans hc') (g3 ▸ hp) hk hname hascii (g3 ▸ hb) hx (g3 ▸ hw) he y y' hy hy'

/-- C98 for calls in histories in which files come and go at any moment, and packages are installed and uninstalled: if
the files that two calls have seen agree outside of the directories of packages that have nothing to do with
the request, the calls end in the same way. They may be calls of the same history, one before and one after the
installation, or one in the middle of it. -/
theorem C98_amid (h : SeesFiles cfg fs l i t fs1) (h' : SeesFiles cfg' fs' l' i' t' fs2)
    (ho : (cfg' t'.rid).opts = (cfg t.rid).opts) (hfuel : t'.fuel = t.fuel) {path request name : Str}
    (hc : t.call = .resolve path request) (hc' : t'.call = .resolve path request) (ha : isAbs path = true)
    (hp : Plain (cfg t.rid).opts path (parseRequest request).target)
    (hk : getTargetKind (parseRequest request).target = .normal)
    (hname : PackageName (parseRequest request).target name)
    (hascii : AsciiStr name ∨ (parseRequest request).target = name)
    (hb : (cfg t.rid).opts.browserField = false) (hkeep : KeepToThemselves (cfg t.rid).opts fs1 request)
    (pkgs : List (Str × Str))
    (hpkg : ∀ q ∈ pkgs, isAbs q.1 = true ∧ Unrelated (cfg t.rid).opts (parseRequest request).target q.2 ∧
      NoneBeside (cfg t.rid).opts fs1 q.1 q.2 ∧ Outside (pkgDir q.1 q.2) path)
    (hw : SameAt (fun w => ∀ q ∈ pkgs, Outside (pkgDir q.1 q.2) w) fs1 fs2)
    (he : ∀ w, (∀ q ∈ pkgs, Outside (pkgDir q.1 q.2) w) → fs2.pathExists w = fs1.pathExists w)
    (x x' : Outcome Answer) (hx1 : outcome t.prog = some x) (hx2 : outcome t'.prog = some x') :
    x.Like Answer.Sim x' := by
  refine amid_two h h' (by rw [hc]; exact ha) (by rw [hc']; exact ha) ?_ hx1 hx2
  intro k k' g1 e1 u g2 u' e2 g3 g4 g5 e3 e4 e5 y y' hy hy'
  exact C98_others h.static h'.static k k' g1 e1 u u' g2 e2 (by rw [g3, e3]; exact ho) (by rw [g5, e5]; exact hfuel)
    (g4.trans hc) (e4.trans hc') (g3 ▸ hp) hk hname hascii (g3 ▸ hb) (g3 ▸ hkeep) pkgs (g3 ▸ hpkg) hw he y y' hy hy'

/-! ## The hypotheses are met -/

/-- A call that starts after `l` when no file changes any more has seen the files as they are then. -/
theorem sees_after {rid fuel : Nat} {call : Call} {l2 : List Event} (hfs : ((Sys.init fs).after cfg serJson l).fs = fs1)
    (hs : Static cfg serJson fs1) (hl2 : ∀ f, .change f ∉ l2)
    (hkept : ∀ desc, (cfg rid).opts.descriptionFile = some desc → Kept (Versions fs l) fs1 desc)
    (hplace : ∀ desc, (cfg rid).opts.descriptionFile = some desc → InPlace (Versions fs l) fs1 desc)
    (hmix : NeverMix (Versions fs l) fs1) (hi : ((Sys.init fs).after cfg serJson l).tasks.length = i) :
    ∃ t, SeesFiles cfg fs (l ++ .start rid call fuel :: l2) i t fs1 ∧ t.rid = rid ∧ t.call = call ∧ t.fuel = fuel := by
  subst hfs hi
  have hV : Versions fs (l ++ .start rid call fuel :: l2) = Versions fs l := by
    funext f
    refine propext ⟨fun h => h.imp id fun h => ?_, versions_prefix⟩
    rcases List.mem_append.1 h with h | h
    · exact h
    · rcases List.mem_cons.1 h with h | h
      · cases h
      · exact (hl2 f h).elim
  obtain ⟨t, ht, h1, h2, h3⟩ := task_same (cfg := cfg) l2
    (((Sys.init fs).after cfg serJson l).next cfg serJson (.start rid call fuel))
    ⟨rid, ((Sys.init fs).after cfg serJson l).fs, call, fuel, Live.prog (host (cfg rid) serJson fuel) fuel call⟩
    (i := ((Sys.init fs).after cfg serJson l).tasks.length) (by simp [Sys.next])
  have ht' : ((Sys.init fs).after cfg serJson (l ++ .start rid call fuel :: l2)).tasks[
      ((Sys.init fs).after cfg serJson l).tasks.length]? = some t := by
    rw [after_append]; exact ht
  dsimp only at h1 h2 h3
  exact ⟨t, ⟨hs, ht', fun q r => looked_after hl2, by rw [h1, hV]; exact hkept, by rw [h1, hV]; exact hplace,
    by rw [hV]; exact hmix⟩, h1, h2, h3⟩

/-- A project with the package `foo`. -/
def treeSee : Tree :=
  .dir [(cs!"package.json", timedFile (.obj []) 5), (cs!"p", .dir [(cs!"node_modules", .dir [(cs!"foo", .dir
    [(cs!"package.json", timedFile exportsLib 5), (cs!"lib.js", textFile)])])])]

/-- The package `bar` is installed. -/
def treeSeeBar : Tree := Tree.install pkgBar locBar treeSee

/-- `foo` is asked for. -/
def askSee : List Event := .start 0 (.resolve cs!"/p" cs!"foo") 20 :: List.replicate 60 (.step 0 0)

/-- `foo` is asked for, `bar` is installed, and `foo` is asked for once more. -/
def histSee : List Event :=
  askSee ++ [.change (treeFs treeSeeBar [])]

theorem versions_see (f : Fs) (h : Versions (treeFs treeSee []) histSee f) :
    ∃ u ∈ [treeSee, treeSeeBar], f = treeFs u [] := by
  rcases h with rfl | h
  · exact ⟨_, List.mem_cons_self, rfl⟩
  · simp only [histSee, askSee, List.cons_append, List.mem_cons, List.mem_append, List.mem_replicate, reduceCtorEq,
      and_false, false_or, or_false, Event.change.injEq, List.not_mem_nil] at h
    subst h
    exact ⟨_, by simp, rfl⟩

theorem mem_see {P : Tree → Prop} (h1 : P treeSee) (h2 : P treeSeeBar) : ∀ u ∈ [treeSee, treeSeeBar], P u := by
  intro u hu
  simp only [List.mem_cons, List.not_mem_nil, or_false] at hu
  rcases hu with rfl | rfl <;> assumption

/-- The hypotheses about description files, for either of the trees. -/
theorem see_kept {t : Tree} (ht : t ∈ [treeSee, treeSeeBar]) {V : Fs → Prop}
    (hV : ∀ f, V f → ∃ u ∈ [treeSee, treeSeeBar], f = treeFs u []) :
    Static (fun _ => config optsA 0) serJson (treeFs t []) ∧
    (∀ desc, (config optsA 0).opts.descriptionFile = some desc → Kept V (treeFs t []) desc) ∧
    (∀ desc, (config optsA 0).opts.descriptionFile = some desc → InPlace V (treeFs t []) desc) ∧
    NeverMix V (treeFs t []) := by
  have hb : ∀ u ∈ [treeSee, treeSeeBar], u.isDir = true ∧ Grows cs!"package.json" u t := by
    revert t
    refine @fun t ht => mem_see (P := fun t => ∀ u ∈ [treeSee, treeSeeBar], u.isDir = true ∧ Grows cs!"package.json" u t)
      ?_ ?_ t ht
    · exact mem_see ⟨rfl, grows_of rfl rfl (by decide +kernel)⟩ ⟨rfl, grows_of rfl rfl (by decide +kernel)⟩
    · exact mem_see ⟨rfl, grows_of rfl rfl (by decide +kernel)⟩ ⟨rfl, grows_of rfl rfl (by decide +kernel)⟩
  refine ⟨?_, fun desc h => ?_, fun desc h => ?_, ?_⟩
  · exact mem_see (P := fun t => Static (fun _ => config optsA 0) serJson (treeFs t []))
      (static_tree rfl rfl rfl (by decide +kernel)) (static_tree rfl rfl rfl (by decide +kernel)) t ht
  · obtain rfl : cs!"package.json" = desc := Option.some.inj h
    exact kept_trees (by unfold ValidName; decide) hb hV
  · obtain rfl : cs!"package.json" = desc := Option.some.inj h
    exact inPlace_grows (by unfold ValidName; decide) hb (mem_see (by decide +kernel) (by decide +kernel)) hV
  · intro f v t hf _ h _
    obtain ⟨u, hu, rfl⟩ := hV f hf
    obtain ⟨p, doc, json, hr, hj, hv⟩ := h
    have hall : ∀ u ∈ [treeSee, treeSeeBar], u.allDoc (fun d => match d.json with
        | none => true
        | some j => (j.get cs!"imports").isNone) = true := mem_see (by decide +kernel) (by decide +kernel)
    have := allDoc_read (hall u hu) hr
    simp only [hj, hv] at this
    cases this

theorem steps_no_change (n i : Nat) : ∀ f, Event.change f ∉ List.replicate n (Event.step i 0) := by
  intro f h
  cases (List.mem_replicate.1 h).2

/-- The first call has seen the files without `bar`. -/
theorem see_first : ∃ t, SeesFiles (fun _ => config optsA 0) (treeFs treeSee []) askSee 0 t (treeFs treeSee []) ∧
    t.rid = 0 ∧ t.call = .resolve cs!"/p" cs!"foo" ∧ t.fuel = 20 := by
  obtain ⟨h1, h2, h3, h4⟩ := see_kept (t := treeSee) (by simp) (V := Versions (treeFs treeSee []) []) (by
    rintro f (rfl | h)
    · exact ⟨_, List.mem_cons_self, rfl⟩
    · cases h)
  exact sees_after (l := []) rfl h1 (steps_no_change 60 0) h2 h3 h4 rfl

/-- The second call has seen them with `bar`. -/
theorem see_second : ∃ t, SeesFiles (fun _ => config optsA 0) (treeFs treeSee [])
      (histSee ++ .start 0 (.resolve cs!"/p" cs!"foo") 20 :: List.replicate 60 (.step 1 0)) 1 t (treeFs treeSeeBar []) ∧
    t.rid = 0 ∧ t.call = .resolve cs!"/p" cs!"foo" ∧ t.fuel = 20 := by
  obtain ⟨h1, h2, h3, h4⟩ := see_kept (t := treeSeeBar) (by simp) versions_see
  exact sees_after (by unfold histSee; rw [after_append]; rfl) h1 (steps_no_change 60 1) h2 h3 h4 (by decide +kernel)

theorem see_libs : treeSee.allDoc docLib = true := by decide +kernel
theorem see_docs : treeSee.allDoc docExports = true := by decide +kernel

theorem see_keep : KeepToThemselves optsA.new (treeFs treeSee []) cs!"foo" where
  exports := by
    rintro v ⟨p, doc, json, h1, h2, h3⟩ t ht
    cases docLib_get (allDoc_read see_libs h1) h2 h3 t ht
    refine ⟨by decide, fun s hs => ?_⟩
    have : s = cs!"./lib.js" := by
      cases hs with
      | asIs => rfl
      | folder x _ h => cases h
      | star x _ => rfl
    subst this
    decide +kernel
  mains d f _ v h := by
    obtain ⟨desc, doc, json, -, -, h2, h3, h4⟩ := h
    obtain ⟨⟨_, h⟩, -⟩ := docExports_get (allDoc_read see_docs h2) h3 h4
    cases h

theorem see_unrelated : Unrelated optsA.new (parseRequest cs!"foo").target cs!"bar" where
  ne := by decide
  relative := rfl
  modules := by decide
  target_out := by decide +kernel
  target := by decide +kernel
  own s hs := by
    have key : ∀ s ∈ optsA.new.ownNames, Comp.up ∉ parts s ∧ Comp.normal cs!"bar" ∉ parts s := by decide +kernel
    refine ⟨(key s hs).1, fun x hx => ?_⟩
    cases (Option.some.inj hx : Comp.normal cs!"bar" = x)
    exact (key s hs).2
  description desc h := by
    cases (Option.some.inj h : cs!"package.json" = desc)
    rfl

theorem see_beside : NoneBeside optsA.new (treeFs treeSee []) cs!"/p" cs!"bar" :=
  noneBeside_tree (n := [cs!"p", cs!"node_modules"]) rfl rfl fun desc h => by
    cases (Option.some.inj h : cs!"package.json" = desc)
    exact ⟨rfl, rfl, nofun⟩

/-- `C98_amid`, before and after the installation of `bar`. -/
example : ∃ t t', SeesFiles (fun _ => config optsA 0) (treeFs treeSee []) askSee 0 t (treeFs treeSee []) ∧
    SeesFiles (fun _ => config optsA 0) (treeFs treeSee [])
      (histSee ++ .start 0 (.resolve cs!"/p" cs!"foo") 20 :: List.replicate 60 (.step 1 0)) 1 t' (treeFs treeSeeBar []) ∧
    ∀ x x', outcome t.prog = some x → outcome t'.prog = some x' → x.Like Answer.Sim x' := by
  obtain ⟨t, h, h1, h2, h3⟩ := see_first
  obtain ⟨t', h', h1', h2', h3'⟩ := see_second
  refine ⟨t, t', h, h', ?_⟩
  have hi := C98_install treeSee pkgBar [] locBar (by unfold ValidName; decide)
  have e : ∀ w, (∀ q ∈ [(cs!"/p", cs!"bar")], Outside (pkgDir q.1 q.2) w) ↔ Outside (absText locBar) w := by
    intro w
    rw [show absText locBar = pkgDir cs!"/p" cs!"bar" by decide]
    simp
  refine C98_amid h h' rfl (h3'.trans h3.symm) h2 h2' rfl ⟨rfl, .inr nofun, .inl rfl⟩ (by decide +kernel)
    (PackageName.plain (name := cs!"foo") (rest := []) (by decide) (by decide) (.inl rfl))
    (.inr rfl) rfl see_keep [(cs!"/p", cs!"bar")] ?_ ?_ ?_
  · intro q hq
    cases List.mem_singleton.1 hq
    exact ⟨rfl, see_unrelated, see_beside, outside_plain rfl (by decide) (by decide)⟩
  · exact ⟨fun w h => hi.1.isFile w ((e w).1 h), fun w h => hi.1.isDir w ((e w).1 h), fun w h => hi.1.read w ((e w).1 h),
      fun w h => hi.1.mtime w ((e w).1 h), fun w h => hi.1.canon w ((e w).1 h)⟩
  · exact fun w h => hi.2 w ((e w).1 h)

example : let s := (Sys.init (treeFs treeSee [])).after (fun _ => config optsA 0) serJson (histSee ++
      .start 0 (.resolve cs!"/p" cs!"foo") 20 :: List.replicate 60 (.step 1 0))
    s.path 0 = some cs!"/p/node_modules/foo/lib.js" ∧ s.path 1 = some cs!"/p/node_modules/foo/lib.js" := by
  decide +kernel

end Verif.Live
