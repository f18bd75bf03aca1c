import Verif.Spec.Debug
import Verif.Proofs.Paired
import Verif.Proofs.Changes
import Verif.Proofs.Success
/-!
# Debug builds do what release builds do
-/

namespace Verif

/-! ## Runs that do not look at the debug map -/

/-- The state without the debug map. -/
def World.off (w : World) : World := { w with dbg := fun _ => false }

/-- The operation does not concern the debug map. -/
def Op.NoDbg : Op → Prop
  | .dbgHas _ | .dbgIns _ | .dbgDel _ => False
  | _ => True

/-- Entries of the package cache stay. -/
def Keeps (w w' : World) : Prop := ∀ key, (w.pkg key).isSome = true → (w'.pkg key).isSome = true

theorem exec_keeps (w : World) (o : Op) : Keeps w (o.exec w).2 := by
  intro key h
  cases o with
  | putPkg d v =>
    simp only [Op.exec, upd]
    split
    · rfl
    · exact h
  | _ => exact h

theorem run_keeps {α : Type} (p : Prog α) (w : World) : Keeps w (p.run w).2 := by
  induction p generalizing w with
  | ret a => exact fun _ h => h
  | crash c => exact fun _ h => h
  | op o k ih => exact fun key h => ih _ _ key (exec_keeps w o key h)

theorem off_eq {w w' : World} (h : w.off = w'.off) : w.pkg = w'.pkg ∧ w.exportsTree = w'.exportsTree ∧
    w.importsTree = w'.importsTree ∧ w.file = w'.file ∧ w.seeds = w'.seeds := by
  simp only [World.off, World.mk.injEq] at h
  exact ⟨h.1, h.2.1, h.2.2.1, h.2.2.2.1, h.2.2.2.2.2⟩

theorem exec_off {w w' : World} (h : w.off = w'.off) {o : Op} (ho : o.NoDbg) :
    (o.exec w).1 = (o.exec w').1 ∧ (o.exec w).2.off = (o.exec w').2.off ∧ (o.exec w).2.dbg = w.dbg := by
  obtain ⟨h1, h2, h3, h4, h5⟩ := off_eq h
  cases o <;> first
    | exact ho.elim
    | (refine ⟨?_, ?_, ?_⟩ <;> first
        | rfl
        | (simp only [Op.exec, World.off, h1, h2, h3, h4, h5]; done)
        | (simp only [Op.exec, World.off, h1, h2, h3, h4, h5]; rfl))

theorem Prog.Sat.off {α : Type} {P : α → Prop} {p : Prog α} (hp : p.Sat Op.NoDbg (fun _ _ => True) P)
    {w w' : World} (h : w.off = w'.off) :
    (p.run w).1 = (p.run w').1 ∧ (p.run w).2.off = (p.run w').2.off ∧ (p.run w).2.dbg = w.dbg := by
  induction p generalizing w w' with
  | ret a => exact ⟨rfl, h, rfl⟩
  | crash c => exact ⟨rfl, h, rfl⟩
  | op o k ih =>
    obtain ⟨h1, h2, h3⟩ := exec_off h hp.1
    simp only [Prog.run]
    rw [← h1]
    obtain ⟨h4, h5, h6⟩ := ih (o.exec w).1 (hp.2 _ trivial) h2
    exact ⟨h4, h5, h6.trans h3⟩

/-! ## Pairs of runs -/

/-- The files listed in the debug map have an entry in the package cache. -/
def Listed (desc : Option Str) (w : World) : Prop :=
  ∀ name, desc = some name → ∀ d, w.dbg (comps (pjoin d name)) = true → (w.pkg (comps d)).isSome = true

/-- The runs end alike. -/
def SameEnd {α : Type} (desc : Option Str) (x y : Outcome α × World) : Prop :=
  x.1 = y.1 ∧ x.2.off = y.2.off ∧ Listed desc x.2

/-- From states that differ in the debug map only, the runs end alike. -/
def RunsAlike {α : Type} (desc : Option Str) (p q : Prog α) : Prop :=
  ∀ w w', w.off = w'.off → Listed desc w → SameEnd desc (p.run w) (q.run w')

section
variable {α β : Type} {desc : Option Str}

theorem RunsAlike.ret (a : α) : RunsAlike desc (.ret a) (.ret a) := fun _ _ h hl => ⟨rfl, h, hl⟩

theorem RunsAlike.bind {p q : Prog α} {f g : α → Prog β} (h : RunsAlike desc p q)
    (hf : ∀ a, RunsAlike desc (f a) (g a)) : RunsAlike desc (p.bind f) (q.bind g) := by
  intro w w' ho hl
  obtain ⟨h1, h2, h3⟩ := h w w' ho hl
  rw [Prog.run_bind, Prog.run_bind]
  rcases hp : p.run w with ⟨x, v⟩
  rcases hq : q.run w' with ⟨y, v'⟩
  rw [hp, hq] at h1 h2
  rw [hp] at h3
  simp only at h1 h2 h3
  subst h1
  cases x with
  | done a => exact hf a v v' h2 h3
  | crashed c => exact ⟨rfl, h2, h3⟩

theorem Prog.Sat.run_done {G : Op → Prop} {P : α → Prop} {p : Prog α} (h : p.Sat G (fun _ _ => True) P)
    {w : World} {a : α} (ha : (p.run w).1 = .done a) : P a := by
  induction p generalizing w with
  | ret b => cases ha; exact h
  | crash c => cases ha
  | op o k ih => exact ih _ (h.2 _ trivial) ha

theorem RunsAlike.bind_of {P : α → Prop} {p q : Prog α} {f g : α → Prog β} (h : RunsAlike desc p q)
    (hp : p.All P) (hf : ∀ a, P a → RunsAlike desc (f a) (g a)) :
    RunsAlike desc (p.bind f) (q.bind g) := by
  intro w w' ho hl
  obtain ⟨h1, h2, h3⟩ := h w w' ho hl
  rw [Prog.run_bind, Prog.run_bind]
  have hd : ∀ a, (p.run w).1 = .done a → P a := fun a ha => hp.run_done ha
  rcases hp : p.run w with ⟨x, v⟩
  rcases hq : q.run w' with ⟨y, v'⟩
  rw [hp, hq] at h1 h2
  rw [hp] at h3 hd
  simp only at h1 h2 h3
  subst h1
  cases x with
  | done a => exact hf a (hd a rfl) v v' h2 h3
  | crashed c => exact ⟨rfl, h2, h3⟩

theorem RunsAlike.crash (c : Crash) : RunsAlike desc (.crash c : Prog α) (.crash c) :=
  fun _ _ h hl => ⟨rfl, h, hl⟩

theorem listed_keeps {w w' : World} (hl : Listed desc w) (hd : w'.dbg = w.dbg) (hk : Keeps w w') :
    Listed desc w' := by
  intro name hn d h
  rw [hd] at h
  exact hk _ (hl name hn d h)

theorem Prog.Sat.alike {P : α → Prop} {p : Prog α} (hp : p.Sat Op.NoDbg (fun _ _ => True) P) :
    RunsAlike desc p p := by
  intro w w' ho hl
  obtain ⟨h1, h2, h3⟩ := hp.off ho
  exact ⟨h1, h2, listed_keeps hl h3 (run_keeps p w)⟩

theorem Prog.Paired.alike {f g : Str → Prog LoadAns} {S : Prop} {p q : Prog α} (h : p.Paired f g S q)
    (hl : ∀ d, RunsAlike desc (f d) (g d)) : RunsAlike desc p q := by
  induction h with
  | ret a => exact .ret a
  | crash c => exact fun _ _ h hl => ⟨rfl, h, hl⟩
  | @seed k k' _ _ ih =>
    intro w w' ho hw
    have h5 := (off_eq ho).2.2.2.2
    obtain ⟨-, h2, h3⟩ := exec_off ho (o := .seed) trivial
    have := ih (w.seeds 0) _ _ h2 (listed_keeps hw h3 (exec_keeps w .seed))
    simp only [Prog.run]
    have e : (Op.seed.exec w').1 = w.seeds 0 := by rw [h5]; rfl
    rw [e]
    exact this
  | load d _ ih => exact (hl d).bind ih

end

/-! ## Loading -/

/-- The same environment in a release build. -/
def Env.release (e : Env) : Env := { e with debug := false }

section
variable {e : Env} {desc : Str}

local notation "ND" => Prog.Sat Op.NoDbg (fun _ _ => True) (fun _ => True)

theorem noDbg_exports (e : Env) (json : Json) : ND (exportsTreeOf e json) := by
  unfold exportsTreeOf
  split
  · trivial
  · refine ⟨trivial, fun r _ => ?_⟩
    cases r with
    | some t => trivial
    | none =>
      dsimp only
      split
      · trivial
      · trivial
      · exact ⟨trivial, fun _ _ => trivial⟩

theorem noDbg_imports (e : Env) (json : Json) : ND (importsTreeOf e json) := by
  unfold importsTreeOf
  split
  · trivial
  · refine ⟨trivial, fun r _ => ?_⟩
    cases r with
    | some t => trivial
    | none =>
      dsimp only
      split
      · trivial
      · trivial
      · exact ⟨trivial, fun _ _ => trivial⟩

theorem noDbg_readToString (e : Env) (path : Str) : ND (readToString e path) := by
  unfold readToString
  split
  · trivial
  · split
    · trivial
    · exact ⟨trivial, fun _ _ => trivial⟩

theorem noDbg_needUpdate (e : Env) (path : Str) : ND (needUpdate e path) := by
  unfold needUpdate
  split
  · trivial
  · refine ⟨trivial, fun r _ => ?_⟩
    cases r with
    | none => trivial
    | some m =>
      dsimp only
      split
      · trivial
      · split <;> trivial

theorem noDbg_cacheNone (fs : Fs) (n : Nat) (path : Str) : ND (cacheNone fs n path) := by
  induction n generalizing path with
  | zero => trivial
  | succ n ih =>
    unfold cacheNone
    split
    · refine ⟨trivial, fun _ _ => ?_⟩
      split
      · exact ih _
      · trivial
    · trivial

theorem noDbg_parse (e : Env) (d file : Str) : ND (parseDescription e.release d file) := by
  have hdb : e.release.debug = false := rfl
  unfold parseDescription dbgGuard
  simp only [hdb, Bool.false_eq_true, if_false]
  refine Prog.Sat.bind (noDbg_readToString _ _) fun r _ => ?_
  split
  · trivial
  · split
    · trivial
    · refine ⟨trivial, fun seed _ => ?_⟩
      split
      · trivial
      · refine Prog.Sat.bind (noDbg_exports _ _) fun r _ => ?_
        split
        · trivial
        · refine Prog.Sat.bind (noDbg_imports _ _) fun r _ => ?_
          split
          · trivial
          · split <;> trivial

theorem exportsTreeOf_run (e : Env) {json : Json} (h : ∀ v, json.get cs!"exports" = some v →
      ∃ t, buildTree .exports v = some (.ok t)) (w : World) :
    ∃ t, ((exportsTreeOf e json).run w).1 = .done (.ok t) := by
  unfold exportsTreeOf
  cases hv : json.get cs!"exports" with
  | none => exact ⟨_, rfl⟩
  | some v =>
    simp only [Prog.run]
    cases hx : (Op.exec w (.getExports (e.ser v))).1 with
    | some t => exact ⟨_, rfl⟩
    | none =>
      obtain ⟨t, ht⟩ := h v hv
      simp only [ht]
      exact ⟨_, rfl⟩

theorem importsTreeOf_run (e : Env) {json : Json} (h : ∀ v, json.get cs!"imports" = some v →
      ∃ t, buildTree .imports v = some (.ok t)) (w : World) :
    ∃ t, ((importsTreeOf e json).run w).1 = .done (.ok t) := by
  unfold importsTreeOf
  cases hv : json.get cs!"imports" with
  | none => exact ⟨_, rfl⟩
  | some v =>
    simp only [Prog.run]
    cases hx : (Op.exec w (.getImports (e.ser v))).1 with
    | some t => exact ⟨_, rfl⟩
    | none =>
      obtain ⟨t, ht⟩ := h v hv
      simp only [ht]
      exact ⟨_, rfl⟩

theorem withTree_inv {k : FieldKind} {v : Option Json} {α : Type} {next : Option Node → Prog (Except Err α)}
    {a : α} (h : withTree k v next = .ret (.ok a)) :
    (∀ x, v = some x → ∃ t, buildTree k x = some (.ok t)) ∧ ∃ t, next t = .ret (.ok a) := by
  unfold withTree at h
  cases v with
  | none => exact ⟨nofun, none, h⟩
  | some x =>
    simp only at h
    split at h
    · cases h
    · cases h
    · rename_i t ht
      exact ⟨fun y hy => by cases hy; exact ⟨t, ht⟩, some t, h⟩

/-- A well-formed file is parsed, whatever the caches hold. -/
theorem parse_run {d file : Str} {p : Pkg} (h : readPkg e.fs d file = .ret (.ok p)) (w : World) :
    ∃ pkg, ((parseDescription e.release d file).run w).1 = .done (.ok pkg) := by
  unfold readPkg at h
  split at h
  case h_2 => cases h
  case h_1 doc m hr hm =>
    split at h
    case h_1 => cases h
    case h_2 json hj =>
      split at h
      case h_1 => cases h
      case h_2 fields hb =>
        obtain ⟨h1, et, h⟩ := withTree_inv h
        obtain ⟨h2, it, h⟩ := withTree_inv h
        have hs : ∃ se, parseSideEffects file json = .ok se := by
          split at h
          · cases h
          · exact ⟨_, by assumption⟩
        obtain ⟨se, hs⟩ := hs
        have hr' : e.release.fs.read file = some doc := hr
        have hm' : e.release.fs.mtime file = some m := hm
        have hdb : e.release.debug = false := rfl
        unfold parseDescription dbgGuard readToString
        simp only [hr', hm', hj, hb, hdb, Bool.false_eq_true, if_false, Prog.bind, Prog.run]
        rw [Prog.run_bind]
        generalize (Op.exec _ Op.seed).2 = w1
        obtain ⟨t, ht⟩ := exportsTreeOf_run e.release h1 w1
        rcases hx : (exportsTreeOf e.release json).run w1 with ⟨x, w2⟩
        rw [hx] at ht
        simp only at ht
        subst ht
        simp only
        rw [Prog.run_bind]
        obtain ⟨t', ht⟩ := importsTreeOf_run e.release h2 w2
        rcases hx : (importsTreeOf e.release json).run w2 with ⟨x, w3⟩
        rw [hx] at ht
        simp only at ht
        subst ht
        simp only [hs]
        exact ⟨_, rfl⟩

theorem plain_comps (h : PlainName desc) (d : Str) :
    comps (pjoin d desc) = comps d ++ body (comps desc) := by
  by_cases hd : d = []
  · subst hd
    have e1 : pjoin [] desc = desc := by
      unfold pjoin
      rw [h.1]
      simp
    rw [e1]
    show comps desc = body (comps desc)
    unfold body
    split
    · rename_i t ht
      exact absurd ht (h.2 t)
    · rfl
  · exact comps_pjoin hd h.1

theorem plain_join (h : PlainName desc) {d d' : Str} (he : comps d = comps d') :
    comps (pjoin d desc) = comps (pjoin d' desc) := by
  rw [plain_comps h, plain_comps h, he]

theorem plain_inj (h : PlainName desc) {d d' : Str} (he : comps (pjoin d desc) = comps (pjoin d' desc)) :
    comps d = comps d' := by
  rw [plain_comps h, plain_comps h] at he
  exact List.append_cancel_right he

theorem exportsTreeOf_ser {e e' : Env} (h : e.ser = e'.ser) : exportsTreeOf e = exportsTreeOf e' := by
  funext j
  unfold exportsTreeOf
  cases j.get cs!"exports" with
  | none => rfl
  | some v =>
    have h : e.ser v = e'.ser v := congrFun h v
    dsimp only
    revert h
    generalize e.ser v = s
    generalize e'.ser v = s'
    rintro rfl
    congr 1
    funext r
    cases r with
    | some t => rfl
    | none => rfl

theorem importsTreeOf_ser {e e' : Env} (h : e.ser = e'.ser) : importsTreeOf e = importsTreeOf e' := by
  funext j
  unfold importsTreeOf
  cases j.get cs!"imports" with
  | none => rfl
  | some v =>
    have h : e.ser v = e'.ser v := congrFun h v
    dsimp only
    revert h
    generalize e.ser v = s
    generalize e'.ser v = s'
    rintro rfl
    congr 1
    funext r
    cases r with
    | some t => rfl
    | none => rfl

theorem parse_guard (e : Env) (d file : Str) :
    parseDescription e d file = dbgGuard e file (parseDescription e.release d file) := by
  have e1 : ∀ k : Prog (Except Err Pkg), dbgGuard e.release file k = k := fun k => by
    unfold dbgGuard
    rw [if_neg (by simp [Env.release])]
  have e2 : readToString e.release = readToString e := rfl
  unfold parseDescription
  rw [e1, e2, exportsTreeOf_ser (e := e.release) (e' := e) rfl, importsTreeOf_ser (e := e.release) (e' := e) rfl]

theorem parseAndStore_alike (hd : PlainName desc) (hs : SoundFiles e.fs desc) {p : Str}
    (hf : e.fs.isFile (pjoin p desc) = true) (hdb : e.debug = true) {w w' : World} (ho : w.off = w'.off)
    (hl : Listed (some desc) w) (hn : w.dbg (comps (pjoin p desc)) = false) :
    SameEnd (some desc) ((parseAndStore e p (pjoin p desc)).run w)
      ((parseAndStore e.release p (pjoin p desc)).run w') := by
  obtain ⟨y, hy⟩ := hs p hf
  have e3 : (parseDescription e p (pjoin p desc)).run w =
      (parseDescription e.release p (pjoin p desc)).run (Op.exec w (.dbgIns (pjoin p desc))).2 := by
    rw [parse_guard]
    generalize parseDescription e.release p (pjoin p desc) = k
    unfold dbgGuard
    rw [if_pos hdb]
    have e2 : ∀ k : Bool → Prog (Except Err Pkg), (Prog.op (.dbgHas (pjoin p desc)) k).run w =
        (k (w.dbg (comps (pjoin p desc)))).run w := fun k => rfl
    refine (e2 _).trans ?_
    rw [hn]
    rfl
  unfold parseAndStore
  rw [Prog.run_bind, Prog.run_bind, e3]
  generalize hv : (Op.exec w (.dbgIns (pjoin p desc))).2 = v
  have hvo : v.off = w'.off := by rw [← hv, ← ho]; rfl
  have hvd : v.dbg = upd w.dbg (comps (pjoin p desc)) true := by rw [← hv]; rfl
  have hvp : v.pkg = w.pkg := by rw [← hv]; rfl
  obtain ⟨h1, h2, h3⟩ := (noDbg_parse e p (pjoin p desc)).off hvo
  have hk := run_keeps (parseDescription e.release p (pjoin p desc)) v
  obtain ⟨pkg, hp⟩ := parse_run (e := e) hy v
  rcases hx : (parseDescription e.release p (pjoin p desc)).run v with ⟨x, u⟩
  rcases hx' : (parseDescription e.release p (pjoin p desc)).run w' with ⟨x', u'⟩
  rw [hx] at h1 h2 h3 hk hp
  rw [hx'] at h1 h2
  simp only at h1 h2 h3 hk hp
  subst h1
  subst hp
  simp only
  obtain ⟨h4, h5, h6⟩ := exec_off h2 (o := .putPkg p (some pkg)) trivial
  refine ⟨rfl, h5, ?_⟩
  intro name hname d hdd
  cases hname
  have hdd : u.dbg (comps (pjoin d desc)) = true := hdd
  show ((upd u.pkg (comps p) (some (some pkg))) (comps d)).isSome = true
  unfold upd
  split
  · rfl
  · rename_i hne
    rw [h3, hvd] at hdd
    unfold upd at hdd
    rw [if_neg fun h => hne (plain_inj hd h)] at hdd
    exact hk _ (by rw [hvp]; exact hl desc rfl d hdd)

theorem noDbg_store (e : Env) (d file : Str) : ND (parseAndStore e.release d file) := by
  unfold parseAndStore
  refine Prog.Sat.bind (noDbg_parse e d file) fun r _ => ?_
  cases r with
  | error err => trivial
  | ok pkg => exact ⟨trivial, fun _ _ => trivial⟩

theorem noDbg_load (e : Env) (n : Nat) (p : Str) : ND (loadPkgAux e.release n p) := by
  induction n generalizing p with
  | zero => trivial
  | succ n ih =>
    have hdb : e.release.debug = false := rfl
    unfold loadPkgAux
    simp only [hdb, Bool.false_eq_true, if_false]
    split
    · trivial
    · split
      · split
        · exact ih _
        · trivial
      · refine ⟨trivial, fun r _ => ?_⟩
        cases r with
        | some cached =>
          refine Prog.Sat.bind (noDbg_needUpdate _ _) fun r _ => ?_
          split
          · trivial
          · trivial
          · exact noDbg_store _ _ _
        | none =>
          dsimp only
          split
          · split
            · exact ih _
            · exact noDbg_cacheNone _ _ _
          · exact noDbg_store _ _ _

theorem loadPkgAux_alike_debug (hdesc : ∀ name, e.opts.descriptionFile = some name →
      PlainName name ∧ SoundFiles e.fs name) (hdb : e.debug = true) (n : Nat) (p : Str) :
    RunsAlike e.opts.descriptionFile (loadPkgAux e n p) (loadPkgAux e.release n p) := by
  induction n generalizing p with
  | zero => exact fun _ _ h hl => ⟨rfl, h, hl⟩
  | succ n ih =>
    have e1 : e.release.opts = e.opts := rfl
    have e2 : e.release.fs = e.fs := rfl
    have e3 : e.release.debug = false := rfl
    have e4 : needUpdate e.release = needUpdate e := rfl
    unfold loadPkgAux
    simp only [e1, e2, e3, e4, hdb]
    cases hd : e.opts.descriptionFile with
    | none => exact .ret _
    | some desc =>
      rw [hd] at ih
      obtain ⟨h1, h2⟩ := hdesc desc hd
      simp only
      split
      · split
        · exact ih _
        · exact .ret _
      · intro w w' ho hl
        simp only [Prog.run]
        obtain ⟨h3, h4, h5⟩ := exec_off ho (o := .getPkg p) trivial
        have e5 : (Op.exec w (.getPkg p)).2 = w := rfl
        have e6 : (Op.exec w' (.getPkg p)).2 = w' := rfl
        rw [← h3, e5, e6]
        cases hc : (Op.exec w (.getPkg p)).1 with
        | some cached =>
          simp only
          by_cases hf : e.fs.isFile (pjoin p desc) = true
          · refine RunsAlike.bind (noDbg_needUpdate e (pjoin p desc)).alike (fun r => ?_) w w' ho hl
            cases r with
            | error err => exact .ret _
            | ok b =>
              cases b with
              | false => exact .ret _
              | true =>
                simp only [if_true, Bool.false_eq_true, if_false]
                intro v v' ho' hl'
                simp only [Prog.run]
                refine parseAndStore_alike h1 h2 hf hdb (ho' ▸ rfl) ?_ ?_
                · intro name hname d hdd
                  refine hl' name hname d ?_
                  simp only [Op.exec, upd] at hdd
                  split at hdd
                  · cases hdd
                  · exact hdd
                · simp [Op.exec, upd]
          · have hf : e.fs.isFile (pjoin p desc) = false := by simpa using hf
            unfold needUpdate
            rw [hf]
            exact ⟨rfl, ho, hl⟩
        | none =>
          simp only
          split
          · split
            · exact ih _ w w' ho hl
            · exact (noDbg_cacheNone _ _ _).alike w w' ho hl
          · rename_i hf
            refine parseAndStore_alike h1 h2 (by simpa using hf) hdb ho hl ?_
            apply Bool.eq_false_iff.2
            intro hx
            have := hl desc rfl p hx
            have hc : w.pkg (comps p) = none := hc
            rw [hc] at this
            cases this

theorem loadPkgAux_alike (hdesc : ∀ name, e.opts.descriptionFile = some name →
      PlainName name ∧ SoundFiles e.fs name) (n : Nat) (p : Str) :
    RunsAlike e.opts.descriptionFile (loadPkgAux e n p) (loadPkgAux e.release n p) := by
  cases hdb : e.debug with
  | true => exact loadPkgAux_alike_debug hdesc hdb n p
  | false =>
    have e1 : e = e.release := by
      cases e
      simp only [Env.release, Env.mk.injEq, true_and, and_true]
      exact hdb
    have := (noDbg_load e n p).alike (desc := e.opts.descriptionFile)
    rwa [← e1] at this ⊢

end

/-! ## Calls -/

theorem resolve_alike {e : Env} (hdesc : ∀ name, e.opts.descriptionFile = some name →
      PlainName name ∧ SoundFiles e.fs name) (n : Nat) (path request : Str) :
    RunsAlike e.opts.descriptionFile (resolve e n path request) (resolve e.release n path request) := by
  have hstats : RunsAlike e.opts.descriptionFile (resolveStats e.ctx n path request)
      (resolveStats e.release.ctx n path request) :=
    (paired_stats (c := e.ctx) (g := loadPkg e.release) (b := false) (fun _ => trivial) n path request).alike fun d =>
      loadPkgAux_alike hdesc _ d
  refine hstats.bind_of (resolveStats_fileOk e n path request) fun s hs => ?_
  cases s with
  | error err i => exact .ret _
  | resolving i => exact .crash _
  | success r =>
    cases r with
    | ignored => exact .ret _
    | info i =>
      have ht : i.request.target = [] := FileOk.target hs
      have e1 : normalizePath e.release.ctx = normalizePath e.ctx := rfl
      dsimp only
      unfold normalizeResult
      simp only [ht, e1, ne_eq, not_true_eq_false, decide_false, Bool.and_false, Bool.false_eq_true, if_false]
      split <;> exact .ret _

theorem call_alike {e : Env} (hdesc : ∀ name, e.opts.descriptionFile = some name →
      PlainName name ∧ SoundFiles e.fs name) (n : Nat) (call : Call) :
    RunsAlike e.opts.descriptionFile (call.prog e n) (call.prog e.release n) := by
  cases call with
  | resolve path request => exact (resolve_alike hdesc n path request).bind fun _ => .ret _
  | sideEffects path =>
    refine RunsAlike.bind ?_ fun _ => .ret _
    unfold loadSideEffects
    refine RunsAlike.bind (loadPkgAux_alike hdesc _ path) fun r => ?_
    cases r with
    | error err => exact .ret _
    | ok pkg =>
      cases pkg with
      | none => exact .ret _
      | some pkg =>
        have e1 : e.release.opts = e.opts := rfl
        simp only [e1]
        split
        · exact fun _ _ h hl => ⟨rfl, h, hl⟩
        · exact .ret _

/-! ## Systems -/

/-- The leaf of a program that ended so. -/
def Outcome.leaf {α : Type} : Outcome α → Prog α
  | .done a => .ret a
  | .crashed c => .crash c

theorem leaf_of_outcome {α : Type} {p : Prog α} {o : Outcome α} (h : p.outcome = some o) : p = o.leaf := by
  cases p with
  | ret a => cases h; rfl
  | crash c => cases h; rfl
  | op _ _ => cases h

theorem exec_stream (w : World) (o : Op) (seeds : Nat → Nat) (h : seeds 0 = w.seeds 0) :
    (o.exec { w with seeds := seeds }).1 = (o.exec w).1 ∧
      ∀ s : Nat → Nat, { (o.exec { w with seeds := seeds }).2 with seeds := s } = { (o.exec w).2 with seeds := s } := by
  cases o <;> first
    | exact ⟨h, fun _ => rfl⟩
    | exact ⟨rfl, fun _ => rfl⟩

theorem store_seeds (cfg : Nat → Config) (s : Shared) (rid : Nat) (w : World) (seeds : Nat → Nat) :
    s.store cfg rid { w with seeds := seeds } = s.store cfg rid w := rfl

theorem Sys.after_append (cfg : Nat → Config) (ser : Json → Str) (s : Sys) (l l' : List Event) :
    s.after cfg ser (l ++ l') = (s.after cfg ser l).after cfg ser l' := List.foldl_append ..

/-- The system can carry out what the run does. -/
theorem steps_run (cfg : Nat → Config) (ser : Json → Str) (p : Prog Answer) (s : Sys) (i : Nat) (t : Task)
    (ht : s.tasks[i]? = some t) (hp : t.prog = p) (w : World) (hw : s.shared.view cfg t.rid w.seeds = w) :
    ∃ l, inputs l = [] ∧ s.after cfg ser l =
      { s with
        shared := s.shared.store cfg t.rid (p.run w).2
        tasks := s.tasks.set i { t with prog := (p.run w).1.leaf } } := by
  have stay : ∀ q : Prog Answer, t.prog = q → s = { s with
      shared := s.shared.store cfg t.rid w
      tasks := s.tasks.set i { t with prog := q } } := by
    rintro q rfl
    have e1 : s.shared.store cfg t.rid w = s.shared := by rw [← hw, store_view]
    have e2 : s.tasks.set i t = s.tasks := by
      obtain ⟨hi, rfl⟩ := List.getElem?_eq_some_iff.1 ht
      exact List.set_getElem_self hi
    rw [e1]
    show s = { s with tasks := s.tasks.set i t }
    rw [e2]
  induction p generalizing s t w with
  | ret a => exact ⟨[], rfl, stay _ hp⟩
  | crash c => exact ⟨[], rfl, stay _ hp⟩
  | op o k ih =>
    have hv : s.shared.view cfg t.rid (fun _ => w.seeds 0) = { w with seeds := fun _ => w.seeds 0 } := by
      rw [← hw]; rfl
    obtain ⟨h1, h2⟩ := exec_stream w o (fun _ => w.seeds 0) rfl
    have hnext : s.next cfg ser (.step i (w.seeds 0)) =
        { s with
          shared := s.shared.store cfg t.rid (o.exec w).2
          tasks := s.tasks.set i { t with prog := k (o.exec w).1 } } := by
      simp only [Sys.next, ht, hp, hv, h1]
      rw [← store_seeds cfg s.shared t.rid _ w.seeds, h2, store_seeds]
    have hi := (List.getElem?_eq_some_iff.1 ht).1
    have ht' : (s.next cfg ser (.step i (w.seeds 0))).tasks[i]? = some { t with prog := k (o.exec w).1 } := by
      rw [hnext]
      simp [List.getElem?_set, hi]
    have hw' : (s.next cfg ser (.step i (w.seeds 0))).shared.view cfg t.rid (o.exec w).2.seeds = (o.exec w).2 := by
      rw [hnext]
      exact view_store _ _ _ _
    obtain ⟨l, hl, h⟩ := ih (o.exec w).1 (s.next cfg ser (.step i (w.seeds 0)))
      { t with prog := k (o.exec w).1 } ht' rfl (o.exec w).2 hw' (by
        rintro q rfl
        rw [hnext]
        simp only [store_store, List.set_set])
    refine ⟨.step i (w.seeds 0) :: l, hl, ?_⟩
    show (s.next cfg ser _).after cfg ser l = _
    rw [h, hnext]
    simp only [store_store, List.set_set]
    rfl

section
variable {cfg : Nat → Config} {ser : Json → Str} {F : Fs → Prop} {fs0 : Fs}

/-- The debug maps of all resolvers list files with an entry in the package cache. -/
def ListedS (cfg : Nat → Config) (s : Shared) : Prop :=
  ∀ rid, Listed (cfg rid).opts.descriptionFile (s.view cfg rid fun _ => 0)

theorem ListedS.store {s : Shared} (h : ListedS cfg s) {rid : Nat} {w : World} {seeds : Nat → Nat}
    (hw : Listed (cfg rid).opts.descriptionFile w) (hk : Keeps (s.view cfg rid seeds) w) :
    ListedS cfg (s.store cfg rid w) := by
  intro rid' name hn d hd
  by_cases hr : rid' = rid
  · subst hr
    rw [view_store] at hd ⊢
    exact hw name hn d hd
  · have hd : upd s.dbgs rid w.dbg rid' (comps (pjoin d name)) = true := hd
    simp only [upd, if_neg hr] at hd
    have h1 := h rid' name hn d hd
    show ((upd s.caches (cfg rid).cache ⟨w.pkg, w.exportsTree, w.importsTree⟩ (cfg rid').cache).pkg
      (comps d)).isSome = true
    unfold upd
    split
    · rename_i hc
      refine hk _ ?_
      show ((s.caches (cfg rid).cache).pkg (comps d)).isSome = true
      rw [← hc]
      exact h1
    · exact h1

/-- The configurations of the release builds. -/
def released (cfg : Nat → Config) (rid : Nat) : Config := (cfg rid).release

/-- The state of the release builds after the events. -/
def relSys (cfg : Nat → Config) (ser : Json → Str) (fs0 : Fs) (l : List Event) : Sys :=
  (Sys.init fs0).after (released cfg) ser l

/-- No call is in progress; the release builds are in the same state. -/
structure Calm (cfg : Nat → Config) (ser : Json → Str) (F : Fs → Prop) (fs0 : Fs) (l : List Event) (s : Sys) :
    Prop where
  idle : s.Idle
  tasks : (relSys cfg ser fs0 l).tasks = s.tasks
  fs : (relSys cfg ser fs0 l).fs = s.fs
  caches : (relSys cfg ser fs0 l).shared.caches = s.shared.caches
  files : (relSys cfg ser fs0 l).shared.files = s.shared.files
  listed : ListedS cfg s.shared
  known : F s.fs

/-- A call is in progress; the release builds are in the state in which it started. -/
structure Running (cfg : Nat → Config) (ser : Json → Str) (F : Fs → Prop) (fs0 : Fs) (l : List Event) (s : Sys)
    (old : List Task) (t : Task) (p : Prog Answer) (sh : Shared) (w : World) : Prop where
  idle : ∀ t ∈ old, ∃ o, t.prog.outcome = some o
  here : s.tasks = old ++ [{ t with prog := p }]
  tasks : (relSys cfg ser fs0 l).tasks =
    old ++ [{ t with prog := t.call.prog ((released cfg t.rid).env ser t.fs) t.fuel }]
  fs : (relSys cfg ser fs0 l).fs = s.fs
  caches : (relSys cfg ser fs0 l).shared.caches = sh.caches
  files : (relSys cfg ser fs0 l).shared.files = sh.files
  listed : ListedS cfg sh
  known : F s.fs
  start : F t.fs
  shared : s.shared = sh.store cfg t.rid w
  run : ∀ seeds, ∃ seeds', (t.call.prog ((cfg t.rid).env ser t.fs) t.fuel).run (sh.view cfg t.rid seeds') =
    p.run { w with seeds := seeds }

/-- The files are as they should be. -/
def SoundSys (cfg : Nat → Config) (F : Fs → Prop) : Prop :=
  ∀ fs rid desc, F fs → (cfg rid).opts.descriptionFile = some desc → PlainName desc ∧ SoundFiles fs desc

theorem inputs_append (l l' : List Event) : inputs (l ++ l') = inputs l ++ inputs l' := List.filter_append ..

theorem Running.finish (hF : SoundSys cfg F) {l : List Event} {s : Sys} {old : List Task} {t : Task}
    {p : Prog Answer} {sh : Shared} {w : World} (h : Running cfg ser F fs0 l s old t p sh w)
    {o : Outcome Answer} (ho : p.outcome = some o) :
    ∃ l', inputs l' = inputs l ∧ Calm cfg ser F fs0 l' s := by
  obtain ⟨seeds, hrun⟩ := h.run fun _ => 0
  rw [run_of_outcome ho] at hrun
  have hview : ((relSys cfg ser fs0 l).shared.view (released cfg) t.rid seeds).off =
      (sh.view cfg t.rid seeds).off := by
    simp only [Shared.view, World.off, h.caches, h.files]
    rfl
  obtain ⟨h1, h2, h3⟩ := call_alike (e := (cfg t.rid).env ser t.fs) (fun name hn => hF _ t.rid name h.start hn)
    t.fuel t.call (sh.view cfg t.rid seeds) _ hview.symm (h.listed t.rid)
  have hk := run_keeps (t.call.prog ((cfg t.rid).env ser t.fs) t.fuel) (sh.view cfg t.rid seeds)
  rw [hrun] at h1 h2 h3 hk
  simp only at h1 h2 h3 hk
  obtain ⟨l', hl', hstep⟩ := steps_run (released cfg) ser _ (relSys cfg ser fs0 l) old.length
    { t with prog := t.call.prog ((released cfg t.rid).env ser t.fs) t.fuel }
    (by rw [h.tasks]; simp) rfl ((relSys cfg ser fs0 l).shared.view (released cfg) t.rid seeds) rfl
  have e0 : ((cfg t.rid).env ser t.fs).release = (released cfg t.rid).env ser t.fs := rfl
  rw [e0] at h1 h2
  have hafter := (Sys.after_append (released cfg) ser (Sys.init fs0) l l').trans hstep
  rw [show (Sys.init fs0).after (released cfg) ser (l ++ l') = relSys cfg ser fs0 (l ++ l') from rfl] at hafter
  refine ⟨l ++ l', by rw [inputs_append, hl', List.append_nil], ?_, ?_, ?_, ?_, ?_, ?_, h.known⟩
  · intro t' ht'
    rw [h.here] at ht'
    rcases List.mem_append.1 ht' with ht' | ht'
    · exact h.idle t' ht'
    · rw [List.mem_singleton.1 ht']
      exact ⟨o, ho⟩
  · rw [hafter, h.here, leaf_of_outcome ho, h1]
    show (relSys cfg ser fs0 l).tasks.set _ _ = _
    rw [h.tasks]
    simp
  · rw [hafter]
    exact h.fs
  · rw [hafter, h.shared]
    obtain ⟨g1, g2, g3, g4, g5⟩ := off_eq h2
    simp only [Shared.store, h.caches]
    have e1 : (released cfg t.rid).cache = (cfg t.rid).cache := rfl
    rw [e1, ← g1, ← g2, ← g3]
  · rw [hafter, h.shared]
    obtain ⟨g1, g2, g3, g4, g5⟩ := off_eq h2
    simp only [Shared.store, h.files]
    rw [← g4]
  · rw [h.shared]
    exact h.listed.store (seeds := seeds) (w := w) h3 hk

/-- The states of systems in which calls happen one at a time. -/
def Fine (cfg : Nat → Config) (ser : Json → Str) (F : Fs → Prop) (fs0 : Fs) (l : List Event) (s : Sys) : Prop :=
  Calm cfg ser F fs0 l s ∨ ∃ old t p sh w, Running cfg ser F fs0 l s old t p sh w

theorem Fine.calm (hF : SoundSys cfg F) {l : List Event} {s : Sys} (h : Fine cfg ser F fs0 l s) (hi : s.Idle) :
    ∃ l', inputs l' = inputs l ∧ Calm cfg ser F fs0 l' s := by
  rcases h with h | ⟨old, t, p, sh, w, h⟩
  · exact ⟨l, rfl, h⟩
  · obtain ⟨o, ho⟩ := hi { t with prog := p } (by rw [h.here]; simp)
    exact h.finish hF ho

theorem Fine.next (hF : SoundSys cfg F) {l : List Event} {s : Sys} (h : Fine cfg ser F fs0 l s) (e : Event)
    (he : match e with
      | .step _ _ => True
      | .start _ _ _ => s.Idle
      | .change fs => F fs) :
    ∃ l', inputs l' = inputs l ++ inputs [e] ∧ Fine cfg ser F fs0 l' (s.next cfg ser e) := by
  cases e with
  | change fs =>
    have e1 : relSys cfg ser fs0 (l ++ [.change fs]) = { relSys cfg ser fs0 l with fs := fs } := by
      unfold relSys
      rw [Sys.after_append]
      rfl
    refine ⟨l ++ [.change fs], inputs_append _ _, ?_⟩
    rcases h with h | ⟨old, t, p, sh, w, h⟩
    · exact .inl ⟨h.idle, by rw [e1]; exact h.tasks, by rw [e1]; rfl, by rw [e1]; exact h.caches,
        by rw [e1]; exact h.files, h.listed, he⟩
    · exact .inr ⟨old, t, p, sh, w, h.idle, h.here, by rw [e1]; exact h.tasks, by rw [e1]; rfl,
        by rw [e1]; exact h.caches, by rw [e1]; exact h.files, h.listed, he, h.start, h.shared, h.run⟩
  | start rid call fuel =>
    obtain ⟨l1, hl1, h⟩ := h.calm hF he
    have e1 : relSys cfg ser fs0 (l1 ++ [.start rid call fuel]) =
        (relSys cfg ser fs0 l1).next (released cfg) ser (.start rid call fuel) := by
      unfold relSys
      rw [Sys.after_append]
      rfl
    refine ⟨l1 ++ [.start rid call fuel], by rw [inputs_append, hl1], .inr ⟨s.tasks,
      ⟨rid, s.fs, call, fuel, call.prog ((cfg rid).env ser s.fs) fuel⟩,
      call.prog ((cfg rid).env ser s.fs) fuel, s.shared, s.shared.view cfg rid (fun _ => 0),
      h.idle, rfl, ?_, ?_, ?_, ?_, h.listed, h.known, h.known, ?_, fun seeds => ⟨seeds, rfl⟩⟩⟩
    · rw [e1]
      simp only [Sys.next, h.tasks, h.fs]
    · rw [e1]; exact h.fs
    · rw [e1]; exact h.caches
    · rw [e1]; exact h.files
    · exact (store_view s.shared rid _).symm
  | step i seed =>
    refine ⟨l, by simp [inputs], ?_⟩
    cases ht : s.tasks[i]? with
    | none =>
      have : s.next cfg ser (.step i seed) = s := by simp only [Sys.next, ht]
      rw [this]; exact h
    | some t =>
      cases hp : t.prog with
      | ret a =>
        have : s.next cfg ser (.step i seed) = s := by simp only [Sys.next, ht, hp]
        rw [this]; exact h
      | crash c =>
        have : s.next cfg ser (.step i seed) = s := by simp only [Sys.next, ht, hp]
        rw [this]; exact h
      | op o k =>
        rcases h with h | ⟨old, t', p, sh, w, h⟩
        · obtain ⟨x, hx⟩ := h.idle t (List.mem_of_getElem? ht)
          rw [hp] at hx; cases hx
        · have ht2 := ht
          rw [h.here, List.getElem?_append] at ht2
          split at ht2
          · obtain ⟨x, hx⟩ := h.idle t (List.mem_of_getElem? ht2)
            rw [hp] at hx; cases hx
          · rename_i hlt
            have hi : i = old.length := by
              have h0 : i - old.length < 1 := (List.getElem?_eq_some_iff.1 ht2).1
              omega
            rw [hi, Nat.sub_self] at ht2
            have ht2 : { t' with prog := p } = t := Option.some.inj ht2
            subst ht2
            have hp : p = .op o k := hp
            have hnext : s.next cfg ser (.step i seed) =
                { s with
                  shared := sh.store cfg t'.rid (o.exec { w with seeds := fun _ => seed }).2
                  tasks := old ++ [{ t' with prog := k (o.exec { w with seeds := fun _ => seed }).1 }] } := by
              simp only [Sys.next, ht, hp, h.shared, view_store, store_store]
              rw [h.here, hi]
              simp
            rw [hnext]
            refine .inr ⟨old, t', k (o.exec { w with seeds := fun _ => seed }).1, sh,
              (o.exec { w with seeds := fun _ => seed }).2, h.idle, rfl, h.tasks, h.fs, h.caches, h.files,
              h.listed, h.known, h.start, rfl, fun seeds => ?_⟩
            have key : ∃ seeds', p.run { w with seeds := seeds' } =
                (k (o.exec { w with seeds := fun _ => seed }).1).run
                  { (o.exec { w with seeds := fun _ => seed }).2 with seeds := seeds } := by
              rw [hp]
              cases o with
              | seed => exact ⟨fun n => match n with
                  | 0 => seed
                  | n + 1 => seeds n, rfl⟩
              | _ => exact ⟨seeds, rfl⟩
            obtain ⟨seeds', e1⟩ := key
            obtain ⟨seeds'', e2⟩ := h.run seeds'
            exact ⟨seeds'', e2.trans e1⟩

theorem fine_after (hF : SoundSys cfg F) {l : List Event} {s : Sys} (h : Fine cfg ser F fs0 l s)
    {l2 : List Event} (hl : OneAtATime cfg ser F s l2) :
    ∃ l', inputs l' = inputs l ++ inputs l2 ∧ Fine cfg ser F fs0 l' (s.after cfg ser l2) := by
  induction l2 generalizing s l with
  | nil => exact ⟨l, by simp [inputs], h⟩
  | cons e l2 ih =>
    obtain ⟨l1, h1, h2⟩ := h.next hF e hl.1
    obtain ⟨l', h3, h4⟩ := ih h2 hl.2
    refine ⟨l', ?_, h4⟩
    rw [h3, h1, List.append_assoc, ← inputs_append]
    rfl

theorem fine_init (hfs : F fs0) : Fine cfg ser F fs0 [] (Sys.init fs0) :=
  .inl ⟨nofun, rfl, rfl, rfl, rfl, (fun _ _ _ _ h => by cases h), hfs⟩

end

end Verif
