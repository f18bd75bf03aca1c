import Verif.Proofs.Transparent
import Verif.Proofs.Stored
import Verif.Proofs.LiveMachine
import Verif.Proofs.Reread
import Verif.Proofs.Looks
import Verif.Spec.Current
/-!
# Resolvers that look at description files every time
-/

namespace Verif

variable {V : Fs → Prop} {e : Env} {desc : Str}

/-- Any operation. -/
def AnyOp : Op → Prop := fun _ => True

/-- Answers of caches that may be out of date. -/
def NowR (V : Fs → Prop) (fs : Fs) (desc : Str) : (o : Op) → o.Ret → Prop
  | .getPkg d, r => isAbs d = true → (r = some none → closest fs desc d = none) ∧
      ∀ p, r = some (some p) → fs.isDir d = true → fs.isFile (pjoin d desc) = true ∧ ∃ d', comps d' = comps d ∧ PkgWas V desc d' p
  | .getExports k, r => ∀ t, r = some t → TreeText V k t
  | .getImports _, r => r = none
  | .getFile p, r => ∀ m d m', r = some m → isAbs d = true → comps p = comps (pjoin d desc) →
      fs.mtime (pjoin d desc) = some m' → m ≤ m'
  | _, _ => True

/-- Conditions on a resolver under which its answers are up to date. -/
structure Env.Now (V : Fs → Prop) (e : Env) : Prop extends Env.Plain e where
  text : e.ser = serJson
  fresh : e.duration = 0 ∨ ∀ desc, e.opts.descriptionFile = some desc → Kept V e.fs desc
  never : NeverMix V e.fs

theorem Env.Now.readOps (he : e.Now V) (file : Str) : ReadOps AnyOp (NowR V e.fs desc) e file where
  debug := he.debug
  seed := trivial
  put _ _ := trivial
  getE _ := trivial
  getI _ := trivial
  tree v t hf hr := by
    obtain ⟨fs', w, h1, hw, h⟩ := hr t rfl
    rw [← he.text] at hw
    obtain rfl := he.ser _ _ hw
    rcases h with ⟨_, h⟩ | ⟨h2, h3⟩
    · exact h
    · exact he.never _ _ _ h1 hf h2 h3
  noTree k r hr := hr
  putE _ _ _ := trivial

theorem parseAndStore_now (he : e.Now V) {d d' : Str} (ha : isAbs d = true)
    (hc : comps d = comps d') (hd : e.fs.isDir d = true) :
    (parseAndStore e d (pjoin d desc)).Rel AnyOp (NowR V e.fs desc)
      (SameLoad e.fs) ((readPkg e.fs d' (pjoin d' desc)).bind fun
        | .error err => .ret (.error err)
        | .ok pkg => .ret (.ok (some pkg))) := by
  have h1 := (parseDescription_rel (he.readOps (desc := desc) (pjoin d desc)) d).returns
  have h2 := readPkg_comps (desc := desc) (G := AnyOp) (R := NowR V e.fs desc) he.fs ha hc
  unfold parseAndStore
  rcases readPkg_cases e.fs d (pjoin d desc) with ⟨a, ha'⟩ | ⟨s, hs⟩
  · rw [ha'] at h2
    cases h2' : readPkg e.fs d' (pjoin d' desc) with
    | crash s => rw [h2'] at h2; cases h2
    | op o k => rw [h2'] at h2; cases h2
    | ret b =>
      rw [h2'] at h2
      have hab : ReadRel d a b := by cases h2; assumption
      rw [ha'] at h1
      have := Prog.Rel.bind (Q' := SameLoad e.fs) (g := fun x => match (b : Except Err Pkg) with
        | .error err => .ret (.error err)
        | .ok pkg => .ret (.ok (some pkg))) (f := fun
          | .error err => .ret (.error err)
          | .ok pkg => .op (.putPkg d (some pkg)) fun _ => .ret (.ok (some pkg))) h1 ?_
      · exact this
      · rintro x y ⟨hxy, hy⟩
        cases hy
        cases x with
        | error err =>
          cases a with
          | ok _ => cases hxy
          | error err' =>
            cases b with
            | ok _ => cases hab
            | error err'' =>
              obtain rfl : err = err' := hxy
              exact .ret hab
        | ok x =>
          cases a with
          | error _ => cases hxy
          | ok y =>
            cases b with
            | error _ => cases hab
            | ok b =>
              obtain ⟨seed, rfl⟩ := hxy
              have hb : y = { b with absDir := d } := hab
              have hbd := readPkg_dir h2'
              refine .left trivial fun _ _ => ?_
              refine .ret ⟨?_, ?_, ?_, seed, ?_⟩
              · show comps y.absDir = _
                rw [hb, hbd]; exact hc
              · show isAbs y.absDir = _
                rw [hb]; exact ha
              · show e.fs.isDir y.absDir = _
                rw [hb]; exact hd
              · rw [hb]
  · rw [hs] at h1 h2
    cases h2' : readPkg e.fs d' (pjoin d' desc) with
    | ret b => rw [h2'] at h2; cases h2
    | op o k => rw [h2'] at h2; cases h2
    | crash s' =>
      rw [h2'] at h2
      obtain rfl : s = s' := by cases h2; rfl
      exact Prog.Rel.bind (Q' := SameLoad e.fs) (g := fun
        | .error err => .ret (.error err)
        | .ok pkg => .ret (.ok (some pkg))) h1 (by rintro x y ⟨-, hy⟩; cases hy)

theorem PkgWas.mono {W : Fs → Prop} {d : Str} {x : Pkg} (h : PkgWas V desc d x) (hVW : ∀ fs, V fs → W fs) :
    PkgWas W desc d x where
  dir := h.dir
  isDir := h.isDir.imp fun fs h => ⟨hVW fs h.1, h.2⟩
  file := h.file.imp fun fs h => h.imp fun doc h => ⟨hVW fs h.1, h.2⟩
  name := h.name
  version := h.version
  browser := h.browser
  trees := ⟨h.trees.imports, h.trees.exports.imp id fun h => ⟨h.1, h.2.imp fun fs h => h.imp fun v h => ⟨hVW fs h.1, h.2⟩⟩⟩
  sideEffects := h.sideEffects
  order := h.order

/-- A stored package is the one in the file, if the contents of the file have not changed. -/
theorem pkgWas_same (hfs : e.fs.Lawful) (hm : NeverMix V e.fs) (hk : Kept V e.fs desc) {d d' q : Str} {x : Pkg}
    (ha : isAbs d = true) (hc : comps d' = comps d) (hx : PkgWas V desc d' x) (hq : comps d = comps q)
    (hd : e.fs.isDir d = true) (hf : e.fs.isFile (pjoin d desc) = true) {m : Nat} (ht : e.fs.mtime (pjoin d desc) = some m) :
    ∃ y, readPkg e.fs q (pjoin q desc) = .ret (.ok y) ∧ SamePkg e.fs x y := by
  have ha' : isAbs d' = true := by rw [isAbs_of_comps hc]; exact ha
  obtain ⟨fs', doc, h1, h2, h3⟩ := hx.file
  have hj := sim_pjoin ha' (hc.trans hq) desc
  have hs := sim_pjoin ha hq desc
  have haj := isAbs_pjoin_left desc ha
  obtain ⟨doc, hread, h3⟩ := hk fs' d d' doc _ h1 ha hc h2 h3 hf
  rw [hfs.read _ _ haj hs] at hread
  have htime : e.fs.mtime (pjoin q desc) = some m := by rw [← hfs.mtime _ _ haj hs]; exact ht
  obtain ⟨seed, fields, h4, h5⟩ := hx.order
  have hi := hx.trees.imports
  have he : OwnTree .exports (x.raw.get cs!"exports") x.exportsTree := by
    rcases hx.trees.exports with h | ⟨h, fs'', v, g1, g2, g3⟩
    · exact h
    · rw [g2] at h ⊢
      obtain ⟨n, g4, g5⟩ := h
      exact ⟨n, g4, hm fs'' v n g1 ⟨pjoin q desc, doc, x.raw, hread, h3, g2⟩ g3 g5⟩
  have hse := (parseSideEffects_iff (pjoin q desc) _ _).2 hx.sideEffects
  have hname : (x.raw.get cs!"name").bind Json.asStr = x.name := by
    cases h : x.name with
    | none =>
      cases h' : (x.raw.get cs!"name").bind Json.asStr with
      | none => rfl
      | some s => rw [(hx.name s).2 (Live.asStr_iff.1 h')] at h; cases h
    | some s => exact Live.asStr_iff.2 ((hx.name s).1 h)
  have hversion : (x.raw.get cs!"version").bind Json.asStr = x.version := by
    cases h : x.version with
    | none =>
      cases h' : (x.raw.get cs!"version").bind Json.asStr with
      | none => rfl
      | some s => rw [(hx.version s).2 (Live.asStr_iff.1 h')] at h; cases h
    | some s => exact Live.asStr_iff.2 ((hx.version s).1 h)
  have tree : ∀ {k : FieldKind} {v : Option Json} {t : Option Node} {α : Type}
      (next : Option Node → Prog (Except Err α)), OwnTree k v t → withTree k v next = next t := by
    intro k v t α next h
    unfold OwnTree at h
    unfold withTree
    cases v with
    | none => cases h; rfl
    | some v =>
      obtain ⟨n, rfl, h⟩ := h
      dsimp only
      rw [h]
  refine ⟨⟨q, x.name, x.version, fields, x.exportsTree, x.importsTree, x.sideEffects, x.raw⟩, ?_, ?_, ?_, ?_, seed, ?_⟩
  · unfold readPkg
    rw [hread, htime]
    dsimp only
    rw [h3]
    dsimp only
    rw [h4]
    dsimp only
    rw [tree _ he, tree _ hi, hse, hname, hversion]
  · show comps x.absDir = comps q
    rw [hx.dir, hc, hq]
  · rw [hx.dir]; exact ha'
  · rw [hx.dir, hfs.dir d' d ha' hc]; exact hd
  · cases x; simp only at h5; simp only [h5]

theorem cacheNone_now (hfs : e.fs.Lawful) {n : Nat} {p : Str} (hn : p.length < n) (ha : isAbs p = true)
    (hd : e.fs.isDir p = true) :
    (cacheNone e.fs n p).Rel AnyOp (NowR V e.fs desc) (SameLoad e.fs) (.ret (.ok none)) := by
  induction n generalizing p with
  | zero => omega
  | succ n ih =>
    unfold cacheNone
    rw [if_pos hd]
    refine .left trivial fun _ _ => ?_
    cases hp : pparent p with
    | none => exact .ret trivial
    | some q =>
      have := pparent_length hp
      exact ih (by omega) (by rw [isAbs_pparent hp, ha]) (hfs.parent p q ha hp hd)

/-- The loader finds what is in the files now. -/
theorem loadPkgAux_now (he : e.Now V) (hdesc : e.opts.descriptionFile = some desc) {n : Nat}
    {p q : Str} (hn : p.length < n) (ha : isAbs p = true) (h : comps p = comps q) :
    (loadPkgAux e n p).Rel AnyOp (NowR V e.fs desc) (SameLoad e.fs) (findPkg e.fs (some desc) q) := by
  induction n generalizing p q with
  | zero => omega
  | succ n ih =>
    unfold loadPkgAux
    rw [hdesc]
    simp only
    have hdq := he.fs.dir p q ha h
    have hfq := he.fs.file _ _ (isAbs_pjoin_left desc ha) (sim_pjoin ha h desc)
    cases hd : e.fs.isDir p with
    | false =>
      simp only [Bool.not_false, if_true]
      rw [hd] at hdq
      rcases sim_pparent ha h with ⟨h1, h2⟩ | ⟨p', q', h1, h2, h3, h4⟩
      · exfalso
        -- the root is a directory
        have : comps p = comps cs!"/" := by
          rcases (pparent_eq_none p).1 h1 with h | h
          · rw [comps_eq_root ha] at h; cases h
          · rw [h]; rfl
        rw [he.fs.dir p _ ha this, he.fs.root] at hd
        cases hd
      · rw [h1]
        have hcl : closest e.fs desc q = closest e.fs desc q' := by
          rw [closest_step, if_neg (by rw [← hdq]; simp), h2]
        have hl := pparent_length h1
        have := ih (p := p') (q := q') (by omega) h4 h3.1
        rw [findPkg_closest hcl]
        exact this
    | true =>
      simp only [Bool.not_true, Bool.false_eq_true, if_false]
      rw [hd] at hdq
      have here : e.fs.isFile (pjoin p desc) = true → closest e.fs desc q = some q := by
        intro hf
        rw [closest_step, if_pos ⟨hdq.symm, by rw [← hfq]; exact hf⟩]
      refine .left trivial fun r hr => ?_
      cases r with
      | none =>
        simp only
        cases hf : e.fs.isFile (pjoin p desc) with
        | true =>
          simp only [Bool.not_true, Bool.false_eq_true, if_false]
          rw [findPkg_here (here hf)]
          exact parseAndStore_now he ha h hd
        | false =>
          simp only [Bool.not_false, if_true]
          rw [findUp_closest he.fs (by omega) ha hd]
          rcases closest_comps (desc := desc) he.fs ha h with ⟨h1, h2⟩ | ⟨d, d', h1, h2, h3, h4, h5, h6⟩
          · rw [h1]
            rw [findPkg_none h2]
            exact cacheNone_now he.fs (by omega) ha hd
          · rw [h1]
            obtain ⟨hl, -, hf'⟩ := closest_length h1
            have hl' : d.length < p.length := by
              rcases hl with rfl | hl
              · rw [hf] at hf'; cases hf'
              · exact hl
            have := ih (p := d) (q := d') (by omega) h4 h3
            have e1 : closest e.fs desc d' = some d' := by
              rw [closest_step, if_pos]
              exact (closest_length h2).2
            rw [findPkg_closest (h2.trans e1.symm)]
            exact this
      | some cached =>
        simp only
        obtain ⟨hr1, hr2⟩ := hr ha
        unfold needUpdate
        cases hf : e.fs.isFile (pjoin p desc) with
        | false =>
          cases cached with
          | some pk => rw [(hr2 pk rfl hd).1] at hf; cases hf
          | none =>
            have : closest e.fs desc q = none := by
              rcases closest_comps (desc := desc) he.fs ha h with ⟨h1, h2⟩ | ⟨d, d', h1, -⟩
              · exact h2
              · rw [hr1 rfl] at h1; cases h1
            rw [findPkg_none this]
            exact .ret trivial
        | true =>
          simp only [Bool.not_true, Bool.false_eq_true, if_false]
          have hparse := parseAndStore_now (desc := desc) he ha h hd
          rw [findPkg_here (here hf)]
          refine .left trivial fun r hr => ?_
          cases r with
          | none =>
            simp only [Prog.bind, he.debug, Bool.false_eq_true, if_false]
            exact hparse
          | some m =>
            simp only
            cases hm : e.fs.mtime (pjoin p desc) with
            | none =>
              have : parseAndStore e p (pjoin p desc) = .ret (.error (.openFailed (pjoin p desc))) := by
                unfold parseAndStore parseDescription dbgGuard readToString
                simp only [he.debug, Bool.false_eq_true, if_false, hm]
                cases e.fs.read (pjoin p desc) <;> rfl
              rw [this] at hparse
              exact hparse
            | some m' =>
              have hle := hr m p m' rfl ha rfl hm
              simp only [if_neg (Nat.not_lt.2 hle), Prog.bind, ge_iff_le, he.debug, Bool.false_eq_true, if_false]
              by_cases hold : e.duration ≤ m' - m
              · simp only [hold, decide_true]
                exact hparse
              · simp only [hold, decide_false]
                have hk := he.fresh.elim (fun h => (hold (by omega)).elim) fun h => h desc hdesc
                cases cached with
                | none =>
                  have := hr1 rfl
                  rw [closest_step, if_pos ⟨hd, hf⟩] at this
                  cases this
                | some pk =>
                  obtain ⟨d', g1, g2⟩ := (hr2 pk rfl hd).2
                  obtain ⟨y, g3, g4⟩ := pkgWas_same he.fs he.never hk ha g1 g2 h hd hf hm
                  rw [g3]
                  exact .ret g4

theorem loadPkg_now (he : e.Now V) (hdesc : e.opts.descriptionFile = some desc) {p q : Str}
    (ha : isAbs p = true) (h : comps p = comps q) :
    (loadPkg e p).Rel AnyOp (NowR V e.fs desc)
      (LoadRel e.ctx (pureCtx e.opts e.fs e.debug)) (findPkg e.fs (some desc) q) := by
  refine (loadPkgAux_now he hdesc (by omega) ha h).returns.mono ?_
  rintro a b ⟨hab, hb'⟩
  cases a with
  | error err =>
    cases b with
    | ok y => exact (by cases hab)
    | error err' => exact hab
  | ok x =>
    cases b with
    | error err' => cases x <;> exact (by cases hab)
    | ok y =>
      cases x with
      | none => cases y with
        | none => exact trivial
        | some y => exact (by cases hab)
      | some x => cases y with
        | none => exact (by cases hab)
        | some y =>
          obtain ⟨d, -, hda, hr⟩ := findPkg_found (by rw [← isAbs_of_comps h]; exact ha) hb'
          exact samePkg_pkgRel (c := e.ctx) (c' := pureCtx e.opts e.fs e.debug) rfl
            (fun hb => he.browser hb desc hdesc) hda hr hab

/-- `NowR` for an optional description file. -/
def NowRo (V : Fs → Prop) (fs : Fs) (desc : Option Str) (o : Op) (r : o.Ret) : Prop :=
  ∀ d, desc = some d → NowR V fs d o r

theorem nowRo_some {fs : Fs} : NowRo V fs (some desc) = NowR V fs desc := by
  funext o r
  exact propext ⟨fun h => h _ rfl, fun h d hd => by cases hd; exact h⟩

theorem now_ctxSim (he : e.Now V) :
    CtxSim (opSys AnyOp (NowRo V e.fs e.opts.descriptionFile)) e.ctx (pureCtx e.opts e.fs e.debug) where
  opts := rfl
  debug := rfl
  isFile := he.fs.file
  isDir := he.fs.dir
  pathExists := he.fs.pathExists
  canon := he.fs.canon
  jsonc _ p q ha h := by
    show (e.fs.read p).map _ = (e.fs.read q).map _
    rw [he.fs.read p q ha h]
  dirNotFile := he.fs.dirNotFile
  dirNotFile' := he.fs.dirNotFile
  load p q ha h := by
    show (loadPkg e p).Rel _ _ _ (findPkg e.fs e.opts.descriptionFile q)
    cases hd : e.opts.descriptionFile with
    | none => exact loadPkg_rel_none hd p
    | some desc =>
      rw [nowRo_some]
      exact loadPkg_now he hd ha h

theorem sideEffects_now (he : e.Now V) {path : Str} (ha : isAbs path = true) :
    (loadSideEffects e path).Rel AnyOp (NowRo V e.fs e.opts.descriptionFile) SideSim
      (findSideEffects e.fs e.opts.descriptionFile path) := by
  unfold loadSideEffects findSideEffects
  cases hd : e.opts.descriptionFile with
  | none =>
    have : loadPkg e path = .ret (.ok none) := by unfold loadPkg loadPkgAux; rw [hd]
    rw [this]
    exact .ret trivial
  | some desc =>
    rw [nowRo_some]
    refine Prog.Rel.bind (loadPkgAux_now he hd (by omega) ha rfl) fun a b hab => ?_
    cases a with
    | error err =>
      cases b with
      | ok y => exact (by cases hab)
      | error err' => exact .ret hab
    | ok x =>
      cases b with
      | error err' => cases x <;> exact (by cases hab)
      | ok y =>
        cases x with
        | none => cases y with
          | none => exact .ret trivial
          | some y => exact (by cases hab)
        | some x => cases y with
          | none => exact (by cases hab)
          | some y =>
            obtain ⟨h1, h2, h3, seed, h4⟩ : SamePkg e.fs x y := hab
            refine .ret ⟨(sim_pjoin h2 h1 desc).1, by rw [h4]⟩

theorem Static.now {cfg : Nat → Config} {fs : Fs} (h : Static cfg serJson fs) {rid : Nat}
    (hd : (cfg rid).duration = 0 ∨ ∀ desc, (cfg rid).opts.descriptionFile = some desc → Kept V fs desc)
    (hm : NeverMix V fs) : ((cfg rid).env serJson fs).Now V where
  toPlain := h.env rid
  text := rfl
  fresh := hd
  never := hm

/-- A call of a resolver without delay, or while the contents of description files stay, and the resolver without
caches. -/
theorem call_now {cfg : Nat → Config} {fs : Fs} (h : Static cfg serJson fs) {rid : Nat}
    (hd : (cfg rid).duration = 0 ∨ ∀ desc, (cfg rid).opts.descriptionFile = some desc → Kept V fs desc)
    (hm : NeverMix V fs) {call : Call} (hc : call.abs) (fuel : Nat) :
    (call.prog ((cfg rid).env serJson fs) fuel).Rel AnyOp (NowRo V fs (cfg rid).opts.descriptionFile)
      Answer.Sim (call.pure (cfg rid) fs fuel) := by
  cases call with
  | resolve path request =>
    exact (resolveCtx_rel (now_ctxSim (h.now hd hm)) (fun _ => trivial) fuel path request hc
      (h.env rid).tsconfig).bind fun a b hab => .ret hab
  | sideEffects path => exact (sideEffects_now (h.now hd hm) hc).bind fun a b hab => .ret hab

/-! ## Histories -/

theorem isAbs_up {up p : Str} (h : Up up p) (ha : isAbs p = true) : isAbs up = true := by
  induction h with
  | refl => exact ha
  | step hp _ ih => exact ih (by rw [isAbs_pparent hp, ha])

theorem closest_up {fs : Fs} {p d : Str} (h : closest fs desc p = some d) :
    Up d p ∧ fs.isFile (pjoin d desc) = true := by
  generalize hn : p.length = n
  induction n using Nat.strongRecOn generalizing p with
  | ind n ih =>
    rw [closest_step] at h
    split at h
    · rename_i hh
      cases h
      exact ⟨.refl, hh.2⟩
    · split at h
      · rename_i q hq
        obtain ⟨h1, h2⟩ := ih q.length (by have := pparent_length hq; omega) h rfl
        exact ⟨.step hq h1, h2⟩
      · cases h

theorem Up.trans {a b c : Str} (h : Up a b) (h' : Up b c) : Up a c := by
  induction h' with
  | refl => exact h
  | step hp _ ih => exact .step hp ih

/-- If all description files have always been where they are. -/
theorem Covered.of_place {fs : Fs}
    (h : ∀ fs' d, V fs' → isAbs d = true → fs'.isFile (pjoin d desc) = fs.isFile (pjoin d desc)) : Covered V fs desc :=
  fun d ha hd => ⟨d, .refl, fun fs' hf => by rw [h fs' d hf ha]; exact hd⟩

/-- Where there was no description file once, and none anywhere above, there is none now. -/
theorem Covered.none {fs : Fs} (h : Covered V fs desc) {d : Str} (ha : isAbs d = true) (hw : NoneWas V desc d) :
    closest fs desc d = none := by
  cases hc : closest fs desc d with
  | none => rfl
  | some q =>
    obtain ⟨h1, h2⟩ := closest_up hc
    obtain ⟨up, h3, h4⟩ := h q (isAbs_up h1 ha) h2
    obtain ⟨fs', h5, h6⟩ := hw.noFile up (h3.trans h1)
    rw [h4 fs' h5] at h6
    cases h6

namespace Live

theorem versions_prefix {fs fs' : Fs} {l l2 : List Event} (h : Versions fs l fs') : Versions fs (l ++ l2) fs' := by
  rcases h with h | h
  · exact .inl h
  · exact .inr (List.mem_append_left _ h)

/-- What a call gets from the caches. -/
theorem got_now {cfg : Nat → Config} {fs fs1 : Fs} (hs : Static cfg serJson fs1) {l : List Event} {i : Nat} {t : Task}
    (ht : ((Sys.init fs).after cfg serJson l).tasks[i]? = some t) {desc : Str}
    (hdesc : (cfg t.rid).opts.descriptionFile = some desc) (hp : InPlace (Versions fs l) fs1 desc)
    {o : Op} {r : o.Ret} (h : Got cfg serJson fs l i o r) : NowR (Versions fs l) fs1 desc o r := by
  obtain ⟨l1, seed, l2, u, k, rfl, h2, h3, h4⟩ := h
  have hrid : u.rid = t.rid := by
    rw [after_append] at ht
    obtain ⟨t', h4, h5⟩ := task_rid (cfg := cfg) (ser := serJson) (.step i seed :: l2) _ u h2
    rw [ht] at h4
    cases h4
    exact h5.symm
  have hj := stored_after cfg fs l1
  rw [hrid] at h4
  subst h4
  cases o with
  | getPkg d =>
    intro ha
    have hent : ∀ v, (((Sys.init fs).after cfg serJson l1).shared.caches (cfg t.rid).cache).pkg (comps d) = some v →
        ∃ d', comps d' = comps d ∧ EntryWas (Versions fs l1) desc d' v := by
      intro v hv
      obtain ⟨rid, desc', d', h5, h6, h7, h8⟩ := hj.pkg _ _ _ hv
      obtain rfl := hs.desc _ _ _ _ h5 h6 hdesc
      exact ⟨d', h7, h8⟩
    constructor
    · intro hr
      obtain ⟨d', h5, h6⟩ := hent _ hr
      have ha' : isAbs d' = true := by rw [isAbs_of_comps h5]; exact ha
      have hn : closest fs1 desc d' = none := hp.above.none ha' ⟨h6.isDir.imp fun f h => ⟨versions_prefix h.1, h.2⟩,
        fun up hu => (h6.noFile up hu).imp fun f h => ⟨versions_prefix h.1, h.2⟩⟩
      rcases closest_comps (desc := desc) hs.lawful ha' h5 with ⟨h7, h8⟩ | ⟨x, x', h7, -⟩
      · exact h8
      · rw [hn] at h7; cases h7
    · intro p hr hd
      obtain ⟨d', h5, h6⟩ := hent _ hr
      have ha' : isAbs d' = true := by rw [isAbs_of_comps h5]; exact ha
      obtain ⟨fs', doc, h7, h8, -⟩ := h6.file
      have h9 := hp.read fs' _ _ (versions_prefix h7) h8
      replace h9 := hp.stays fs' d' (versions_prefix h7) ha' h9 (by rw [hs.lawful.dir d' d ha' h5]; exact hd)
      rw [← hs.lawful.file _ _ (isAbs_pjoin_left desc ha') (sim_pjoin ha' h5 desc)]
      refine ⟨h9, d', h5, ?_⟩
      exact h6.mono fun f hf => versions_prefix hf
  | getExports k =>
    intro tr hr
    obtain ⟨fs', v, h5, h6, h7⟩ := hj.exports _ _ _ hr
    exact ⟨fs', v, versions_prefix h5, h6, h7⟩
  | getImports k => exact hj.imports _ _
  | getFile p =>
    intro m d m' hr ha hc hm
    obtain ⟨q, fs', fs'', doc, h5, h6, h7, -⟩ := hj.time _ _ _ hr
    exact hp.time fs' d q m m' (versions_prefix h6) ha (h5.trans hc) h7 hm
  | putPkg _ _ => trivial
  | putExports _ _ => trivial
  | putFile _ _ => trivial
  | dbgHas _ => trivial
  | dbgIns _ => trivial
  | dbgDel _ => trivial
  | seed => trivial

/-- Who gets all answers from one file system ends like a related program. -/
theorem Ends.related {α β : Type} {A : (q : Query) → q.Ret → Prop} {G : Op → Prop} {R : (o : Op) → o.Ret → Prop}
    {Q : α → β → Prop} {p : Live α} {x : Outcome α} (h : Ends A R p x) {fs : Fs}
    (hA : ∀ q r, A q r → q.answer fs = r) {q : Prog β} (hq : (p.freeze fs).Rel G R Q q) :
    ∃ y, q.Ends y ∧ x.Like Q y := by
  induction h generalizing q with
  | ret a => cases hq with | ret h => exact ⟨_, .ret _, h⟩
  | crash c => cases hq; exact ⟨_, .crash c, rfl⟩
  | ask r hr _ ih => cases hA _ _ hr; exact ih hq
  | op r hr _ ih =>
    cases hq with
    | left _ hk => exact ih (hk r hr)
    | both _ hk =>
      obtain ⟨y, h1, h2⟩ := ih (hk r hr)
      exact ⟨y, .op r h1, h2⟩

end Live

end Verif
