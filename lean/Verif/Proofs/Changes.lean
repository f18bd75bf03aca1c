import Verif.Proofs.Transparent
import Verif.Proofs.Options
import Verif.Spec.Changes
/-!
# Caches on a file system that changes between calls
-/

namespace Verif

/-! ## Programs that run alone -/

/-- A run that ended like the program without caches may end, in a good state. -/
def Good {α β : Type} (I : World → Prop) (Q : α → β → Prop) (x : Outcome α × World) (q : Prog β) :
    Prop :=
  I x.2 ∧ ∃ o, q.Ends o ∧ x.1.Like Q o

theorem Prog.Ends.bind {α β : Type} {q : Prog α} {g : α → Prog β} {b : α} {o : Outcome β}
    (h : q.Ends (.done b)) (hg : (g b).Ends o) : (q.bind g).Ends o := by
  generalize hx : Outcome.done b = x at h
  induction h with
  | ret a => cases hx; exact hg
  | crash c => cases hx
  | op r _ ih => exact .op r (ih hx)

theorem Prog.Ends.bind_crash {α β : Type} {q : Prog α} {g : α → Prog β} {c : Crash}
    (h : q.Ends (.crashed c)) : (q.bind g).Ends (.crashed c) := by
  generalize hx : Outcome.crashed c = x at h
  induction h with
  | ret a => cases hx
  | crash c => cases hx; exact .crash _
  | op r _ ih => exact .op r (ih hx)

theorem Prog.Ends.returns {α : Type} {q : Prog α} {b : α} (h : q.Ends (.done b)) : q.Returns b := by
  generalize hx : Outcome.done b = x at h
  induction h with
  | ret a => cases hx; exact .ret _
  | crash c => cases hx
  | op r _ ih => exact .op r (ih hx)

/-- Programs compared by runs from good states. -/
def seqSys (I : World → Prop) : RelSys where
  rel Q p q := ∀ w, I w → Good I Q (p.run w) q
  seed := ∀ w seeds, I w → I { w with seeds := seeds }
  ret h w hw := ⟨hw, _, .ret _, h⟩
  crash c w hw := ⟨hw, _, .crash c, rfl⟩
  bind {_ _ _ _ Q Q' p q f g} h hf w hw := by
    obtain ⟨h1, o, h2, h3⟩ := h w hw
    rw [Prog.run_bind]
    rcases hp : p.run w with ⟨x, w'⟩
    rw [hp] at h1 h3
    cases x with
    | done a =>
      cases o with
      | crashed c => exact (h3 : False).elim
      | done b =>
        obtain ⟨h4, o', h5, h6⟩ := hf a b h3 w' h1
        exact ⟨h4, o', h2.bind h5, h6⟩
    | crashed c =>
      cases o with
      | done b => exact (h3 : False).elim
      | crashed c' =>
        obtain rfl : c = c' := h3
        exact ⟨h1, _, h2.bind_crash, rfl⟩
  both hs h w hw := by
    obtain ⟨h1, o, h2, h3⟩ := h (w.seeds 0) { w with seeds := fun n => w.seeds (n + 1) } (hs w _ hw)
    exact ⟨h1, o, .op _ h2, h3⟩

/-! ## Reading a description file -/

/-- What the cache of trees may hold. -/
def TreeIn (F : Fs → Prop) (ser : Json → Str) (key : Str) (t : Node) : Prop :=
  ∃ fs v, F fs ∧ key = ser v ∧ (IsField fs cs!"exports" v ∧ buildTree .exports v = some (.ok t) ∨
    IsField fs cs!"imports" v ∧ buildTree .imports v = some (.ok t))

/-- Operations of reading a file. -/
def RG (F : Fs → Prop) (fs : Fs) (ser : Json → Str) (file : Str) : Op → Prop
  | .putFile p m => p = file ∧ fs.mtime file = some m
  | .putExports k t => TreeIn F ser k t
  | .getExports _ => True
  | .getImports _ => True
  | .seed => True
  | _ => False

/-- Answers when reading a file. -/
def RR (F : Fs → Prop) (ser : Json → Str) : (o : Op) → o.Ret → Prop
  | .getExports k, r => ∀ t, r = some t → TreeIn F ser k t
  | .getImports _, r => r = none
  | _, _ => True

theorem read_run {F : Fs → Prop} {fs : Fs} {ser : Json → Str} {file : Str} {α β : Type}
    {Q : α → β → Prop} {p : Prog α} {q : Prog β} (h : p.Rel (RG F fs ser file) (RR F ser) Q q)
    {w : World} (ht : ∀ k t, w.exportsTree k = some t → TreeIn F ser k t)
    (hi : ∀ k, w.importsTree k = none) :
    (∃ o, q.Ends o ∧ (p.run w).1.Like Q o) ∧ (p.run w).2.pkg = w.pkg ∧
      (∀ k t, (p.run w).2.exportsTree k = some t → TreeIn F ser k t) ∧
      (∀ k, (p.run w).2.importsTree k = none) ∧
      ∀ key, (p.run w).2.file key = w.file key ∨
        key = comps file ∧ ∃ m, fs.mtime file = some m ∧ (p.run w).2.file key = some m := by
  induction h generalizing w with
  | ret h => exact ⟨⟨_, .ret _, h⟩, rfl, ht, hi, fun _ => .inl rfl⟩
  | crash c => exact ⟨⟨_, .crash c, rfl⟩, rfl, ht, hi, fun _ => .inl rfl⟩
  | @left o k q hg _ ih =>
    cases o with
    | getPkg _ => exact hg.elim
    | putPkg _ _ => exact hg.elim
    | getFile _ => exact hg.elim
    | dbgHas _ => exact hg.elim
    | dbgIns _ => exact hg.elim
    | dbgDel _ => exact hg.elim
    | getExports key => exact ih _ (fun t h => ht _ t h) ht hi
    | getImports key => exact ih _ (hi key) ht hi
    | putExports key t =>
      have := ih () trivial (w := { w with exportsTree := upd w.exportsTree key (some t) })
        (fun k' t' h => by
          simp only [upd] at h
          split at h
          · rename_i hk; cases h; rw [hk]; exact hg
          · exact ht k' t' h) hi
      exact this
    | putFile p m =>
      obtain ⟨rfl, hm⟩ := hg
      obtain ⟨h1, h2, h3, h4, h5⟩ := ih () trivial
        (w := { w with file := upd w.file (comps p) (some m) }) ht hi
      refine ⟨h1, h2, h3, h4, fun key => ?_⟩
      rcases h5 key with h | h
      · by_cases hk : key = comps p
        · refine .inr ⟨hk, m, hm, ?_⟩
          rw [Prog.run]
          refine h.trans ?_
          simp [upd, hk]
        · refine .inl ?_
          rw [Prog.run]
          refine h.trans ?_
          simp [upd, hk]
      · exact .inr h
    | seed => exact ih _ trivial (w := { w with seeds := fun n => w.seeds (n + 1) }) ht hi
  | both _ _ ih =>
    obtain ⟨⟨o, h1, h2⟩, h3⟩ := ih (w.seeds 0) trivial
      (w := { w with seeds := fun n => w.seeds (n + 1) }) ht hi
    exact ⟨⟨o, .op _ h1, h2⟩, h3⟩

/-! ## Good states -/

/-- What the caches hold: packages are those of the current files, unless the file is seen to be
newer. -/
structure FreshW (F : Fs → Prop) (fs : Fs) (desc : Str) (ser : Json → Str) (dur : Nat) (w : World) :
    Prop where
  absent : ∀ d, isAbs d = true → w.pkg (comps d) = some none → closest fs desc d = none
  found : ∀ d p, isAbs d = true → w.pkg (comps d) = some (some p) → fs.Has desc d ∧
    (PkgFrom fs desc (comps d) p ∨ ∀ m now, w.file (comps (pjoin d desc)) = some m →
      fs.mtime (pjoin d desc) = some now → m + dur ≤ now)
  file : ∀ d m, isAbs d = true → w.file (comps (pjoin d desc)) = some m → fs.Has desc d ∧
    ∀ now, fs.mtime (pjoin d desc) = some now → m ≤ now
  trees : ∀ k t, w.exportsTree k = some t → TreeIn F ser k t
  imports : ∀ k, w.importsTree k = none

/-- What a resolver did to a state: packages it stored are right. -/
def Stores (fs : Fs) (desc : Str) (w w' : World) : Prop :=
  ∀ key v, w'.pkg key = some v → w.pkg key = some v ∨ FaithPkg fs desc key v

/-- Conditions on a resolver. -/
structure Env.Fresh (F : Fs → Prop) (e : Env) (desc : Str) : Prop where
  mem : F e.fs
  fs : e.fs.Lawful
  debug : e.debug = false
  ser : ∀ v w, e.ser v = e.ser w → v = w
  mix : ∀ fs fs' v t, F fs → F fs' → IsField fs cs!"exports" v → IsField fs' cs!"imports" v →
    buildTree .imports v = some (.ok t) → buildTree .exports v = some (.ok t)
  relative : isAbs desc = false
  readable : Readable e.fs desc

section
variable {F : Fs → Prop} {e : Env} {desc : Str}

theorem Env.Fresh.readOps (he : e.Fresh F desc) (file : Str) :
    ReadOps (RG F e.fs e.ser file) (RR F e.ser) e file where
  debug := he.debug
  seed := trivial
  put m hm := ⟨rfl, hm⟩
  getE _ := trivial
  getI _ := trivial
  tree v t hf hr := by
    obtain ⟨fs', w, hF, hw, h⟩ := hr t rfl
    obtain rfl := he.ser _ _ hw
    rcases h with ⟨_, h⟩ | ⟨h1, h2⟩
    · exact h
    · exact he.mix _ _ _ _ he.mem hF hf h1 h2
  noTree k r hr := hr
  putE v t h := ⟨e.fs, v, he.mem, rfl, h⟩

theorem Fs.Has.comps {fs : Fs} (hfs : fs.Lawful) {d d' : Str} (ha : isAbs d = true)
    (h : Verif.comps d = Verif.comps d') (hh : fs.Has desc d) : fs.Has desc d' :=
  ⟨by rw [← hfs.dir d d' ha h]; exact hh.1,
    by rw [← hfs.file _ _ (isAbs_pjoin_left desc ha) (sim_pjoin ha h desc)]; exact hh.2⟩

theorem comps_pjoin_inj (hr : isAbs desc = false) {d d' : Str} (ha : isAbs d = true)
    (ha' : isAbs d' = true) (h : comps (pjoin d desc) = comps (pjoin d' desc)) :
    comps d = comps d' := by
  rw [comps_pjoin (abs_ne_nil ha) hr, comps_pjoin (abs_ne_nil ha') hr] at h
  exact List.append_cancel_right h

theorem readPkg_mtime {fs : Fs} {d file : Str} {p : Pkg} (h : readPkg fs d file = .ret (.ok p)) :
    (∃ doc, fs.read file = some doc) ∧ ∃ m, fs.mtime file = some m := by
  unfold readPkg at h
  split at h
  · rename_i doc m hr hm
    exact ⟨⟨_, hr⟩, _, hm⟩
  · cases h

/-- The package found at the directory itself. -/
theorem readPkg_samePkg (hfs : e.fs.Lawful) {d d' : Str} (ha : isAbs d = true)
    (hc : comps d = comps d') (hd : e.fs.isDir d = true) {y : Pkg}
    (hy : readPkg e.fs d (pjoin d desc) = .ret (.ok y)) :
    ∃ b, readPkg e.fs d' (pjoin d' desc) = .ret (.ok b) ∧
      ∀ seed, SamePkg e.fs { y with aliasFields := permute seed y.aliasFields } b := by
  have h2 := readPkg_comps (desc := desc) (G := fun _ => True) (R := fun _ _ => True) hfs ha hc
  rw [hy] at h2
  cases h2' : readPkg e.fs d' (pjoin d' desc) with
  | crash s => rw [h2'] at h2; cases h2
  | op o k => rw [h2'] at h2; cases h2
  | ret b =>
    rw [h2'] at h2
    have hab : ReadRel d (.ok y) b := by cases h2; assumption
    cases b with
    | error _ => cases hab
    | ok b =>
      have hb : y = { b with absDir := d } := hab
      have hbd := readPkg_dir h2'
      refine ⟨b, rfl, fun seed => ⟨?_, ?_, ?_, seed, ?_⟩⟩
      · show comps y.absDir = _
        rw [hb, hbd]; exact hc
      · show isAbs y.absDir = _
        rw [hb]; exact ha
      · show e.fs.isDir y.absDir = _
        rw [hb]; exact hd
      · rw [hb]

theorem parseAndStore_seq (he : e.Fresh F desc) {d d' : Str} (ha : isAbs d = true)
    (hc : comps d = comps d') (hh : e.fs.Has desc d) (hcl : closest e.fs desc d' = some d')
    {w0 w : World}
    (hw : FreshW F e.fs desc e.ser e.duration w ∧ Stores e.fs desc w0 w) :
    Good (fun w => FreshW F e.fs desc e.ser e.duration w ∧ Stores e.fs desc w0 w) (SameLoad e.fs)
      ((parseAndStore e d (pjoin d desc)).run w)
      (findPkg e.fs (some desc) d') := by
  obtain ⟨hw, hst⟩ := hw
  obtain ⟨y, hy⟩ := he.readable d ha hh
  obtain ⟨b, hb, hsame⟩ := readPkg_samePkg he.fs ha hc hh.1 hy
  have hrel := parseDescription_rel (he.readOps (pjoin d desc)) d
  obtain ⟨⟨o, h1, h2⟩, h3, h4, h5, h6⟩ := read_run hrel (w := w) hw.trees hw.imports
  rw [hy] at h1
  cases h1
  unfold parseAndStore
  rw [Prog.run_bind]
  rcases hp : (parseDescription e d (pjoin d desc)).run w with ⟨x, w'⟩
  rw [hp] at h2 h3 h4 h5 h6
  simp only at h2 h3 h4 h5 h6
  cases x with
  | crashed c => exact (h2 : False).elim
  | done x =>
    cases x with
    | error err => exact (h2 : False).elim
    | ok x =>
      obtain ⟨seed, rfl⟩ : ∃ seed, x = { y with aliasFields := permute seed y.aliasFields } := h2
      simp only [Prog.run, Op.exec]
      have hfrom : PkgFrom e.fs desc (comps d) { y with aliasFields := permute seed y.aliasFields } :=
        ⟨d, y, seed, rfl, ha, hh.1, hh.2, by rw [hy]; exact .ret _, rfl⟩
      refine ⟨⟨⟨?_, ?_, ?_, h4, h5⟩, ?_⟩, ?_⟩
      · intro d1 ha1 hp1
        simp only [upd] at hp1
        split at hp1
        · cases hp1
        · rw [h3] at hp1; exact hw.absent d1 ha1 hp1
      · intro d1 p1 ha1 hp1
        simp only [upd] at hp1
        split at hp1
        · rename_i hk
          cases hp1
          rw [hk]
          exact ⟨Fs.Has.comps he.fs ha hk.symm hh, .inl hfrom⟩
        · rename_i hk
          rw [h3] at hp1
          obtain ⟨h7, h8⟩ := hw.found d1 p1 ha1 hp1
          refine ⟨h7, h8.imp_right fun h8 m now hm hn => ?_⟩
          rcases h6 (comps (pjoin d1 desc)) with h | ⟨h, -⟩
          · exact h8 m now (by rw [← h]; exact hm) hn
          · exact absurd (comps_pjoin_inj he.relative ha1 ha h) hk
      · intro d1 m ha1 hm
        rcases h6 (comps (pjoin d1 desc)) with h | ⟨h, m', hm', hf⟩
        · exact hw.file d1 m ha1 (by rw [← h]; exact hm)
        · have hk := comps_pjoin_inj he.relative ha1 ha h
          refine ⟨Fs.Has.comps he.fs ha hk.symm hh, fun now hn => ?_⟩
          rw [he.fs.mtime _ _ (isAbs_pjoin_left desc ha1) (sim_pjoin ha1 hk desc), hm'] at hn
          have hm : w'.file (comps (pjoin d1 desc)) = some m := hm
          rw [hf] at hm
          cases hm; cases hn
          exact Nat.le_refl _
      · intro key v hv
        simp only [upd] at hv
        split at hv
        · rename_i hk
          cases hv
          rw [hk]
          exact .inr hfrom
        · rw [h3] at hv
          exact hst key v hv
      · refine ⟨.done (.ok (some b)), ?_, hsame seed⟩
        rw [findPkg_here hcl, hb]
        exact .ret _

/-- Storing that there is none. -/
theorem cacheNone_seq (he : e.Fresh F desc) {n : Nat} {p : Str} (hn : p.length < n)
    (ha : isAbs p = true) (hd : e.fs.isDir p = true) (h : closest e.fs desc p = none) {w0 w : World}
    (hw : FreshW F e.fs desc e.ser e.duration w ∧ Stores e.fs desc w0 w) :
    Good (fun w => FreshW F e.fs desc e.ser e.duration w ∧ Stores e.fs desc w0 w) (SameLoad e.fs)
      ((cacheNone e.fs n p).run w) (.ret (.ok none) : Prog (Except Err (Option Pkg))) := by
  induction n generalizing p w with
  | zero => omega
  | succ n ih =>
    unfold cacheNone
    rw [if_pos hd]
    have hall : ∀ d, isAbs d = true → comps d = comps p → closest e.fs desc d = none := by
      intro d had hc
      rcases closest_comps (desc := desc) he.fs ha hc.symm with ⟨-, h2⟩ | ⟨x, y, h1, -⟩
      · exact h2
      · rw [h] at h1; cases h1
    obtain ⟨hw, hst⟩ := hw
    have hw' : FreshW F e.fs desc e.ser e.duration { w with pkg := upd w.pkg (comps p) (some none) } ∧
        Stores e.fs desc w0 { w with pkg := upd w.pkg (comps p) (some none) } := by
      refine ⟨⟨fun d had hp => ?_, fun d p' had hp => ?_, hw.file, hw.trees, hw.imports⟩, fun key v hv => ?_⟩
      · simp only [upd] at hp
        split at hp
        · rename_i hk; exact hall d had hk
        · exact hw.absent d had hp
      · simp only [upd] at hp
        split at hp
        · cases hp
        · exact hw.found d p' had hp
      · simp only [upd] at hv
        split at hv
        · rename_i hk; cases hv; rw [hk]; exact .inr hall
        · exact hst key v hv
    simp only [Prog.run, Op.exec]
    rw [closest_step] at h
    split at h
    · cases h
    · cases hp : pparent p with
      | none => exact ⟨hw', _, .ret _, trivial⟩
      | some q =>
        rw [hp] at h
        have := pparent_length hp
        exact ih (by omega) (by rw [isAbs_pparent hp, ha]) (he.fs.parent p q ha hp hd) h hw'

theorem loadPkgAux_seq (he : e.Fresh F desc) (hdesc : e.opts.descriptionFile = some desc) {n : Nat}
    {p q : Str} (hn : p.length < n) (ha : isAbs p = true) (h : comps p = comps q) {w0 w : World}
    (hw : FreshW F e.fs desc e.ser e.duration w ∧ Stores e.fs desc w0 w) :
    Good (fun w => FreshW F e.fs desc e.ser e.duration w ∧ Stores e.fs desc w0 w) (SameLoad e.fs)
      ((loadPkgAux e n p).run w) (findPkg e.fs (some desc) q) := by
  induction n generalizing p q with
  | zero => omega
  | succ n ih =>
    unfold loadPkgAux
    rw [hdesc]
    simp only
    have hdq := he.fs.dir p q ha h
    have hfq := he.fs.file _ _ (isAbs_pjoin_left desc ha) (sim_pjoin ha h desc)
    cases hd : e.fs.isDir p with
    | false =>
      simp only [Bool.not_false, if_true]
      rw [hd] at hdq
      rcases sim_pparent ha h with ⟨h1, h2⟩ | ⟨p', q', h1, h2, h3, h4⟩
      · exfalso
        have : comps p = comps cs!"/" := by
          rcases (pparent_eq_none p).1 h1 with h | h
          · rw [comps_eq_root ha] at h; cases h
          · rw [h]; rfl
        rw [he.fs.dir p _ ha this, he.fs.root] at hd
        cases hd
      · rw [h1]
        have hcl : closest e.fs desc q = closest e.fs desc q' := by
          rw [closest_step, if_neg (by rw [← hdq]; simp), h2]
        have hl := pparent_length h1
        have := ih (p := p') (q := q') (by omega) h4 h3.1
        rw [findPkg_closest hcl]
        exact this
    | true =>
      simp only [Bool.not_true, Bool.false_eq_true, if_false]
      rw [hd] at hdq
      have here : e.fs.isFile (pjoin p desc) = true → closest e.fs desc q = some q := by
        intro hf
        rw [closest_step, if_pos ⟨hdq.symm, by rw [← hfq]; exact hf⟩]
      simp only [Prog.run, Op.exec]
      cases hr : w.pkg (comps p) with
      | none =>
        simp only
        cases hf : e.fs.isFile (pjoin p desc) with
        | true =>
          simp only [Bool.not_true, Bool.false_eq_true, if_false]
          exact parseAndStore_seq he ha h ⟨hd, hf⟩ (here hf) hw
        | false =>
          simp only [Bool.not_false, if_true]
          rw [findUp_closest he.fs (by omega) ha hd]
          rcases closest_comps (desc := desc) he.fs ha h with ⟨h1, h2⟩ | ⟨d, d', h1, h2, h3, h4, h5, h6⟩
          · rw [h1]
            rw [findPkg_none h2]
            exact cacheNone_seq he (by omega) ha hd h1 hw
          · rw [h1]
            obtain ⟨hl, -, hf'⟩ := closest_length h1
            have hl' : d.length < p.length := by
              rcases hl with rfl | hl
              · rw [hf] at hf'; cases hf'
              · exact hl
            have := ih (p := d) (q := d') (by omega) h4 h3
            have e1 : closest e.fs desc d' = some d' := by
              rw [closest_step, if_pos]
              exact (closest_length h2).2
            rw [findPkg_closest (h2.trans e1.symm)]
            exact this
      | some cached =>
        simp only
        unfold needUpdate
        cases cached with
        | none =>
          have hcl := hw.1.absent p ha hr
          have hf : e.fs.isFile (pjoin p desc) = false := by
            rw [closest_step] at hcl
            split at hcl
            · cases hcl
            · rename_i hno
              rw [hd] at hno
              simpa using hno
          rw [hf]
          have hcl' : closest e.fs desc q = none := by
            rcases closest_comps (desc := desc) he.fs ha h with ⟨-, h2⟩ | ⟨x, y, h1, -⟩
            · exact h2
            · rw [hcl] at h1; cases h1
          rw [findPkg_none hcl']
          exact ⟨hw, _, .ret _, trivial⟩
        | some pk =>
          obtain ⟨hh, hfresh⟩ := hw.1.found p pk ha hr
          rw [hh.2]
          simp only [Bool.not_true, Bool.false_eq_true, if_false]
          have hparse := parseAndStore_seq he ha h hh (here hh.2) hw
          simp only [Prog.bind, Prog.run, Op.exec]
          cases hm : w.file (comps (pjoin p desc)) with
          | none =>
            simp only [Prog.bind, he.debug, Bool.false_eq_true, if_false]
            exact hparse
          | some m =>
            simp only
            obtain ⟨y, hy⟩ := he.readable p ha hh
            obtain ⟨-, now, hnow⟩ := readPkg_mtime hy
            obtain ⟨-, hle⟩ := hw.1.file p m ha hm
            have hle := hle now hnow
            rw [hnow]
            simp only
            rw [if_neg (by omega)]
            simp only [Prog.bind]
            cases hdur : decide (now - m ≥ e.duration) with
            | true =>
              simp only [he.debug, Bool.false_eq_true, if_false]
              exact hparse
            | false =>
              have hdur : ¬ now - m ≥ e.duration := by simpa using hdur
              refine ⟨hw, ?_⟩
              rcases hfresh with hfresh | hold
              · obtain ⟨d, p', seed, hdc, had, hdd, hdf, hdr, rfl⟩ := hfresh
                obtain ⟨b, hb, hsame⟩ := readPkg_samePkg he.fs had (hdc.trans h) hdd
                  (readPkg_returns hdr)
                refine ⟨.done (.ok (some b)), ?_, hsame seed⟩
                rw [findPkg_here (here hh.2), hb]
                exact .ret _
              · have := hold m now hm hnow
                omega

end

/-! ## Calls -/

/-- Good states of a resolver that began in state `w0`. Without description file nothing changes. -/
def SeqI (F : Fs → Prop) (fs : Fs) (desc : Option Str) (ser : Json → Str) (dur : Nat) (w0 w : World) :
    Prop :=
  match desc with
  | some desc => FreshW F fs desc ser dur w ∧ Stores fs desc w0 w
  | none => w.pkg = w0.pkg ∧ w.exportsTree = w0.exportsTree ∧ w.importsTree = w0.importsTree ∧
      w.file = w0.file

theorem SeqI.seeds {F : Fs → Prop} {fs : Fs} {desc : Option Str} {ser : Json → Str} {dur : Nat}
    {w0 w : World} (h : SeqI F fs desc ser dur w0 w) (seeds : Nat → Nat) :
    SeqI F fs desc ser dur w0 { w with seeds := seeds } := by
  cases desc with
  | none => exact h
  | some desc => exact ⟨⟨h.1.1, h.1.2, h.1.3, h.1.4, h.1.5⟩, h.2⟩

section
variable {cfg : Nat → Config} {ser : Json → Str} {F : Fs → Prop} {fs : Fs}

theorem Changing.env (hF : Changing cfg ser F) (hfs : F fs) {rid : Nat} {desc : Str}
    (hd : (cfg rid).opts.descriptionFile = some desc) :
    ((cfg rid).env ser fs).Fresh F desc where
  mem := hfs
  fs := (hF.static fs hfs).lawful
  debug := (hF.static fs hfs).debug rid
  ser := (hF.static fs hfs).inj
  mix := hF.mix
  relative := hF.relative rid desc hd
  readable := hF.readable fs rid desc hfs hd

theorem loadPkg_seq (hF : Changing cfg ser F) (hfs : F fs) (rid : Nat) (w0 : World) {p q : Str}
    (ha : isAbs p = true) (h : comps p = comps q) :
    (loadPkg ((cfg rid).env ser fs) p).RelBy
      (seqSys (SeqI F fs (cfg rid).opts.descriptionFile ser (cfg rid).duration w0)) (SameLoad fs)
      (findPkg fs (cfg rid).opts.descriptionFile q) := by
  cases hd : (cfg rid).opts.descriptionFile with
  | none =>
    have : loadPkg ((cfg rid).env ser fs) p = .ret (.ok none) := by
      have hd' : ((cfg rid).env ser fs).opts.descriptionFile = none := hd
      unfold loadPkg loadPkgAux; rw [hd']
    rw [this]
    exact .ret trivial
  | some desc =>
    intro w hw
    exact loadPkgAux_seq (e := (cfg rid).env ser fs) (hF.env hfs hd) hd (by omega) ha h hw

theorem seq_ctxSim (hF : Changing cfg ser F) (hfs : F fs) (rid : Nat) (w0 : World) :
    CtxSim (seqSys (SeqI F fs (cfg rid).opts.descriptionFile ser (cfg rid).duration w0))
      ((cfg rid).env ser fs).ctx (pureCtx (cfg rid).opts fs (cfg rid).debug) where
  opts := rfl
  debug := rfl
  isFile := (hF.static fs hfs).lawful.file
  isDir := (hF.static fs hfs).lawful.dir
  pathExists := (hF.static fs hfs).lawful.pathExists
  canon := (hF.static fs hfs).lawful.canon
  jsonc _ p q ha h := by
    show (fs.read p).map _ = (fs.read q).map _
    rw [(hF.static fs hfs).lawful.read p q ha h]
  dirNotFile := (hF.static fs hfs).lawful.dirNotFile
  dirNotFile' := (hF.static fs hfs).lawful.dirNotFile
  load p q ha h := by
    intro w hw
    obtain ⟨h1, o, h2, h3⟩ := loadPkg_seq hF hfs rid w0 ha h w hw
    refine ⟨h1, o, h2, ?_⟩
    show Outcome.Like _ ((loadPkg ((cfg rid).env ser fs) p).run w).1 o
    generalize ((loadPkg ((cfg rid).env ser fs) p).run w).1 = x at h3 ⊢
    rcases x with a | c
    · rcases o with b | c'
      · rcases a with err | x
        · rcases b with err' | y
          · exact h3
          · exact (by cases h3)
        · rcases b with err' | y
          · cases x <;> exact (by cases h3)
          · cases x with
            | none => cases y with
              | none => exact trivial
              | some y => exact (by cases h3)
            | some x => cases y with
              | none => exact (by cases h3)
              | some y =>
                have h2' : (findPkg fs (cfg rid).opts.descriptionFile q).Returns (.ok (some y)) :=
                  h2.returns
                cases hd : (cfg rid).opts.descriptionFile with
                | none => rw [hd] at h2'; cases h2'
                | some desc =>
                  rw [hd] at h2'
                  obtain ⟨d, -, hda, hr⟩ := findPkg_found (by rw [← isAbs_of_comps h]; exact ha) h2'
                  exact samePkg_pkgRel (c := ((cfg rid).env ser fs).ctx)
                    (c' := pureCtx (cfg rid).opts fs (cfg rid).debug) rfl
                    (fun hb => (hF.static fs hfs).browser rid desc hb hd) hda hr h3
      · exact h3
    · rcases o with b | c'
      · exact h3
      · exact h3

theorem call_seq (hF : Changing cfg ser F) (hfs : F fs) (rid : Nat) (w0 : World) {call : Call}
    (hc : call.abs) (fuel : Nat) :
    (call.prog ((cfg rid).env ser fs) fuel).RelBy
      (seqSys (SeqI F fs (cfg rid).opts.descriptionFile ser (cfg rid).duration w0)) Answer.Sim
      (call.pure (cfg rid) fs fuel) := by
  cases call with
  | resolve path request =>
    refine Prog.RelBy.bind (resolveCtx_rel (seq_ctxSim hF hfs rid w0) (fun _ w seeds hw => ?_) fuel
      path request hc ((hF.static fs hfs).tsconfig rid)) fun a b hab => .ret hab
    exact SeqI.seeds hw seeds
  | sideEffects path =>
    refine Prog.RelBy.bind (Q := SideSim) ?_ fun a b hab => .ret hab
    unfold loadSideEffects findSideEffects
    have hload := loadPkg_seq hF hfs rid w0 (rfl : comps path = comps path) (ha := hc)
    generalize seqSys (SeqI F fs (cfg rid).opts.descriptionFile ser (cfg rid).duration w0) = S
      at hload ⊢
    cases hd : (cfg rid).opts.descriptionFile with
    | none =>
      have : loadPkg ((cfg rid).env ser fs) path = .ret (.ok none) := by
        have hd' : ((cfg rid).env ser fs).opts.descriptionFile = none := hd
        unfold loadPkg loadPkgAux; rw [hd']
      rw [this]
      exact .ret trivial
    | some desc =>
      rw [hd] at hload
      have hd' : ((cfg rid).env ser fs).opts.descriptionFile = some desc := hd
      refine Prog.RelBy.bind hload fun a b hab => ?_
      cases a with
      | error err =>
        cases b with
        | ok y => exact (by cases hab)
        | error err' => exact .ret hab
      | ok x =>
        cases b with
        | error err' => cases x <;> exact (by cases hab)
        | ok y =>
          cases x with
          | none => cases y with
            | none => exact .ret trivial
            | some y => exact (by cases hab)
          | some x => cases y with
            | none => exact (by cases hab)
            | some y =>
              obtain ⟨h1, h2, h3, seed, h4⟩ : SamePkg fs x y := hab
              simp only [hd']
              exact .ret ⟨(sim_pjoin h2 h1 desc).1, by rw [h4]⟩

/-! ## Systems -/

/-- The caches are good for every resolver. -/
def FreshS (cfg : Nat → Config) (ser : Json → Str) (F : Fs → Prop) (fs : Fs) (s : Shared) : Prop :=
  ∀ rid desc seeds, (cfg rid).opts.descriptionFile = some desc →
    FreshW F fs desc ser (cfg rid).duration (s.view cfg rid seeds)

theorem freshS_init : FreshS cfg ser F fs Shared.init :=
  fun _ _ _ _ => ⟨nofun, nofun, nofun, nofun, fun _ => rfl⟩

theorem readPkg_congr {fs' : Fs} {d file : Str} (hr : fs'.read file = fs.read file)
    (hm : ∃ m, fs.mtime file = some m) (hm' : ∃ m, fs'.mtime file = some m) :
    readPkg fs' d file = readPkg fs d file := by
  obtain ⟨m, hm⟩ := hm
  obtain ⟨m', hm'⟩ := hm'
  unfold readPkg
  rw [hr, hm, hm']
  cases fs.read file <;> rfl

theorem freshW_update (hF : Changing cfg ser F) (hfs : F fs) {fs' : Fs} (hfs' : F fs') {rid : Nat}
    {desc : Str} (hd : (cfg rid).opts.descriptionFile = some desc)
    (hu : Update fs fs' desc (cfg rid).duration) {w : World}
    (h : FreshW F fs desc ser (cfg rid).duration w) : FreshW F fs' desc ser (cfg rid).duration w := by
  have hmt : ∀ {fs}, F fs → ∀ d, isAbs d = true → fs.Has desc d → ∃ m, fs.mtime (pjoin d desc) = some m :=
    fun hf d ha hh => (readPkg_mtime (hF.readable _ rid desc hf hd d ha hh).choose_spec).2
  have hl := (hF.static fs hfs).lawful
  refine ⟨fun d ha hp => hu.absent d ha (h.absent d ha hp), fun d p ha hp => ?_, fun d m ha hm => ?_,
    h.trees, h.imports⟩
  · obtain ⟨h1, h2⟩ := h.found d p ha hp
    refine ⟨hu.kept d ha h1, ?_⟩
    obtain ⟨m0, hm0⟩ := hmt hfs d ha h1
    rcases h2 with ⟨d0, p', seed, hdc, had, hdd, hdf, hdr, rfl⟩ | h2
    · have hh0 : fs.Has desc d0 := ⟨hdd, hdf⟩
      obtain ⟨n0, hn0⟩ := hmt hfs d0 had hh0
      have hh0' := hu.kept d0 had hh0
      obtain ⟨n1, hn1⟩ := hmt hfs' d0 had hh0'
      obtain ⟨h3, h4 | h4⟩ := hu.time d0 n0 n1 had hh0 hn0 hn1
      · refine .inl ⟨d0, p', seed, hdc, had, hh0'.1, hh0'.2, ?_, rfl⟩
        rw [readPkg_congr h4 ⟨_, hn0⟩ ⟨_, hn1⟩]; exact hdr
      · refine .inr fun m now hm hnow => ?_
        have h5 := (h.file d m ha hm).2 m0 hm0
        have hs := sim_pjoin had hdc desc
        have hab := isAbs_pjoin_left desc had
        rw [← hl.mtime _ _ hab hs, hn0] at hm0
        rw [← (hF.static fs' hfs').lawful.mtime _ _ hab hs, hn1] at hnow
        cases hm0; cases hnow
        omega
    · refine .inr fun m now hm hnow => ?_
      have h3 := h2 m m0 hm hm0
      have h4 := (hu.time d m0 now ha h1 hm0 hnow).1
      omega
  · obtain ⟨h1, h2⟩ := h.file d m ha hm
    refine ⟨hu.kept d ha h1, fun now hnow => ?_⟩
    obtain ⟨m0, hm0⟩ := hmt hfs d ha h1
    have h3 := h2 m0 hm0
    have h4 := (hu.time d m0 now ha h1 hm0 hnow).1
    omega

theorem freshS_store (hF : Changing cfg ser F) (hfs : F fs) {s : Shared} (h : FreshS cfg ser F fs s)
    {rid : Nat} {seeds : Nat → Nat} {w : World}
    (hw : SeqI F fs (cfg rid).opts.descriptionFile ser (cfg rid).duration (s.view cfg rid seeds) w) :
    FreshS cfg ser F fs (s.store cfg rid w) := by
  intro rid' desc' seeds' hd'
  have hold := h rid' desc' seeds' hd'
  by_cases hc : (cfg rid').cache = (cfg rid).cache
  · have hview : (s.store cfg rid w).view cfg rid' seeds' =
        ⟨w.pkg, w.exportsTree, w.importsTree, upd s.files rid w.file rid', upd s.dbgs rid w.dbg rid',
          seeds'⟩ := by
      simp [Shared.view, Shared.store, upd, hc]
    rw [hview]
    cases hd : (cfg rid).opts.descriptionFile with
    | none =>
      rw [hd] at hw
      obtain ⟨h1, h2, h3, h4⟩ := hw
      have : (⟨w.pkg, w.exportsTree, w.importsTree, upd s.files rid w.file rid',
          upd s.dbgs rid w.dbg rid', seeds'⟩ : World) =
          { (s.view cfg rid' seeds') with dbg := upd s.dbgs rid w.dbg rid' } := by
        simp only [Shared.view, hc] at h1 h2 h3 h4 ⊢
        rw [h1, h2, h3]
        congr 1
        unfold upd
        split
        · rename_i e; rw [h4, e]
        · rfl
      rw [this]
      exact ⟨hold.1, hold.2, hold.3, hold.4, hold.5⟩
    | some desc =>
      rw [hd] at hw
      obtain ⟨hw, hst⟩ := hw
      obtain rfl := (hF.static fs hfs).desc rid' rid desc' desc hc hd' hd
      by_cases hr : rid' = rid
      · subst hr
        have : upd s.files rid' w.file rid' = w.file := by simp [upd]
        rw [this]
        exact ⟨hw.1, hw.2, hw.3, hw.4, hw.5⟩
      · have : upd s.files rid w.file rid' = s.files rid' := by simp [upd, hr]
        rw [this]
        refine ⟨hw.absent, fun d p ha hp => ?_, hold.file, hw.trees, hw.imports⟩
        obtain ⟨h1, h2⟩ := hw.found d p ha hp
        refine ⟨h1, ?_⟩
        rcases hst (comps d) (some p) hp with h3 | h3
        · refine (hold.found d p ha ?_).2
          simp only [Shared.view, hc] at h3 ⊢
          exact h3
        · exact .inl h3
  · have hview : (s.store cfg rid w).view cfg rid' seeds' =
        { s.view cfg rid' seeds' with dbg := upd s.dbgs rid w.dbg rid' } := by
      have : rid' ≠ rid := by rintro rfl; exact hc rfl
      simp [Shared.view, Shared.store, upd, hc, this]
    rw [hview]
    exact ⟨hold.1, hold.2, hold.3, hold.4, hold.5⟩

theorem upd_same {α β : Type} [DecidableEq α] (f : α → β) (a : α) : upd f a (f a) = f := by
  funext x; unfold upd; split
  · rename_i h; rw [h]
  · rfl

theorem upd_upd {α β : Type} [DecidableEq α] (f : α → β) (a : α) (b c : β) :
    upd (upd f a b) a c = upd f a c := by
  funext x; unfold upd; split <;> rfl

theorem store_view (s : Shared) (rid : Nat) (seeds : Nat → Nat) :
    s.store cfg rid (s.view cfg rid seeds) = s := by
  simp only [Shared.store, Shared.view, upd_same]

theorem view_store (s : Shared) (rid : Nat) (w : World) (seeds : Nat → Nat) :
    (s.store cfg rid w).view cfg rid seeds = { w with seeds := seeds } := by
  simp [Shared.store, Shared.view, upd]

theorem store_store (s : Shared) (rid : Nat) (w w' : World) :
    (s.store cfg rid w).store cfg rid w' = s.store cfg rid w' := by
  simp only [Shared.store, upd_upd]

/-- A call that is over ended well. -/
def EndedWell (cfg : Nat → Config) (F : Fs → Prop) (t : Task) : Prop :=
  F t.fs ∧ t.call.abs ∧ ∀ o, t.prog.outcome = some o →
    ∃ o', (t.call.pure (cfg t.rid) t.fs t.fuel).Ends o' ∧ o.Like Answer.Sim o'

/-- The state while a call is in progress. -/
structure Busy (cfg : Nat → Config) (ser : Json → Str) (F : Fs → Prop) (s : Sys) (i : Nat) (t : Task)
    (s0 : Shared) (w : World) : Prop where
  task : s.tasks[i]? = some t
  others : ∀ j t', s.tasks[j]? = some t' → j ≠ i → ∃ o, t'.prog.outcome = some o
  fresh : FreshS cfg ser F s.fs s0
  shared : s.shared = s0.store cfg t.rid w
  fs : t.fs = s.fs
  good : ∀ seeds, Good (SeqI F s.fs (cfg t.rid).opts.descriptionFile ser (cfg t.rid).duration
    (s0.view cfg t.rid fun _ => 0)) Answer.Sim (t.prog.run { w with seeds := seeds })
    (t.call.pure (cfg t.rid) s.fs t.fuel)

/-- The states of a system in which events happen one after the other. -/
def Orderly (cfg : Nat → Config) (ser : Json → Str) (F : Fs → Prop) (s : Sys) : Prop :=
  F s.fs ∧ (∀ t ∈ s.tasks, EndedWell cfg F t) ∧
    (s.Idle ∧ FreshS cfg ser F s.fs s.shared ∨ ∃ i t s0 w, Busy cfg ser F s i t s0 w)

theorem run_of_outcome {α : Type} {p : Prog α} {o : Outcome α} (h : p.outcome = some o) (w : World) :
    p.run w = (o, w) := by
  cases p with
  | ret a => cases h; rfl
  | crash c => cases h; rfl
  | op _ _ => cases h

theorem Busy.idle (hF : Changing cfg ser F) {s : Sys} (hfs : F s.fs) {i : Nat} {t : Task} {s0 : Shared}
    {w : World} (h : Busy cfg ser F s i t s0 w) (hi : ∃ o, t.prog.outcome = some o) :
    FreshS cfg ser F s.fs s.shared := by
  obtain ⟨o, ho⟩ := hi
  have := (h.good w.seeds).1
  rw [run_of_outcome ho] at this
  rw [h.shared]
  exact freshS_store hF hfs h.fresh this

theorem Orderly.fresh (hF : Changing cfg ser F) {s : Sys} (h : Orderly cfg ser F s) (hi : s.Idle) :
    FreshS cfg ser F s.fs s.shared := by
  obtain ⟨h1, -, h2 | ⟨i, t, s0, w, h2⟩⟩ := h
  · exact h2.2
  · exact h2.idle hF h1 (hi t (List.mem_of_getElem? h2.task))

theorem turns_after (hF : Changing cfg ser F) {s : Sys} (hs : Orderly cfg ser F s) {l : List Event}
    (hl : Turns cfg ser F s l) : Orderly cfg ser F (s.after cfg ser l) := by
  induction l generalizing s with
  | nil => exact hs
  | cons e l ih =>
    obtain ⟨he, hl⟩ := hl
    refine ih ?_ hl
    cases e with
    | change fs' =>
      obtain ⟨hi, hf', hu⟩ := he
      have hfr := hs.fresh hF hi
      exact ⟨hf', hs.2.1, .inl ⟨hi, fun rid desc seeds hd =>
        freshW_update hF hs.1 hf' hd (hu rid desc hd) (hfr rid desc seeds hd)⟩⟩
    | start rid call fuel =>
      obtain ⟨hi, hc⟩ := he
      have hfr := hs.fresh hF hi
      have hgood : ∀ seeds, Good (SeqI F s.fs (cfg rid).opts.descriptionFile ser (cfg rid).duration
          (s.shared.view cfg rid fun _ => 0)) Answer.Sim
          ((call.prog ((cfg rid).env ser s.fs) fuel).run
            { s.shared.view cfg rid (fun _ => 0) with seeds := seeds })
          (call.pure (cfg rid) s.fs fuel) := by
        intro seeds
        refine call_seq hF hs.1 rid _ hc fuel _ ?_
        cases hd : (cfg rid).opts.descriptionFile with
        | none => exact ⟨rfl, rfl, rfl, rfl⟩
        | some desc => exact ⟨hfr rid desc seeds hd, fun key v hv => .inl hv⟩
      refine ⟨hs.1, fun t ht => ?_, .inr ⟨s.tasks.length,
        ⟨rid, s.fs, call, fuel, call.prog ((cfg rid).env ser s.fs) fuel⟩, s.shared,
        s.shared.view cfg rid (fun _ => 0), ?_, ?_, hfr, ?_, rfl, hgood⟩⟩
      · rcases List.mem_append.1 ht with ht | ht
        · exact hs.2.1 t ht
        · rw [List.mem_singleton.1 ht]
          refine ⟨hs.1, hc, fun o ho => ?_⟩
          have := (hgood fun _ => 0).2
          have ho : (call.prog ((cfg rid).env ser s.fs) fuel).outcome = some o := ho
          rw [run_of_outcome ho] at this
          exact this
      · show (s.tasks ++ [_])[s.tasks.length]? = some _
        simp
      · intro j t' hj hne
        have hj : (s.tasks ++ [_])[j]? = some t' := hj
        rw [List.getElem?_append] at hj
        split at hj
        · exact hi t' (List.mem_of_getElem? hj)
        · rename_i hlt
          have : j - s.tasks.length ≠ 0 := by omega
          rw [List.getElem?_cons] at hj
          simp [this] at hj
      · exact (store_view s.shared rid _).symm
    | step i seed =>
      cases ht : s.tasks[i]? with
      | none =>
        have : s.next cfg ser (.step i seed) = s := by simp only [Sys.next, ht]
        rw [this]; exact hs
      | some t =>
        cases hp : t.prog with
        | ret a =>
          have : s.next cfg ser (.step i seed) = s := by simp only [Sys.next, ht, hp]
          rw [this]; exact hs
        | crash c =>
          have : s.next cfg ser (.step i seed) = s := by simp only [Sys.next, ht, hp]
          rw [this]; exact hs
        | op o k =>
          obtain ⟨h1, h2, h3 | ⟨i', t', s0, w, hb⟩⟩ := hs
          · obtain ⟨x, hx⟩ := h3.1 t (List.mem_of_getElem? ht)
            rw [hp] at hx; cases hx
          · have hii : i = i' := by
              apply Classical.byContradiction
              intro hne
              obtain ⟨x, hx⟩ := hb.others i t ht hne
              rw [hp] at hx; cases hx
            subst hii
            have htt : t' = t := by have := hb.task; rw [ht] at this; exact (Option.some.inj this).symm
            subst htt
            have hnext : s.next cfg ser (.step i seed) =
                { s with
                  shared := s0.store cfg t'.rid (o.exec { w with seeds := fun _ => seed }).2
                  tasks := s.tasks.set i
                    { t' with prog := k (o.exec { w with seeds := fun _ => seed }).1 } } := by
              simp only [Sys.next, ht, hp, hb.shared, view_store, store_store]
            rw [hnext]
            have hgood : ∀ seeds, Good (SeqI F s.fs (cfg t'.rid).opts.descriptionFile ser
                (cfg t'.rid).duration (s0.view cfg t'.rid fun _ => 0)) Answer.Sim
                ((k (o.exec { w with seeds := fun _ => seed }).1).run
                  { (o.exec { w with seeds := fun _ => seed }).2 with seeds := seeds })
                (t'.call.pure (cfg t'.rid) s.fs t'.fuel) := by
              intro seeds
              by_cases ho : o = .seed
              · subst ho
                have := hb.good (fun n => match n with
                  | 0 => seed
                  | n + 1 => seeds n)
                rw [hp] at this
                exact this
              · have := hb.good seeds
                rw [hp, Prog.run, exec_seeds ho] at this
                rw [exec_seeds ho]
                exact this
            have hlen : i < s.tasks.length := (List.getElem?_eq_some_iff.1 ht).1
            refine ⟨h1, fun u hu => ?_, .inr ⟨i,
              { t' with prog := k (o.exec { w with seeds := fun _ => seed }).1 }, s0,
              (o.exec { w with seeds := fun _ => seed }).2, ?_, ?_, hb.fresh, rfl, hb.fs, hgood⟩⟩
            · rcases List.mem_or_eq_of_mem_set hu with hu | rfl
              · exact h2 u hu
              · obtain ⟨h4, h5, -⟩ := h2 t' (List.mem_of_getElem? ht)
                refine ⟨h4, h5, fun x hx => ?_⟩
                have := (hgood fun _ => 0).2
                rw [run_of_outcome hx] at this
                simp only [hb.fs]
                exact this
            · show (s.tasks.set i _)[i]? = some _
              rw [List.getElem?_set_self hlen]
            · intro j u hj hne
              refine hb.others j u ?_ hne
              have hj : (s.tasks.set i _)[j]? = some u := hj
              rw [List.getElem?_set_ne (Ne.symm hne)] at hj
              exact hj

theorem orderly_init (hfs : F fs) : Orderly cfg ser F (Sys.init fs) :=
  ⟨hfs, nofun, .inl ⟨nofun, freshS_init⟩⟩

end

end Verif
