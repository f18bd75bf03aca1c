import Verif.Proofs.Faithful
import Verif.Proofs.Query
/-!
# Lookups of packages on an unchanging file system, whatever else is in the caches
-/

namespace Verif

/-- The package was read from the description file in `d`. -/
structure ReadHere (fs : Fs) (desc d : Str) (p : Pkg) : Prop where
  isDir : fs.isDir d = true
  isFile : fs.isFile (pjoin d desc) = true
  dir : comps p.absDir = comps d
  json : ∃ doc, fs.read (pjoin d desc) = some doc ∧ doc.json = some p.raw
  name : p.name = (p.raw.get cs!"name").bind Json.asStr
  sideEffects : parseSideEffects (pjoin p.absDir desc) p.raw = .ok p.sideEffects

/-- What may be stored for a directory: a package read there, or that there is none up to the root. -/
def Entry (fs : Fs) (desc d : Str) : Option (Option Pkg) → Prop
  | some (some p) => ReadHere fs desc d p
  | some none => closest fs desc d = none
  | none => True

/-- What is stored for absolute directories. -/
def NearG (fs : Fs) (o : Option Str) : Op → Prop
  | .putPkg d v => ∃ desc, o = some desc ∧ (isAbs d = true → Entry fs desc d (some v))
  | _ => True

/-- What is found for absolute directories. -/
def NearR (fs : Fs) (o : Option Str) : (op : Op) → op.Ret → Prop
  | .getPkg d, r => ∀ desc, o = some desc → isAbs d = true → Entry fs desc d r
  | _, _ => True

/-- What is in the caches. -/
def Near (fs : Fs) (cfg : Nat → Config) (s : Shared) : Prop :=
  ∀ rid desc d, (cfg rid).opts.descriptionFile = some desc → isAbs d = true →
    Entry fs desc d ((s.caches (cfg rid).cache).pkg (comps d))

theorem ReadHere.comps {fs : Fs} (hfs : fs.Lawful) {desc d d' : Str} {p : Pkg}
    (h : ReadHere fs desc d p) (ha : isAbs d = true) (hc : comps d = comps d') :
    ReadHere fs desc d' p where
  isDir := by rw [← hfs.dir d d' ha hc]; exact h.isDir
  isFile := by
    rw [← hfs.file _ _ (isAbs_pjoin_left desc ha) (sim_pjoin ha hc desc)]; exact h.isFile
  dir := h.dir.trans hc
  json := by
    rw [← hfs.read _ _ (isAbs_pjoin_left desc ha) (sim_pjoin ha hc desc)]; exact h.json
  name := h.name
  sideEffects := h.sideEffects

theorem near_init (fs : Fs) (cfg : Nat → Config) : Near fs cfg Shared.init :=
  fun _ _ _ _ _ => trivial

theorem near_step {fs : Fs} (hfs : fs.Lawful) {cfg : Nat → Config}
    (hdesc : ∀ rid rid' d d', (cfg rid).cache = (cfg rid').cache →
      (cfg rid).opts.descriptionFile = some d → (cfg rid').opts.descriptionFile = some d' → d = d')
    (s : Shared) (rid : Nat) (o : Op) (seeds : Nat → Nat) (h : Near fs cfg s)
    (hg : NearG fs (cfg rid).opts.descriptionFile o) :
    Near fs cfg (s.store cfg rid (Op.exec (s.view cfg rid seeds) o).2) ∧
      NearR fs (cfg rid).opts.descriptionFile o (Op.exec (s.view cfg rid seeds) o).1 := by
  have keep : ∀ w : World, w.pkg = (s.caches (cfg rid).cache).pkg → Near fs cfg (s.store cfg rid w) := by
    intro w hw rid' desc d hd ha
    have := h rid' desc d hd ha
    simp only [Shared.store, upd]
    split
    · rename_i hc
      rw [hc, ← hw] at this
      exact this
    · exact this
  cases o with
  | getPkg d =>
    refine ⟨keep _ rfl, fun desc hd ha => ?_⟩
    exact h rid desc d hd ha
  | putPkg d v =>
    refine ⟨?_, trivial⟩
    intro rid' desc d' hd ha
    have hold := h rid' desc d' hd ha
    simp only [Shared.store, upd, Op.exec, Shared.view]
    split
    · rename_i hc
      simp only [upd]
      split
      · rename_i hk
        obtain ⟨desc', h1, h2⟩ := hg
        have := hdesc rid rid' _ _ hc.symm h1 hd
        subst this
        have had : isAbs d = true := by rw [← isAbs_of_comps hk]; exact ha
        have h2 := h2 had
        cases v with
        | some p => exact ReadHere.comps hfs h2 had hk.symm
        | none =>
          rcases closest_comps (desc := desc') hfs had hk.symm with ⟨-, h3⟩ | ⟨_, _, h3, -⟩
          · exact h3
          · rw [h2] at h3; cases h3
      · rw [hc] at hold
        exact hold
    · exact hold
  | _ => exact ⟨keep _ rfl, trivial⟩

/-- What the loader finds for an absolute path. -/
def NearPost (fs : Fs) (desc path : Str) (r : Except Err (Option Pkg)) : Prop :=
  isAbs path = true →
    (r = .ok none → closest fs desc path = none) ∧
    ∀ p, r = .ok (some p) → ∃ d, closest fs desc path = some d ∧ ReadHere fs desc d p

theorem closest_above {fs : Fs} {desc p d : Str} (h : closest fs desc p = some d) : Above d p := by
  induction hn : p.length using Nat.strongRecOn generalizing p with
  | ind n ih =>
    subst hn
    rw [closest_step] at h
    split at h
    · cases h; exact .refl _
    · split at h
      · rename_i q hq
        exact (ih _ (pparent_length hq) h rfl).trans (.parent hq)
      · cases h

theorem cacheNone_near {fs fs' : Fs} {desc : Str} (n : Nat) (path : Str)
    (h : isAbs path = true → closest fs desc path = none) :
    (cacheNone fs' n path).Sat (NearG fs (some desc)) (NearR fs (some desc)) (fun r => r = .ok none) := by
  induction n generalizing path with
  | zero => trivial
  | succ n ih =>
    unfold cacheNone
    split
    · refine ⟨⟨desc, rfl, fun ha => h ha⟩, fun _ _ => ?_⟩
      split
      · rename_i q hq
        refine ih q fun ha => ?_
        have h := h (by rw [← isAbs_pparent hq]; exact ha)
        rw [closest_step, hq] at h
        split at h
        · cases h
        · exact h
      · rfl
    · trivial

theorem loadPkg_near (e : Env) (hfs : e.fs.Lawful) {desc : Str}
    (hd : e.opts.descriptionFile = some desc) (path : Str) :
    (loadPkg e path).Sat (NearG e.fs (some desc)) (NearR e.fs (some desc))
      (NearPost e.fs desc path) := by
  unfold loadPkg
  generalize path.length + 1 = n
  have hG : ∀ o, FileOp e o → NearG e.fs (some desc) o := by
    intro o ho
    cases o <;> first | trivial | exact ho.elim
  induction n generalizing path with
  | zero => trivial
  | succ n ih =>
    unfold loadPkgAux
    simp only [hd]
    split
    · rename_i hdir
      have hdir : e.fs.isDir path = false := by simpa using hdir
      split
      · rename_i q hq
        refine (ih q).mono fun r hr ha => ?_
        have := hr (by rw [isAbs_pparent hq]; exact ha)
        rw [closest_step, hdir, hq]
        simpa using this
      · exact fun _ => ⟨nofun, fun _ h => by cases h⟩
    · rename_i hdir
      have hdir : e.fs.isDir path = true := by simpa using hdir
      have hps : e.fs.isFile (pjoin path desc) = true →
          (parseAndStore e path (pjoin path desc)).Sat (NearG e.fs (some desc)) (NearR e.fs (some desc))
            (NearPost e.fs desc path) := by
        intro hfile
        unfold parseAndStore
        refine Prog.Sat.bind (parseDescription_sat e hG path (pjoin path desc)) fun r hr => ?_
        cases r with
        | error err => exact fun _ => ⟨nofun, fun _ h => by cases h⟩
        | ok pkg =>
          have hp := hr.2 _ rfl
          have here : ReadHere e.fs desc path pkg :=
            ⟨hdir, hfile, by rw [hp.dir], hp.read, hp.name, by rw [hp.dir]; exact hp.sideEffects⟩
          refine ⟨⟨desc, rfl, fun _ => here⟩, fun _ _ _ => ⟨nofun, fun p h => ?_⟩⟩
          cases h
          exact ⟨path, by rw [closest_step, if_pos ⟨hdir, hfile⟩], here⟩
      refine ⟨trivial, fun r hr => ?_⟩
      cases r with
      | some cached =>
        have hfound : NearPost e.fs desc path (.ok cached) := by
          intro ha
          have := hr desc rfl ha
          refine ⟨fun h => ?_, fun p h => ?_⟩
          · cases h; exact this
          · cases h
            exact ⟨path, by rw [closest_step, if_pos ⟨hdir, this.isFile⟩], this⟩
        cases hfile : e.fs.isFile (pjoin path desc) with
        | false =>
          simp only [needUpdate, hfile, Bool.not_false, if_true, Prog.bind]
          exact hfound
        | true =>
          refine Prog.Sat.bind (needUpdate_sat (fun _ => hG _ trivial) e _) fun u hu => ?_
          split
          · exact fun _ => ⟨nofun, fun _ h => by cases h⟩
          · exact hfound
          · split
            · exact ⟨trivial, fun _ _ => hps hfile⟩
            · exact hps hfile
      | none =>
        simp only
        split
        · rename_i hfile
          have hfile : e.fs.isFile (pjoin path desc) = false := by simpa using hfile
          split
          · rename_i q hq
            refine (ih q).mono fun r hr ha => ?_
            rw [findUp_closest hfs (by omega) ha hdir] at hq
            have hcl := closest_length hq
            have := hr (by rw [(closest_above hq).2]; exact ha)
            rw [closest_step, if_pos hcl.2] at this
            rw [hq]
            exact this
          · rename_i hq
            refine (cacheNone_near (desc := desc) _ path ?_).mono fun r hr ha => ?_
            · intro ha
              rw [findUp_closest hfs (by omega) ha hdir] at hq
              exact hq
            · subst hr
              rw [findUp_closest hfs (by omega) ha hdir] at hq
              exact ⟨fun _ => hq, fun _ h => by cases h⟩
        · rename_i hfile
          exact hps (by simpa using hfile)

theorem loadPkg_entry {cfg : Nat → Config} {ser : Json → Str} {fs : Fs} (hfs : fs.Lawful)
    (rid : Nat) (p : Str) : (loadPkg ((cfg rid).env ser fs) p).Sat
      (NearG fs (cfg rid).opts.descriptionFile) (NearR fs (cfg rid).opts.descriptionFile)
      (fun x => ∀ desc, (cfg rid).opts.descriptionFile = some desc → NearPost fs desc p x) := by
  cases hd : (cfg rid).opts.descriptionFile with
  | none =>
    unfold loadPkg loadPkgAux
    rw [show ((cfg rid).env ser fs).opts.descriptionFile = none from hd]
    exact nofun
  | some desc =>
    refine (loadPkg_near ((cfg rid).env ser fs) hfs hd p).mono fun x hx desc' h => ?_
    cases h
    exact hx

theorem near_after {cfg : Nat → Config} {ser : Json → Str} {fs : Fs} (hfs : fs.Lawful)
    (hdesc : ∀ rid rid' d d', (cfg rid).cache = (cfg rid').cache →
      (cfg rid).opts.descriptionFile = some d → (cfg rid').opts.descriptionFile = some d' → d = d')
    (l : List Event) (hl : ∀ fs', Event.change fs' ∉ l) :
    Near fs cfg ((Sys.init fs).after cfg ser l).shared := by
  refine (system_inv (cfg := cfg) (ser := ser) (okFs := fun fs' => fs' = fs)
    (okCall := fun _ _ => True) (G := fun rid => NearG fs (cfg rid).opts.descriptionFile)
    (R := fun rid => NearR fs (cfg rid).opts.descriptionFile) (J := Near fs cfg)
    (P := fun _ _ _ _ => True) (near_step hfs hdesc) ?_ (rfl : fs = fs) (l := l) ?_
    (near_init fs cfg)).1
  · intro rid fs' call fuel h1 _
    subst h1
    cases call with
    | resolve p r =>
      unfold Call.prog
      refine Prog.Sat.bind (P := fun _ => True) ?_ fun x _ => trivial
      exact resolve_any _ trivial (fun p => (loadPkg_entry hfs rid p).mono fun _ _ => trivial) _ _ _
    | sideEffects p =>
      unfold Call.prog loadSideEffects
      refine Prog.Sat.bind (P := fun _ => True) (Prog.Sat.bind (loadPkg_entry hfs rid p) fun x _ => ?_)
        fun x _ => trivial
      cases x with
      | error err => trivial
      | ok o =>
        cases o with
        | none => trivial
        | some pkg =>
          simp only
          split <;> trivial
  · intro e he
    cases e with
    | change fs' => exact (hl fs' he).elim
    | _ => trivial

end Verif
