import Verif.Proofs.Machine
import Verif.Proofs.Path
import Verif.Spec.Static
/-!
# The loader of description files: where packages come from
-/

namespace Verif

/-- Packages stored satisfy `Q` (of the key and the package). -/
def StoreG (Q : List Comp → Pkg → Prop) : Op → Prop
  | .putPkg d (some p) => Q (comps d) p
  | _ => True

/-- Packages found satisfy `Q`. -/
def StoreR (Q : List Comp → Pkg → Prop) : (o : Op) → o.Ret → Prop
  | .getPkg d, r => ∀ p, r = some (some p) → Q (comps d) p
  | _, _ => True

/-- The invariant of shared states behind `StoreR`. -/
def Stored (Q : List Comp → Pkg → Prop) (s : Shared) : Prop :=
  ∀ n key p, (s.caches n).pkg key = some (some p) → Q key p

theorem stored_init (Q : List Comp → Pkg → Prop) : Stored Q Shared.init := by
  intro n key p h; cases h

theorem stored_step {Q : List Comp → Pkg → Prop} (cfg : Nat → Config) (s : Shared) (rid : Nat)
    (o : Op) (seeds : Nat → Nat) (h : Stored Q s) (hg : StoreG Q o) :
    Stored Q (s.store cfg rid (Op.exec (s.view cfg rid seeds) o).2) ∧
      StoreR Q o (Op.exec (s.view cfg rid seeds) o).1 := by
  have keep : ∀ w : World, w.pkg = (s.caches (cfg rid).cache).pkg → Stored Q (s.store cfg rid w) := by
    intro w hw n key p hp
    simp only [Shared.store, upd] at hp
    split at hp
    · rw [hw] at hp; exact h _ key p hp
    · exact h n key p hp
  cases o with
  | getPkg d => exact ⟨keep _ rfl, fun p hp => h _ _ p hp⟩
  | putPkg d v =>
    refine ⟨?_, trivial⟩
    intro n key p hp
    simp only [Shared.store, upd, Op.exec, Shared.view] at hp
    split at hp
    · simp only [upd] at hp
      split at hp
      · rename_i hk
        cases hp
        rw [hk]; exact hg
      · exact h _ key p hp
    · exact h n key p hp
  | _ => exact ⟨keep _ rfl, trivial⟩

/-- Packages are stored under their directory. -/
abbrev KeyQ (key : List Comp) (p : Pkg) : Prop := comps p.absDir = key
abbrev KeyG : Op → Prop := StoreG KeyQ
abbrev KeyR : (o : Op) → o.Ret → Prop := StoreR KeyQ
abbrev Keyed : Shared → Prop := Stored KeyQ

theorem keyed_init : Keyed Shared.init := stored_init _

theorem keyed_step (cfg : Nat → Config) (s : Shared) (rid : Nat) (o : Op) (seeds : Nat → Nat)
    (h : Keyed s) (hg : KeyG o) :
    Keyed (s.store cfg rid (Op.exec (s.view cfg rid seeds) o).2) ∧
      KeyR o (Op.exec (s.view cfg rid seeds) o).1 := stored_step cfg s rid o seeds h hg

/-- The errors of the loader of description files. -/
def Err.fromLoad : Err → Bool
  | .tag | .openFailed _ | .parseFailed _ | .compareFailed _ | .sideEffects _ _ | .mixedKeys
  | .exportKey _ | .importsKey _ | .importsKeyShort _ | .importsSlash _ => true
  | _ => false

/-- The errors of looking up a request in exports or imports. -/
def Err.fromField : Err → Bool
  | .exportsRequest _ | .onlyFile | .importsRequest _ | .importsRequestShort | .importsSlash _
  | .exportTarget _ | .expectedFolder _ | .expectedFile _ | .someWrong _ | .defaultNotLast => true
  | _ => false

theorem buildExportsLoop_err {l : List (Str × MV)} {r : Node} {err : Err}
    (h : buildExportsLoop l r = .error err) : ∃ k, err = .exportKey k := by
  induction l generalizing r with
  | nil => cases h
  | cons kv l ih =>
    obtain ⟨k, v⟩ := kv
    unfold buildExportsLoop at h
    split at h
    · exact ih h
    · split at h
      · cases h; exact ⟨_, rfl⟩
      · exact ih h

theorem buildImportsLoop_err {l : List (Str × MV)} {r : Node} {err : Err}
    (h : buildImportsLoop l r = .error err) :
    ∃ k, err = .importsKey k ∨ err = .importsKeyShort k ∨ err = .importsSlash k := by
  induction l generalizing r with
  | nil => cases h
  | cons kv l ih =>
    obtain ⟨k, v⟩ := kv
    unfold buildImportsLoop at h
    split at h
    · cases h; exact ⟨_, .inl rfl⟩
    · split at h
      · cases h; exact ⟨_, .inr (.inl rfl)⟩
      · split at h
        · cases h; exact ⟨_, .inr (.inr rfl)⟩
        · exact ih h

theorem buildTree_err_tag {k : FieldKind} {v : Json} {err : Err}
    (h : buildTree k v = some (.error err)) : err.fromLoad = true ∧ err.isTag = false := by
  unfold buildTree at h
  split at h
  · cases h
  · cases k with
    | exports =>
      simp only [Option.some.injEq] at h
      unfold buildExportsMV at h
      split at h
      · simp only at h
        split at h
        · cases h; exact ⟨rfl, rfl⟩
        · split at h
          · cases h
          · obtain ⟨_, rfl⟩ := buildExportsLoop_err h; exact ⟨rfl, rfl⟩
      · cases h
      · cases h
    | imports =>
      simp only at h
      split at h
      · simp only [Option.some.injEq] at h
        obtain ⟨_, rfl | rfl | rfl⟩ := buildImportsLoop_err h <;> exact ⟨rfl, rfl⟩
      · cases h

theorem buildTree_err {k : FieldKind} {v : Json} {err : Err}
    (h : buildTree k v = some (.error err)) : err.fromLoad = true := (buildTree_err_tag h).1

/-- Operations other than storing packages; trees are stored under the text they are built
from, a field of a file; times are those of readable files. -/
def FileOp (e : Env) : Op → Prop
  | .putPkg _ _ => False
  | .putExports key t => ∃ v, key = e.ser v ∧
      (IsField e.fs cs!"exports" v ∧ buildTree .exports v = some (.ok t) ∨
        IsField e.fs cs!"imports" v ∧ buildTree .imports v = some (.ok t))
  | .putFile p m => (∃ doc, e.fs.read p = some doc) ∧ e.fs.mtime p = some m
  | _ => True

/-- Where a tree comes from: the cache, or the text. -/
def TreeFrom (R : (o : Op) → o.Ret → Prop) (e : Env) (k : FieldKind) (v : Json) (t : Node) : Prop :=
  buildTree k v = some (.ok t) ∨
    match k with
    | .exports => R (.getExports (e.ser v)) (some t)
    | .imports => R (.getImports (e.ser v)) (some t)

/-- A package parsed from a description file. -/
structure Parsed (R : (o : Op) → o.Ret → Prop) (e : Env) (dir path : Str) (p : Pkg) : Prop where
  dir : p.absDir = dir
  read : ∃ doc, e.fs.read path = some doc ∧ doc.json = some p.raw
  browser : ∃ seed fields, browserFields p.raw = some fields ∧ p.aliasFields = permute seed fields
  name : p.name = (p.raw.get cs!"name").bind Json.asStr
  version : p.version = (p.raw.get cs!"version").bind Json.asStr
  exports : match p.raw.get cs!"exports" with
    | none => p.exportsTree = none
    | some v => ∃ t, p.exportsTree = some t ∧ TreeFrom R e .exports v t
  imports : match p.raw.get cs!"imports" with
    | none => p.importsTree = none
    | some v => ∃ t, p.importsTree = some t ∧ TreeFrom R e .imports v t
  sideEffects : parseSideEffects path p.raw = .ok p.sideEffects

section
variable {G : Op → Prop} {R : (o : Op) → o.Ret → Prop}

theorem needUpdate_sat (hG : ∀ p, G (.getFile p)) (e : Env) (path : Str) :
    (needUpdate e path).Sat G R (fun r => ∀ err, r = .error err → err.fromLoad = true) := by
  unfold needUpdate
  split
  · intro err h; cases h
  · refine ⟨hG _, fun r _ => ?_⟩
    cases r with
    | none => intro err h; cases h
    | some v =>
      simp only
      split
      · intro err h; cases h; rfl
      · split
        · intro err h; cases h; rfl
        · intro err h; cases h

theorem readToString_sat (e : Env) (path : Str) (hG : ∀ m, (∃ doc, e.fs.read path = some doc) →
    e.fs.mtime path = some m → G (.putFile path m)) :
    (readToString e path).Sat G R (fun r => ∀ d, r = .ok d → e.fs.read path = some d) := by
  unfold readToString
  split
  · intro d h; cases h
  · rename_i doc hdoc
    split
    · intro d h; cases h
    · rename_i m hm
      exact ⟨hG _ ⟨doc, hdoc⟩ hm, fun r _ d h => by cases h; exact hdoc⟩

theorem exportsTreeOf_sat (e : Env) (hG : ∀ o, FileOp e o → G o) {json : Json}
    (hf : ∀ v, json.get cs!"exports" = some v → IsField e.fs cs!"exports" v) :
    (exportsTreeOf e json).Sat G R (fun r => (∀ err, r = .error err → err.fromLoad = true) ∧
      ∀ t, r = .ok t → match json.get cs!"exports" with
        | none => t = none
        | some v => ∃ t', t = some t' ∧ TreeFrom R e .exports v t') := by
  unfold exportsTreeOf
  cases hj : json.get cs!"exports" with
  | none => exact ⟨nofun, fun t h => by cases h; rfl⟩
  | some value =>
    refine ⟨hG _ trivial, fun r hr => ?_⟩
    cases r with
    | some t =>
      exact ⟨nofun, fun t' h => by cases h; exact ⟨_, rfl, .inr hr⟩⟩
    | none =>
      simp only
      split
      · trivial
      · rename_i hb
        exact ⟨fun _ h => (by cases h; exact buildTree_err hb), fun t h => by cases h⟩
      · rename_i hb
        refine ⟨hG _ ⟨_, rfl, .inl ⟨hf _ hj, hb⟩⟩, fun _ _ => ?_⟩
        exact ⟨nofun, fun t' h => by cases h; exact ⟨_, rfl, .inl hb⟩⟩

theorem importsTreeOf_sat (e : Env) (hG : ∀ o, FileOp e o → G o) {json : Json}
    (hf : ∀ v, json.get cs!"imports" = some v → IsField e.fs cs!"imports" v) :
    (importsTreeOf e json).Sat G R (fun r => (∀ err, r = .error err → err.fromLoad = true) ∧
      ∀ t, r = .ok t → match json.get cs!"imports" with
        | none => t = none
        | some v => ∃ t', t = some t' ∧ TreeFrom R e .imports v t') := by
  unfold importsTreeOf
  cases hj : json.get cs!"imports" with
  | none => exact ⟨nofun, fun t h => by cases h; rfl⟩
  | some value =>
    refine ⟨hG _ trivial, fun r hr => ?_⟩
    cases r with
    | some t =>
      exact ⟨nofun, fun t' h => by cases h; exact ⟨_, rfl, .inr hr⟩⟩
    | none =>
      simp only
      split
      · trivial
      · rename_i hb
        exact ⟨fun _ h => (by cases h; exact buildTree_err hb), fun t h => by cases h⟩
      · rename_i hb
        refine ⟨hG _ ⟨_, rfl, .inr ⟨hf _ hj, hb⟩⟩, fun _ _ => ?_⟩
        exact ⟨nofun, fun t' h => by cases h; exact ⟨_, rfl, .inl hb⟩⟩

theorem sideEffectsLoop_err {path : Str} {l : List Json} {err : Err}
    (h : sideEffectsLoop path l = .error err) : ∃ v, err = .sideEffects path v := by
  induction l with
  | nil => cases h
  | cons v l ih =>
    unfold sideEffectsLoop at h
    split at h
    · cases h; exact ⟨_, rfl⟩
    · split at h
      · rename_i he; cases h; exact ih he
      · cases h

theorem parseSideEffects_err {path : Str} {json : Json} {err : Err}
    (h : parseSideEffects path json = .error err) : ∃ v, err = .sideEffects path v := by
  unfold parseSideEffects at h
  split at h
  · cases h
  · split at h
    · cases h
    · split at h
      · cases h; exact ⟨_, rfl⟩
      · split at h
        · rename_i he; cases h; exact sideEffectsLoop_err he
        · cases h

theorem dbgGuard_sat {α : Type} {P : α → Prop} (e : Env) (hG : ∀ o, FileOp e o → G o)
    (path : Str) {k : Prog α} (h : k.Sat G R P) : (dbgGuard e path k).Sat G R P := by
  unfold dbgGuard
  split
  · refine ⟨hG _ trivial, fun r _ => ?_⟩
    cases r with
    | true => trivial
    | false => exact ⟨hG _ trivial, fun _ _ => h⟩
  · exact h

theorem parseDescription_sat (e : Env) (hG : ∀ o, FileOp e o → G o) (dir path : Str) :
    (parseDescription e dir path).Sat G R (fun r =>
      (∀ err, r = .error err → err.fromLoad = true) ∧ ∀ p, r = .ok p → Parsed R e dir path p) := by
  unfold parseDescription
  refine dbgGuard_sat e hG path ?_
  refine Prog.Sat.bind (readToString_sat e path fun m h1 h2 => hG _ ⟨h1, h2⟩) fun r hr => ?_
  cases r with
  | error err => exact ⟨fun _ h => (by cases h; rfl), fun p h => by cases h⟩
  | ok doc =>
    simp only
    split
    · exact ⟨fun _ h => (by cases h; rfl), fun p h => by cases h⟩
    · rename_i json hj
      refine ⟨hG _ trivial, fun seed _ => ?_⟩
      split
      · trivial
      · rename_i fields hf
        refine Prog.Sat.bind (exportsTreeOf_sat e hG fun v hv => ⟨_, _, _, hr _ rfl, hj, hv⟩) fun r hx => ?_
        cases r with
        | error err => exact ⟨fun _ h => (by cases h; exact hx.1 _ rfl), fun p h => by cases h⟩
        | ok et =>
          refine Prog.Sat.bind (importsTreeOf_sat e hG fun v hv => ⟨_, _, _, hr _ rfl, hj, hv⟩) fun r hi => ?_
          cases r with
          | error err => exact ⟨fun _ h => (by cases h; exact hi.1 _ rfl), fun p h => by cases h⟩
          | ok it =>
            simp only
            split
            · rename_i he
              refine ⟨fun _ h => ?_, fun p h => by cases h⟩
              cases h
              obtain ⟨_, rfl⟩ := parseSideEffects_err he
              rfl
            · rename_i he
              refine ⟨nofun, fun p h => ?_⟩
              cases h
              exact ⟨rfl, ⟨doc, hr _ rfl, hj⟩, ⟨seed, fields, hf, rfl⟩, rfl, rfl, hx.2 _ rfl,
                hi.2 _ rfl, he⟩

end

/-- `a` is `p` or a directory above it, by components. -/
def Above (a p : Str) : Prop := comps a <+: comps p ∧ isAbs a = isAbs p

theorem Above.refl (p : Str) : Above p p := ⟨List.prefix_refl _, rfl⟩

theorem Above.trans {a b c : Str} (h : Above a b) (h' : Above b c) : Above a c :=
  ⟨h.1.trans h'.1, h.2.trans h'.2⟩

theorem Above.parent {p q : Str} (h : pparent p = some q) : Above q p :=
  ⟨comps_pparent h ▸ List.dropLast_prefix _, isAbs_pparent h⟩

theorem isAbs_of_comps {a p : Str} (h : comps a = comps p) : isAbs a = isAbs p := by
  rw [Bool.eq_iff_iff, isAbs_iff_comps, isAbs_iff_comps, h]

theorem Above.of_comps {a p : Str} (h : comps a = comps p) : Above a p :=
  ⟨h ▸ List.prefix_refl _, isAbs_of_comps h⟩

theorem findUp_above {fs : Fs} {file : Str} {n : Nat} {dir d : Str}
    (h : findUp fs file n dir = some d) :
    Above d dir ∧ d.length ≤ dir.length ∧ fs.isFile (pjoin d file) = true := by
  induction n generalizing dir with
  | zero => cases h
  | succ n ih =>
    unfold findUp at h
    split at h
    · cases h; exact ⟨.refl _, Nat.le_refl _, by assumption⟩
    · split at h
      · rename_i parent hp
        obtain ⟨h1, h2, h3⟩ := ih h
        have := pparent_length hp
        exact ⟨h1.trans (.parent hp), by omega, h3⟩
      · cases h

theorem cacheNone_sat {G : Op → Prop} {R : (o : Op) → o.Ret → Prop} {P : Str → Prop}
    (hG : ∀ d, P d → G (.putPkg d none)) (fs : Fs) (hP : ∀ d, fs.isDir d = true → P d)
    (n : Nat) (path : Str) :
    (cacheNone fs n path).Sat G R (fun r => r = .ok none) := by
  induction n generalizing path with
  | zero => trivial
  | succ n ih =>
    unfold cacheNone
    split
    · refine ⟨hG _ (hP _ (by assumption)), fun _ _ => ?_⟩
      split
      · exact ih _
      · rfl
    · trivial

/-- What the loader returns, for any demand `Q` on stored packages. -/
theorem loadPkgAux_sat {G : Op → Prop} {R : (o : Op) → o.Ret → Prop} (e : Env)
    (hG : ∀ o, FileOp e o → G o) (hnone : ∀ d, e.fs.isDir d = true → G (.putPkg d none))
    (Q : Str → Pkg → Prop)
    (hput : ∀ desc d p, e.opts.descriptionFile = some desc → e.fs.isDir d = true →
      Parsed R e d (pjoin d desc) p → Q d p ∧ G (.putPkg d (some p)))
    (hget : ∀ d p, e.fs.isDir d = true → R (.getPkg d) (some (some p)) → Q d p)
    (n : Nat) (path : Str) :
    (loadPkgAux e n path).Sat G R (fun r =>
      (∀ p, r = .ok (some p) → ∃ d, Above d path ∧ e.fs.isDir d = true ∧ Q d p) ∧
      ∀ err, r = .error err → err.fromLoad = true) := by
  induction n generalizing path with
  | zero => trivial
  | succ n ih =>
    unfold loadPkgAux
    split
    · exact ⟨nofun, fun _ h => by cases h⟩
    · rename_i desc hdesc
      split
      · split
        · rename_i dir hd
          refine (ih dir).mono fun r hr => ⟨fun p h => ?_, hr.2⟩
          obtain ⟨d, h1, h2⟩ := hr.1 p h
          exact ⟨d, h1.trans (.parent hd), h2⟩
        · exact ⟨nofun, fun _ h => by cases h; rfl⟩
      · rename_i hdir
        simp only [Bool.not_eq_true, Bool.not_eq_false'] at hdir
        have hdir : e.fs.isDir path = true := by simpa using hdir
        have hps : (parseAndStore e path (pjoin path desc)).Sat G R (fun r =>
            (∀ p, r = .ok (some p) → ∃ d, Above d path ∧ e.fs.isDir d = true ∧ Q d p) ∧
            ∀ err, r = .error err → err.fromLoad = true) := by
          unfold parseAndStore
          refine Prog.Sat.bind (parseDescription_sat e hG path (pjoin path desc)) fun r hr => ?_
          cases r with
          | error err => exact ⟨nofun, fun _ h => by cases h; exact hr.1 _ rfl⟩
          | ok pkg =>
            obtain ⟨h1, h2⟩ := hput desc path pkg hdesc hdir (hr.2 _ rfl)
            refine ⟨h2, fun _ _ => ⟨fun p h => ?_, fun _ h => by cases h⟩⟩
            cases h
            exact ⟨path, .refl _, hdir, h1⟩
        refine ⟨hG _ trivial, fun r hr => ?_⟩
        cases r with
        | some cached =>
          refine Prog.Sat.bind (needUpdate_sat (fun _ => hG _ trivial) e _) fun u hu => ?_
          split
          · exact ⟨nofun, fun _ h => by cases h; exact hu _ rfl⟩
          · refine ⟨fun p h => ?_, fun _ h => by cases h⟩
            cases h
            exact ⟨path, .refl _, hdir, hget _ _ hdir hr⟩
          · split
            · exact ⟨hG _ trivial, fun _ _ => hps⟩
            · exact hps
        | none =>
          simp only
          split
          · split
            · rename_i dir hd
              refine (ih dir).mono fun r hr => ⟨fun p h => ?_, hr.2⟩
              obtain ⟨d, h1, h2⟩ := hr.1 p h
              exact ⟨d, h1.trans (findUp_above hd).1, h2⟩
            · refine (cacheNone_sat (P := fun d => e.fs.isDir d = true) hnone _ (fun _ h => h) _ _).mono fun r hr => ?_
              subst hr
              exact ⟨nofun, fun _ h => by cases h⟩
          · exact hps

theorem loadPkg_sat {G : Op → Prop} {R : (o : Op) → o.Ret → Prop} (e : Env)
    (hG : ∀ o, FileOp e o → G o) (hnone : ∀ d, e.fs.isDir d = true → G (.putPkg d none))
    (Q : Str → Pkg → Prop)
    (hput : ∀ desc d p, e.opts.descriptionFile = some desc → e.fs.isDir d = true →
      Parsed R e d (pjoin d desc) p → Q d p ∧ G (.putPkg d (some p)))
    (hget : ∀ d p, e.fs.isDir d = true → R (.getPkg d) (some (some p)) → Q d p) (path : Str) :
    (loadPkg e path).Sat G R (fun r =>
      (∀ p, r = .ok (some p) → ∃ d, Above d path ∧ e.fs.isDir d = true ∧ Q d p) ∧
      ∀ err, r = .error err → err.fromLoad = true) :=
  loadPkgAux_sat e hG hnone Q hput hget _ path

/-- The package found lies in the directory of the path or above it. -/
theorem loadPkg_dir (e : Env) (path : Str) :
    (loadPkg e path).Sat KeyG KeyR (fun r => (∀ p, r = .ok (some p) → Above p.absDir path) ∧
      ∀ err, r = .error err → err.fromLoad = true) := by
  refine (loadPkg_sat e (fun o ho => ?_) (fun _ _ => trivial)
    (fun d p => comps p.absDir = comps d) ?_ ?_ path).mono fun r hr => ⟨fun p h => ?_, hr.2⟩
  · cases o <;> first | trivial | exact ho.elim
  · intro desc d p _ _ hp
    exact ⟨by rw [hp.dir], by show comps p.absDir = comps d; rw [hp.dir]⟩
  · intro d p _ hp
    exact hp p rfl
  · obtain ⟨d, h1, -, h2⟩ := hr.1 p h
    exact (Above.of_comps h2).trans h1

/-- Nothing is asked of the cache. -/
theorem loadPkg_all (e : Env) (path : Str) :
    (loadPkg e path).All (fun r => ∀ err, r = .error err → err.fromLoad = true) :=
  (loadPkg_sat e (fun _ _ => trivial) (fun _ _ => trivial) (fun _ _ => True)
    (fun _ _ _ _ _ _ => ⟨trivial, trivial⟩) (fun _ _ _ _ => trivial) path).mono fun _ h => h.2

end Verif
