import Verif.Proofs.System
import Verif.Spec.Hyps
/-!
# Query and fragment along a resolution
-/

namespace Verif

/-- The package has neither tree. -/
def Pkg.NoTrees (p : Pkg) : Prop := p.exportsTree = none ∧ p.importsTree = none

theorem loadPkg_noTrees (e : Env) (h : NoMaps e.fs) (path : Str) :
    (loadPkg e path).Sat (StoreG fun _ p => p.NoTrees) (StoreR fun _ p => p.NoTrees) (fun r =>
      (∀ p, r = .ok (some p) → p.NoTrees) ∧ ∀ err, r = .error err → err.fromLoad = true) := by
  refine (loadPkg_sat e (fun o ho => ?_) (fun _ _ => trivial) (fun _ p => p.NoTrees) ?_ ?_ path).mono
    fun r hr => ⟨fun p h => ?_, hr.2⟩
  · cases o <;> first | trivial | exact ho.elim
  · intro desc d p _ _ hp
    obtain ⟨doc, h1, h2⟩ := hp.read
    obtain ⟨h3, h4⟩ := h _ _ _ h1 h2
    have h5 := hp.exports
    have h6 := hp.imports
    rw [h3] at h5
    rw [h4] at h6
    exact ⟨⟨h5, h6⟩, h5, h6⟩
  · intro d p _ hp
    exact hp p rfl
  · obtain ⟨d, -, -, h2⟩ := hr.1 p h
    exact h2

/-- Same query and fragment. -/
def SameQF (q f : Str) (i : Info) : Prop := i.request.query = q ∧ i.request.fragment = f

theorem queryInv (e : Env) (h : NoMaps e.fs) (q f : Str) :
    Inv e.ctx (StoreG fun _ p => p.NoTrees) (StoreR fun _ p => p.NoTrees) (fun _ => True)
      Pkg.NoTrees (SameQF q f) (SameQF q f) (fun _ => True) True where
  load p _ := (loadPkg_noTrees e h p).mono fun _ hr => ⟨hr.1, fun _ _ => trivial⟩
  ask _ _ := trivial
  askModule _ _ := trivial
  pathGet _ h := h
  pathPkg _ _ _ h := h
  pathModule _ h := h
  pathParent _ _ _ _ h _ := h
  target _ _ h := h
  file i hi := by
    unfold resolveAsFile
    simp only
    split
    · exact hi
    · unfold extensionsPlugin
      split <;> exact hi
  errTag := trivial
  errPkg _ _ := ⟨fun _ => trivial, fun _ _ _ _ _ => trivial, fun _ _ _ _ _ => trivial⟩
  exports pkg hp item hi := by
    obtain ⟨root, -, -, ht, -⟩ := hi
    rw [hp.1] at ht; cases ht
  imports pkg hp item hi := by
    obtain ⟨root, -, -, ht, -⟩ := hi
    rw [hp.2] at ht; cases ht

theorem resolve_sameQF (e : Env) (h : NoMaps e.fs) (ht : e.opts.tsconfig = none) (n : Nat)
    (path request : Str) :
    (resolve e n path request).Sat (StoreG fun _ p => p.NoTrees) (StoreR fun _ p => p.NoTrees)
      (ResolvePost (SameQF (parseRequest request).query (parseRequest request).fragment)
        (fun _ => True) True e path request) :=
  resolve_sat (resolveStats_sat (queryInv e h _ _) n path request ⟨rfl, rfl⟩ fun l hl => by
    rw [show e.ctx.opts.tsconfig = none from ht] at hl; cases hl)

/-- The invariant that demands nothing of a result. -/
theorem anyInv (e : Env) {G : Op → Prop} {R : (o : Op) → o.Ret → Prop}
    (h : ∀ p, (loadPkg e p).Sat G R (fun _ => True)) :
    Inv e.ctx G R (fun _ => True) (fun _ => True) (fun _ => True) (fun _ => True) (fun _ => True) True where
  load p _ := (h p).mono fun _ _ => ⟨fun _ _ => trivial, fun _ _ => trivial⟩
  ask _ _ := trivial
  askModule _ _ := trivial
  pathGet _ _ := trivial
  pathPkg _ _ _ _ := trivial
  pathModule _ _ := trivial
  pathParent _ _ _ _ _ _ := trivial
  target _ _ _ := trivial
  file i _ := by
    cases h : resolveAsFile e.ctx i with
    | success r => cases r <;> trivial
    | resolving j => trivial
    | error er j => exact ⟨trivial, trivial⟩
  errTag := trivial
  errPkg _ _ := ⟨fun _ => trivial, fun _ _ _ _ _ => trivial, fun _ _ _ _ _ => trivial⟩
  exports _ _ _ _ := trivial
  imports _ _ _ _ := ⟨trivial, trivial⟩

theorem resolve_any (e : Env) {G : Op → Prop} {R : (o : Op) → o.Ret → Prop} (hseed : G .seed)
    (h : ∀ p, (loadPkg e p).Sat G R (fun _ => True)) (n : Nat) (path request : Str) :
    (resolve e n path request).Sat G R (fun _ => True) :=
  (resolve_sat (resolveStats_sat (anyInv e h) n path request trivial fun _ _ =>
    ⟨hseed, ⟨fun _ => trivial, fun _ _ => trivial, fun _ _ => trivial⟩,
      ⟨fun _ => True, trivial, fun _ _ _ _ _ => trivial, fun _ _ => trivial⟩,
      fun _ _ _ _ _ => trivial⟩)).mono fun _ _ => trivial

/-- In any system whose file systems have no exports and imports, a resolver without tsconfig
keeps query and fragment. -/
theorem system_sameQF {cfg : Nat → Config} {ser : Json → Str} {fs : Fs} {l : List Event} {t : Task}
    (hfs : NoMaps fs) (hl : ∀ fs', Event.change fs' ∈ l → NoMaps fs')
    (ht : t ∈ ((Sys.init fs).after cfg ser l).tasks) (hts : (cfg t.rid).opts.tsconfig = none)
    {path request : Str} {i : Info}
    (hc : t.call = .resolve path request) (hd : t.prog = .ret (.resolve (.ok (.info i)))) :
    i.request.query = (parseRequest request).query ∧
      i.request.fragment = (parseRequest request).fragment := by
  have hload : ∀ rid fs p, NoMaps fs → (loadPkg ((cfg rid).env ser fs) p).Sat
      (StoreG fun _ p => p.NoTrees) (StoreR fun _ p => p.NoTrees) (fun _ => True) :=
    fun rid fs p h => (loadPkg_noTrees ((cfg rid).env ser fs) h p).mono fun _ _ => trivial
  have := system_resolve (okFs := NoMaps) (okCall := fun _ _ => True)
    (G := fun _ => StoreG fun _ p => p.NoTrees) (R := fun _ => StoreR fun _ p => p.NoTrees)
    (J := Stored fun _ p => p.NoTrees)
    (P := fun rid fs path request a => (cfg rid).opts.tsconfig = none → ResolvePost
      (SameQF (parseRequest request).query (parseRequest request).fragment) (fun _ => True) True
      ((cfg rid).env ser fs) path request a)
    (fun s rid o seeds hs hg => stored_step cfg s rid o seeds hs hg)
    (fun rid fs p h _ => hload rid fs p h)
    (fun rid fs p r fuel h _ => by
      cases hts : (cfg rid).opts.tsconfig with
      | none => exact (resolve_sameQF ((cfg rid).env ser fs) h hts fuel p r).mono fun _ h _ => h
      | some l =>
        exact (resolve_any _ trivial (fun p => hload rid fs p h) fuel p r).mono
          fun _ _ h => by cases h)
    hfs (fun e he => by
      cases e with
      | start _ _ _ => trivial
      | change fs' => exact hl fs' he
      | step _ _ => trivial) (stored_init _) ht hc hd hts
  obtain ⟨j, hj, he, -⟩ := this
  rw [he]
  exact hj

/-- A resolver without description files, tsconfig and symlinks loads nothing. -/
theorem plainInv (e : Env) (hd : e.opts.descriptionFile = none) :
    Inv e.ctx (fun _ => True) (fun _ _ => True) (fun _ => True) (fun _ => False) (fun _ => True)
      (fun _ => True) (fun er => er.isTag = true) True where
  load p _ := by
    show (loadPkgAux e _ p).Sat _ _ _
    unfold loadPkgAux
    rw [hd]
    exact ⟨nofun, nofun⟩
  ask _ _ := trivial
  askModule _ _ := trivial
  pathGet _ _ := trivial
  pathPkg _ _ h _ := h.elim
  pathModule _ _ := trivial
  pathParent _ _ _ _ _ _ := trivial
  target _ _ _ := trivial
  file i _ := by
    unfold resolveAsFile
    simp only
    split
    · trivial
    · unfold extensionsPlugin
      split <;> trivial
  errTag := rfl
  errPkg _ h := h.elim
  exports _ h _ _ := h.elim
  imports _ h _ _ := h.elim

/-- `NoMaps` for a tree, as a check of its files. -/
theorem noMaps_treeFs {t : Tree} {cwd : List Str}
    (h : t.allDoc (fun d => match d.json with
      | none => true
      | some j => (j.get cs!"exports").isNone && (j.get cs!"imports").isNone) = true) :
    NoMaps (treeFs t cwd) := by
  intro p doc json h1 h2
  have := allDoc_read h h1
  simp only [h2, Bool.and_eq_true, Option.isNone_iff_eq_none] at this
  exact this

end Verif
