import Verif.Proofs.Errors
import Verif.Proofs.TreeFs
/-!
# What successful resolutions look like
-/

namespace Verif

/-- What holds of the information in a success, before its path is normalised. -/
structure FileOk (o : Opts) (fs : Fs) (i : Info) : Prop where
  file : fs.isFile i.path = true
  target : i.request.target = []
  ext : o.enforceExtension = some true → ∃ q, ∃ ext ∈ o.extensions, i.path = q ++ ext

theorem resolveAsFile_ok {c : Ctx} {I : Info → Prop} {E : Err → Prop} {N : Prop} {i : Info} (h : I i) :
    StatsInv (FileOk c.opts c.fs) I E N (resolveAsFile c i) := by
  unfold resolveAsFile
  simp only
  split
  · rename_i hc
    simp only [Bool.and_eq_true, Bool.not_eq_true'] at hc
    refine ⟨hc.2, rfl, fun he => ?_⟩
    rw [he] at hc; cases hc.1
  · unfold extensionsPlugin
    split
    · rename_i ext he
      have h1 := List.find?_some he
      have h2 := List.mem_of_find?_eq_some he
      exact ⟨h1, rfl, fun _ => ⟨_, ext, h2, rfl⟩⟩
    · exact h

theorem fileOk_inv (e : Env) :
    Inv e.ctx (fun _ => True) (fun _ _ => True) (fun _ => True) (fun _ => True)
      (FileOk e.opts e.fs) (fun _ => True) Err.other True where
  load p _ := (loadPkg_all e p).mono fun _ h => ⟨fun _ _ => trivial,
    fun _ he => Err.other_of_load (h _ he)⟩
  errTag := trivial
  errPkg _ _ := ⟨fun _ => trivial, fun _ _ _ _ h => Err.other_of_field (fieldProcess_err h),
    fun _ _ _ _ h => Err.other_of_field (fieldProcess_err h)⟩
  ask _ _ := trivial
  askModule _ _ := trivial
  pathGet _ _ := trivial
  pathPkg _ _ _ _ := trivial
  pathModule _ _ := trivial
  pathParent _ _ _ _ _ _ := trivial
  target _ _ _ := trivial
  file i _ := resolveAsFile_ok (c := e.ctx) trivial
  exports _ _ _ _ := trivial
  imports _ _ _ _ := ⟨trivial, trivial⟩

theorem resolveStats_fileOk (e : Env) (n : Nat) (path request : Str) :
    (resolveStats e.ctx n path request).All 
      (FinalInv (FileOk e.opts e.fs) Err.other True ⟨path, parseRequest request⟩) :=
  resolveStats_sat (fileOk_inv e) n path request trivial fun _ _ =>
    ⟨trivial, ⟨fun _ => trivial, fun _ _ => trivial, fun _ _ => trivial⟩,
      ⟨fun _ => True, trivial, fun _ _ _ _ _ => trivial, fun _ _ => trivial⟩,
      fun _ _ _ _ _ => trivial⟩

/-- The last step of `resolve` on its own. -/
theorem normalizeResult_returns {c : Ctx} {r : Result} {i : Info}
    (h : (normalizeResult c r).Returns (.ok (.info i))) :
    ∃ j, r = .info j ∧ i.request = j.request ∧
      if c.opts.symlinks then c.fs.canon j.path = some i.path else i.path = normalizeLex j.path := by
  cases r with
  | ignored => cases h
  | info j =>
    refine ⟨j, rfl, ?_⟩
    unfold normalizeResult at h
    simp only at h
    split at h
    · cases h
    · unfold normalizePath at h
      cases hs : c.opts.symlinks with
      | false =>
        rw [hs] at h
        cases h
        exact ⟨rfl, by simp [Info.withPath]⟩
      | true =>
        rw [hs] at h
        simp only [if_true] at h
        cases hq : c.fs.canon j.path with
        | none => rw [hq] at h; cases h
        | some q => rw [hq] at h; cases h; exact ⟨rfl, by simp [Info.withPath]⟩

theorem normalizeResult_sat {G : Op → Prop} {R : (o : Op) → o.Ret → Prop} (c : Ctx) (r : Result) :
    (normalizeResult c r).Sat G R (fun a => ∀ i, a = .ok (.info i) →
      ∃ j, r = .info j ∧ i.request = j.request ∧
        if c.opts.symlinks then c.fs.canon j.path = some i.path
        else i.path = normalizeLex j.path) := by
  have leaf : (∃ a, normalizeResult c r = .ret a) ∨ ∃ cr, normalizeResult c r = .crash cr := by
    unfold normalizeResult
    split
    · split
      · exact .inr ⟨_, rfl⟩
      · split <;> exact .inl ⟨_, rfl⟩
    · exact .inl ⟨_, rfl⟩
  rcases leaf with ⟨a, ha⟩ | ⟨cr, hc⟩
  · rw [ha]
    intro i hi
    exact normalizeResult_returns (by rw [ha, hi]; exact .ret _)
  · rw [hc]; trivial

/-- Every successful `resolve` comes from a file as described by `FileOk`. -/
theorem resolve_success {e : Env} {n : Nat} {path request : Str} {i : Info}
    (h : (resolve e n path request).Returns (.ok (.info i))) :
    ∃ j, FileOk e.opts e.fs j ∧ i.request = j.request ∧
      if e.opts.symlinks then e.fs.canon j.path = some i.path else i.path = normalizeLex j.path := by
  unfold resolve resolveCtx at h
  obtain ⟨s, h1, h2⟩ := Prog.returns_bind h
  have hs := Prog.all_iff_returns.1 (resolveStats_fileOk e n path request) s h1
  cases s with
  | error err j => cases h2
  | resolving j => cases h2
  | success r =>
    obtain ⟨j, rfl, h3, h4⟩ := normalizeResult_returns h2
    exact ⟨j, hs, h3, h4⟩

/-! ## Absolute base paths -/

/-- As `FileOk`, and the path is absolute. -/
theorem absOk_inv (e : Env) :
    Inv e.ctx KeyG KeyR (fun p => isAbs p = true) (fun pkg => isAbs pkg.absDir = true)
      (fun i => FileOk e.opts e.fs i ∧ isAbs i.path = true) (fun i => isAbs i.path = true)
      Err.other True where
  load p hp := (loadPkg_dir e p).mono fun r hr => ⟨fun pkg h => (hr.1 pkg h).2.trans hp,
    fun _ he => Err.other_of_load (hr.2 _ he)⟩
  errTag := trivial
  errPkg _ _ := ⟨fun _ => trivial, fun _ _ _ _ h => Err.other_of_field (fieldProcess_err h),
    fun _ _ _ _ h => Err.other_of_field (fieldProcess_err h)⟩
  ask i hi := by
    unfold Info.getPath
    split
    · exact hi
    · exact isAbs_pjoin_left _ hi
  askModule i hi := isAbs_pjoin_left _ (isAbs_pjoin_left _ hi)
  pathGet i hi := by
    show isAbs i.getPath = true
    unfold Info.getPath
    split
    · exact hi
    · exact isAbs_pjoin_left _ hi
  pathPkg _ _ h _ := h
  pathModule _ hi := isAbs_pjoin_left MODULE hi
  pathParent i _ _ hi _ hq := (isAbs_pparent hq).trans hi
  target _ _ hi := hi
  file i hi := by
    have h1 := resolveAsFile_ok (N := True) (c := e.ctx) (I := fun i => isAbs i.path = true)
      (E := Err.other) hi
    have hg : isAbs i.getPath = true := by
      unfold Info.getPath
      split
      · exact hi
      · exact isAbs_pjoin_left _ hi
    have h2 : StatsInv (fun i => isAbs i.path = true) (fun i => isAbs i.path = true)
        Err.other True (resolveAsFile e.ctx i) := by
      unfold resolveAsFile
      simp only
      split
      · exact hg
      · unfold extensionsPlugin
        split
        · obtain ⟨r, hr⟩ := (isAbs_iff _).1 hg
          show isAbs (i.getPath ++ _) = true
          rw [hr]; simp [isAbs, startsWith, List.isPrefixOf]
        · exact hi
    cases hs : resolveAsFile e.ctx i with
    | success r =>
      rw [hs] at h1 h2
      cases r with
      | info j => exact ⟨h1, h2⟩
      | ignored => trivial
    | resolving j => rw [hs] at h1; exact h1
    | error err j => rw [hs] at h1; exact h1
  exports _ h _ _ := h
  imports _ h _ _ := ⟨h, isAbs_pjoin_left MODULE h⟩

theorem isAbs_replaceChar {p star : Str} (h : isAbs p = true) : isAbs (replaceChar p '*' star) = true := by
  obtain ⟨r, rfl⟩ := (isAbs_iff p).1 h
  simp [replaceChar, isAbs, startsWith, List.isPrefixOf]

theorem resolveStats_absOk (e : Env) (n : Nat) (path request : Str) (hp : isAbs path = true)
    (ht : ∀ l, e.opts.tsconfig = some l → isAbs l = true) :
    (resolveStats e.ctx n path request).Sat KeyG KeyR
      (FinalInv (fun i => FileOk e.opts e.fs i ∧ isAbs i.path = true) Err.other True
        ⟨path, parseRequest request⟩) :=
  resolveStats_sat (absOk_inv e) n path request hp fun l hl =>
    ⟨trivial, ⟨fun _ => trivial, fun _ _ => trivial, fun _ _ => trivial⟩, ⟨fun p => isAbs p = true, ht l hl, fun p dir s h hd => (isAbs_pparent hd).trans h,
      fun i hi => (absOk_inv e).ask i hi.2⟩,
      fun dir b q star hd => isAbs_replaceChar
        (isAbs_pjoin_left _ (isAbs_pjoin_left _ ((isAbs_pparent hd).trans (ht l hl))))⟩

/-- With an absolute base path, in any system, the file behind a success has an absolute path. -/
theorem system_absOk {cfg : Nat → Config} {ser : Json → Str} {fs : Fs} {l : List Event} {t : Task}
    (ht : t ∈ ((Sys.init fs).after cfg ser l).tasks) {path request : Str} {i : Info}
    (habs : ∀ e ∈ l, ∀ rid p r n, e = .start rid (.resolve p r) n →
      isAbs p = true ∧ ∀ loc, (cfg rid).opts.tsconfig = some loc → isAbs loc = true)
    (hc : t.call = .resolve path request) (hd : t.prog = .ret (.resolve (.ok (.info i)))) :
    ∃ j, FileOk (cfg t.rid).opts t.fs j ∧ isAbs j.path = true ∧ i.request = j.request ∧
      if (cfg t.rid).opts.symlinks then t.fs.canon j.path = some i.path
      else i.path = normalizeLex j.path := by
  have key := system_inv (cfg := cfg) (ser := ser) (okFs := fun _ => True)
    (okCall := fun rid call => ∀ p r, call = .resolve p r →
      isAbs p = true ∧ ∀ loc, (cfg rid).opts.tsconfig = some loc → isAbs loc = true)
    (G := fun _ => KeyG) (R := fun _ => KeyR) (J := Keyed)
    (P := fun rid fs _ a => ∀ i, a = .resolve (.ok (.info i)) →
      ∃ j, FileOk (cfg rid).opts fs j ∧ isAbs j.path = true ∧ i.request = j.request ∧
        if (cfg rid).opts.symlinks then fs.canon j.path = some i.path
        else i.path = normalizeLex j.path)
    (fun s rid o seeds hs hg => keyed_step cfg s rid o seeds hs hg)
    (by
      intro rid fs call fuel _ hok
      cases call with
      | sideEffects p =>
        unfold Call.prog
        refine Prog.Sat.bind (P := fun _ => True) ?_ fun r _ i h => by cases h
        unfold loadSideEffects
        refine Prog.Sat.bind ((loadPkg_dir _ p).mono fun _ _ => trivial) fun r (_ : True) => ?_
        split
        · trivial
        · trivial
        · split <;> trivial
      | resolve p r =>
        obtain ⟨h1, h2⟩ := hok p r rfl
        unfold Call.prog
        refine Prog.Sat.bind (P := fun r => ∀ i, r = .ok (.info i) →
          ∃ j, FileOk (cfg rid).opts fs j ∧ isAbs j.path = true ∧ i.request = j.request ∧
            if (cfg rid).opts.symlinks then fs.canon j.path = some i.path
            else i.path = normalizeLex j.path) ?_ ?_
        · unfold resolve resolveCtx
          refine Prog.Sat.bind (resolveStats_absOk ((cfg rid).env ser fs) fuel p r h1 h2)
            fun s hs => ?_
          cases s with
          | error err j => intro i h; cases h
          | resolving j => trivial
          | success res =>
            have hn' := normalizeResult_sat (G := KeyG) (R := KeyR) ((cfg rid).env ser fs).ctx res
            refine hn'.mono fun a ha i hi => ?_
            obtain ⟨j, rfl, h3, h4⟩ := ha i hi
            exact ⟨j, hs.1, hs.2, h3, h4⟩
        · intro a ha i hi
          cases hi
          exact ha i rfl)
    (fs := fs) trivial (l := l)
    (by
      intro e he
      cases e with
      | start rid call fuel =>
        intro p r hc
        subst hc
        exact habs _ he rid p r fuel rfl
      | change fs => trivial
      | step i s => trivial)
    keyed_init
  have := key.2.2 t ht
  rw [hd] at this
  exact this i rfl

end Verif
