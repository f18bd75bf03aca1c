import Verif.Proofs.LiveLoad
import Verif.Proofs.LiveMachine
/-!
# What results look like while files change
-/

namespace Verif.Live

/-- What holds of the information in a success, before its path is normalised: at some moment there
was a file at its path. -/
structure FileWas (A : (q : Query) → q.Ret → Prop) (o : Opts) (i : Info) : Prop where
  file : A (.isFile i.path) true
  target : i.request.target = []
  ext : o.enforceExtension = some true → ∃ q, ∃ ext ∈ o.extensions, i.path = q ++ ext

/-- Not a panic at the end of a call. -/
def NotFinal (c : Crash) : Prop :=
  c ≠ .panic .apiUnreachable ∧ c ≠ .panic .dbgTarget ∧ c ≠ .panic .descUnwrap

section
variable {h : Host} {A : (q : Query) → q.Ret → Prop} {G : Op → Prop} {R : (o : Op) → o.Ret → Prop}
  {C : Crash → Prop}

theorem extensionsLoop_was {S I : Info → Prop} {E : Err → Prop} {N : Prop} {info : Info} (hi : I info)
    (path : Str) (l : List Str)
    (hS : ∀ ext ∈ l, A (.isFile (appendExt path ext)) true →
      S ((info.withPath (appendExt path ext)).withTarget [])) :
    (extensionsLoop path info l).Sat A G R C (StatsInv S I E N) := by
  induction l with
  | nil => exact hi
  | cons ext l ih =>
    rw [extensionsLoop]
    refine sat_isFile fun b hb => ?_
    cases b with
    | true => exact hS ext (by simp) hb
    | false => exact ih fun e he => hS e (List.mem_cons_of_mem _ he)

theorem resolveAsFile_sat {S I : Info → Prop} {E : Err → Prop} {N : Prop} {info : Info} (hi : I info)
    (hS : ∀ p, A (.isFile p) true →
      (h.opts.enforceExtension = some true → ∃ ext ∈ h.opts.extensions, p = info.getPath ++ ext) →
      (p = info.getPath ∨ ∃ ext ∈ h.opts.extensions, p = info.getPath ++ ext) →
      S ((info.withPath p).withTarget [])) :
    (resolveAsFile h info).Sat A G R C (StatsInv S I E N) := by
  unfold resolveAsFile
  dsimp only
  have hl : (extensionsLoop info.getPath info h.opts.extensions).Sat A G R C (StatsInv S I E N) :=
    extensionsLoop_was hi _ _ fun ext he hA =>
      hS _ hA (fun _ => ⟨ext, he, rfl⟩) (.inr ⟨ext, he, rfl⟩)
  split
  · exact hl
  · rename_i hne
    refine sat_isFile fun b hb => ?_
    cases b with
    | true => exact hS _ hb (fun he => by rw [he] at hne; exact absurd rfl hne) (.inl rfl)
    | false => exact hl

theorem resolveAsFile_was {I : Info → Prop} {E : Err → Prop} {N : Prop} {info : Info} (hi : I info) :
    (resolveAsFile h info).Sat A G R C (StatsInv (FileWas A h.opts) I E N) :=
  resolveAsFile_sat hi fun _ hA he _ =>
    ⟨hA, rfl, fun h => (he h).elim fun ext h => ⟨_, ext, h⟩⟩

theorem load_notFinal (path : Str) :
    (loadPkg h path).Sat A (fun _ => True) (fun _ _ => True) NotFinal
      (fun r => ∀ err, r = .error err → err.fromLoad = true) :=
  (loadAux_sat (fun _ _ => trivial)
    (fun c hc => by
      refine ⟨fun h => ?_, fun h => ?_, fun h => ?_⟩ <;> subst h <;> exact hc)
    (fun _ => ⟨nofun, nofun, nofun⟩) ⟨nofun, nofun, nofun⟩ (fun _ => True) (fun _ _ _ _ => trivial)
    (fun _ _ _ => cacheNone_sat (fun _ _ => trivial) ⟨nofun, nofun, nofun⟩ _ _)
    (fun _ _ => True) (fun _ _ _ _ _ _ => ⟨trivial, trivial⟩) (fun _ _ _ _ => trivial) _
    path trivial).mono fun _ h => h.2

theorem was_inv (h : Host) (A : (q : Query) → q.Ret → Prop) :
    Inv h A (fun _ => True) (fun _ _ => True) NotFinal (fun _ => True) (fun _ => True)
      (FileWas A h.opts) (fun _ => True) Err.other True where
  load p _ := (load_notFinal p).mono fun _ h => ⟨fun _ _ => trivial,
    fun _ he => Err.other_of_load (h _ he)⟩
  errTag := trivial
  errPkg _ _ := .of_all (fun _ => trivial) (fun _ _ _ _ h => Err.other_of_field (fieldProcess_err h))
    fun _ _ _ _ h => Err.other_of_field (fieldProcess_err h)
  ask _ _ := trivial
  askModule _ _ := trivial
  pathGet _ _ := trivial
  pathPkg _ _ _ _ := trivial
  pathModule _ _ := trivial
  pathParent _ _ _ _ _ _ := trivial
  target _ _ _ := trivial
  file _ _ := resolveAsFile_was trivial
  exports _ _ _ _ := trivial
  imports _ _ _ _ := ⟨trivial, trivial⟩
  panics s hs := by
    refine ⟨fun h => ?_, fun h => ?_, fun h => ?_⟩ <;> cases h <;> exact absurd hs (by decide)
  fuel := ⟨nofun, nofun, nofun⟩

theorem stats_was (n : Nat) (path request : Str) :
    (resolveStats h n path request).Sat A (fun _ => True) (fun _ _ => True) NotFinal
      (FinalInv (FileWas A h.opts) Err.other True ⟨path, parseRequest request⟩) :=
  stats_sat (was_inv h A) n path request trivial fun _ _ =>
    ⟨trivial, .of_all ⟨fun _ => trivial, fun _ _ => trivial, fun _ _ => trivial⟩,
      ⟨fun _ => True, trivial, fun _ _ _ _ _ => trivial, fun _ _ => trivial⟩,
      fun _ _ _ _ _ => trivial⟩

/-- What `normalize_result` returns. -/
theorem normalizeResult_was (r : Result)
    (hC : ∀ i, r = .info i → i.request.target ≠ [] → C (.panic .dbgTarget)) :
    (normalizeResult h r).Sat A G R C (fun a =>
      (∀ i, a = .ok (.info i) → ∃ j, r = .info j ∧ i.request = j.request ∧
        if h.opts.symlinks then A (.canon j.path) (some i.path) else i.path = normalizeLex j.path) ∧
      ∀ err, a = .error err → err = .normalizeFailed) := by
  unfold normalizeResult
  cases r with
  | ignored => exact ⟨fun _ hx => (by cases hx), fun _ hx => (by cases hx)⟩
  | info j =>
    dsimp only
    by_cases hd : (h.debug && decide (j.request.target ≠ [])) = true
    · rw [if_pos hd]
      exact hC j rfl (of_decide_eq_true (Bool.and_eq_true_iff.1 hd).2)
    · rw [if_neg hd]
      unfold normalizePath
      cases hs : h.opts.symlinks with
      | false =>
        exact ⟨fun i hi => (by cases hi; exact ⟨j, rfl, rfl, by simp [Info.withPath]⟩),
          fun _ hx => (by cases hx)⟩
      | true =>
        simp only [if_true]
        intro b hb
        cases b with
        | none => exact ⟨fun _ hx => (by cases hx), fun _ hx => (by cases hx; rfl)⟩
        | some q =>
          exact ⟨fun i hi => (by cases hi; exact ⟨j, rfl, rfl, hb⟩), fun _ hx => (by cases hx)⟩

/-- Every successful `resolve` comes from a file that was there at some moment. -/
theorem resolve_ok {n : Nat} {path request : Str} {i : Info}
    (hr : Ends A R (resolve h n path request) (.done (.ok (.info i)))) :
    ∃ j, FileWas A h.opts j ∧ i.request = j.request ∧
      if h.opts.symlinks then A (.canon j.path) (some i.path) else i.path = normalizeLex j.path := by
  unfold resolve at hr
  obtain ⟨s, h1, h2⟩ := Ends.done_bind (hr.mono (R' := fun _ _ => True) (fun _ _ h => h) fun _ _ _ => trivial)
  have hs := (stats_was n path request).returns h1
  cases s with
  | error err j => cases h2
  | resolving j => cases h2
  | success r =>
    obtain ⟨j, rfl, h3, h4⟩ := ((normalizeResult_was (G := fun _ => True) (C := fun _ => True) r fun _ _ _ => trivial).returns h2).1 i rfl
    exact ⟨j, hs, h3, h4⟩

/-- The errors of `resolve`. -/
theorem resolve_err {n : Nat} {path request : Str} {err : Err}
    (hr : Ends A R (resolve h n path request) (.done (.error err))) :
    err = failedMessage ⟨path, parseRequest request⟩ ∨ (err.other ∧ err.isTag = false) ∨
      err = .normalizeFailed := by
  unfold resolve at hr
  obtain ⟨s, h1, h2⟩ := Ends.done_bind (hr.mono (R' := fun _ _ => True) (fun _ _ h => h) fun _ _ _ => trivial)
  have hs := (stats_was n path request).returns h1
  cases s with
  | error err j => cases h2; rcases hs with h | h; exact .inl h; exact .inr (.inl h)
  | resolving j => cases h2
  | success r =>
    exact .inr (.inr (((normalizeResult_was (G := fun _ => True) (C := fun _ => True) r fun _ _ _ => trivial).returns h2).2 _ rfl))

/-- `resolve` never reaches the `unreachable!` of the entry point nor fails the assertion on the
target. -/
theorem resolve_sites {n : Nat} {path request : Str} {c : Crash}
    (hr : Ends A R (resolve h n path request) (.crashed c)) : NotFinal c := by
  unfold resolve at hr
  refine Sat.crash (P := fun _ => True) (Sat.bind (stats_was n path request) fun s hs => ?_) (hr.mono (R' := fun _ _ => True) (fun _ _ h => h) fun _ _ _ => trivial)
  cases s with
  | error err j => trivial
  | resolving j => exact hs.elim
  | success r =>
    refine (normalizeResult_was r fun i hi hne => ?_).mono fun _ _ => trivial
    subst hi
    exact absurd hs.target hne

/-- `load_side_effects` never fails to unwrap the name of the description file. -/
theorem sideEffects_sites {path : Str} {c : Crash}
    (hr : Ends A R (loadSideEffects h path) (.crashed c)) : NotFinal c := by
  cases hd : h.opts.descriptionFile with
  | none =>
    have : loadSideEffects h path = .ret (.ok none) := by
      unfold loadSideEffects loadPkg
      rw [show path.length + 1 + h.spin = (path.length + h.spin) + 1 by omega, loadPkgAux, hd]
      rfl
    rw [this] at hr
    cases hr
  | some desc =>
    unfold loadSideEffects at hr
    refine Sat.crash (P := fun _ => True) (Sat.bind (load_notFinal path) fun s hs => ?_) (hr.mono (R' := fun _ _ => True) (fun _ _ h => h) fun _ _ _ => trivial)
    rcases s with e | (_ | pkg)
    · trivial
    · trivial
    · dsimp only
      rw [hd]
      trivial

/-! ## Absolute base paths -/

/-- What the loader returns, given what the cache holds (`KeyR`). -/
theorem load_dir (path : Str) (T : Str → Prop) (hT : ∀ p q, T p → Above q p → T q) (htop : T path)
    (hC : ∀ s, Inner s → C (.panic s)) (hfuel : C .fuel)
    (hloop : ∀ path, T path → A (.isDir path) true →
      (cacheNone (path.length + 1 + h.spin) path).Sat A KeyG KeyR C fun r => r = .ok none) :
    (loadPkg h path).Sat A KeyG KeyR C (fun r => (∀ p, r = .ok (some p) → Above p.absDir path) ∧
      ∀ err, r = .error err → err.fromLoad = true) := by
  refine (loadAux_sat (fun o ho => ?_) (fun c hc => ?_) (fun _ => hC _ (by decide)) hfuel T hT hloop
    (fun d p => comps p.absDir = comps d) ?_ ?_ _ path htop).mono fun r hr => ⟨fun p h => ?_, hr.2⟩
  · cases o <;> first | trivial | exact ho.elim
  · unfold ParseCrash at hc
    split at hc
    · exact hC _ (by decide)
    · exact hC _ (by decide)
    · exact hc.elim
  · rintro desc d p _ _ ⟨doc, -, hp⟩
    exact ⟨by rw [hp.dir], by show comps p.absDir = comps d; rw [hp.dir]⟩
  · intro d p _ hp
    exact hp p rfl
  · obtain ⟨d, h1, -, h2⟩ := hr.1 p h
    exact (Above.of_comps h2).trans h1

theorem getPath_abs {i : Info} (hi : isAbs i.path = true) : isAbs i.getPath = true := by
  unfold Info.getPath
  split
  · exact hi
  · exact isAbs_pjoin_left _ hi

/-- As `was_inv`, and paths are absolute. -/
theorem abs_inv (h : Host) {A : (q : Query) → q.Ret → Prop} {C : Crash → Prop}
    (hC : ∀ s, Inner s → C (.panic s)) (hfuel : C .fuel)
    (hloop : ∀ path, isAbs path = true → A (.isDir path) true →
      (cacheNone (path.length + 1 + h.spin) path).Sat A KeyG KeyR C fun r => r = .ok none) :
    Inv h A KeyG KeyR C (fun p => isAbs p = true) (fun pkg => isAbs pkg.absDir = true)
      (fun i => FileWas A h.opts i ∧ isAbs i.path = true) (fun i => isAbs i.path = true) Err.other True where
  load p hp := (load_dir p (fun p => isAbs p = true) (fun _ _ h1 h2 => h2.2.trans h1) hp hC hfuel
    hloop).mono fun r hr => ⟨fun pkg h => (hr.1 pkg h).2.trans hp,
      fun _ he => Err.other_of_load (hr.2 _ he)⟩
  errTag := trivial
  errPkg _ _ := .of_all (fun _ => trivial) (fun _ _ _ _ h => Err.other_of_field (fieldProcess_err h))
    fun _ _ _ _ h => Err.other_of_field (fieldProcess_err h)
  ask _ hi := getPath_abs hi
  askModule _ hi := isAbs_pjoin_left _ (isAbs_pjoin_left _ hi)
  pathGet _ hi := getPath_abs hi
  pathPkg _ _ h _ := h
  pathModule _ hi := isAbs_pjoin_left MODULE hi
  pathParent _ _ _ hi _ hq := (isAbs_pparent hq).trans hi
  target _ _ hi := hi
  file i hi := by
    refine resolveAsFile_sat hi fun p hA he hp => ⟨⟨hA, rfl, fun h => (he h).elim fun ext h => ⟨_, ext, h⟩⟩, ?_⟩
    rcases hp with rfl | ⟨ext, -, rfl⟩
    · exact getPath_abs hi
    · obtain ⟨r, hr⟩ := (isAbs_iff _).1 (getPath_abs hi)
      show isAbs (i.getPath ++ ext) = true
      rw [hr]; simp [isAbs, startsWith, List.isPrefixOf]
  exports _ h _ _ := h
  imports _ h _ _ := ⟨h, isAbs_pjoin_left MODULE h⟩
  panics := hC
  fuel := hfuel

theorem stats_abs (hI : Inv h A KeyG KeyR C (fun p => isAbs p = true) (fun pkg => isAbs pkg.absDir = true)
      (fun i => FileWas A h.opts i ∧ isAbs i.path = true) (fun i => isAbs i.path = true) Err.other True)
    (n : Nat) (path request : Str) (hp : isAbs path = true)
    (ht : ∀ l, h.opts.tsconfig = some l → isAbs l = true) :
    (resolveStats h n path request).Sat A KeyG KeyR C
      (FinalInv (fun i => FileWas A h.opts i ∧ isAbs i.path = true) Err.other True
        ⟨path, parseRequest request⟩) :=
  stats_sat hI n path request hp fun l hl =>
    ⟨trivial, .of_all ⟨fun _ => trivial, fun _ _ => trivial, fun _ _ => trivial⟩,
      ⟨fun p => isAbs p = true, ht l hl, fun p dir s h hd => (isAbs_pparent hd).trans h,
        fun i hi => hI.ask i hi.2⟩,
      fun dir b q star hd => isAbs_replaceChar
        (isAbs_pjoin_left _ (isAbs_pjoin_left _ ((isAbs_pparent hd).trans (ht l hl))))⟩

/-- As `resolve_ok`, with an absolute path before normalisation. -/
theorem resolve_abs {n : Nat} {path request : Str} {i : Info} (hp : isAbs path = true)
    (ht : ∀ l, h.opts.tsconfig = some l → isAbs l = true)
    (hr : Ends A KeyR (resolve h n path request) (.done (.ok (.info i)))) :
    ∃ j, FileWas A h.opts j ∧ isAbs j.path = true ∧ i.request = j.request ∧
      if h.opts.symlinks then A (.canon j.path) (some i.path) else i.path = normalizeLex j.path := by
  unfold resolve at hr
  obtain ⟨s, h1, h2⟩ := Ends.done_bind hr
  have hs := (stats_abs (C := fun _ => True) (abs_inv h (fun _ _ => trivial) trivial fun _ _ _ =>
    cacheNone_sat (fun _ _ => trivial) trivial _ _) n path request hp ht).returns h1
  cases s with
  | error err j => cases h2
  | resolving j => cases h2
  | success r =>
    obtain ⟨j, rfl, h3, h4⟩ := ((normalizeResult_was (G := fun _ => True) (C := fun _ => True) r
      fun _ _ _ => trivial).returns h2).1 i rfl
    exact ⟨j, hs.1, hs.2, h3, h4⟩

/-- Every call stores packages under their directories, if it finds them so. -/
theorem prog_keyed (h : Host) (fuel : Nat) (call : Call) :
    (Live.prog h fuel call).Sat (fun _ _ => True) KeyG KeyR (fun _ => True) fun _ => True := by
  have hload : ∀ p, (loadPkg h p).Sat (fun _ _ => True) KeyG KeyR (fun _ => True) fun _ => True := fun p =>
    (load_dir p (fun _ => True) (fun _ _ _ _ => trivial) trivial (fun _ _ => trivial) trivial
      fun _ _ _ => cacheNone_sat (fun _ _ => trivial) trivial _ _).mono fun _ _ => trivial
  have hI : Inv h (fun _ _ => True) KeyG KeyR (fun _ => True) (fun _ => True) (fun _ => True)
      (fun _ => True) (fun _ => True) (fun _ => True) True :=
    { load := fun p _ => (hload p).mono fun _ _ => ⟨fun _ _ => trivial, fun _ _ => trivial⟩
      errTag := trivial
      errPkg := fun _ _ => .of_all (fun _ => trivial) (fun _ _ _ _ _ => trivial) fun _ _ _ _ _ => trivial
      ask := fun _ _ => trivial
      askModule := fun _ _ => trivial
      pathGet := fun _ _ => trivial
      pathPkg := fun _ _ _ _ => trivial
      pathModule := fun _ _ => trivial
      pathParent := fun _ _ _ _ _ _ => trivial
      target := fun _ _ _ => trivial
      file := fun _ _ => resolveAsFile_sat trivial fun _ _ _ _ => trivial
      exports := fun _ _ _ _ => trivial
      imports := fun _ _ _ _ => ⟨trivial, trivial⟩
      panics := fun _ _ => trivial
      fuel := trivial }
  cases call with
  | resolve path request =>
    unfold Live.prog
    refine Sat.bind (P := fun _ => True) ?_ fun _ _ => trivial
    unfold resolve
    refine Sat.bind (stats_sat hI fuel path request trivial fun _ _ =>
      ⟨trivial, .of_all ⟨fun _ => trivial, fun _ _ => trivial, fun _ _ => trivial⟩,
        ⟨fun _ => True, trivial, fun _ _ _ _ _ => trivial, fun _ _ => trivial⟩,
        fun _ _ _ _ _ => trivial⟩) fun s hs => ?_
    cases s with
    | error err j => trivial
    | resolving j => trivial
    | success r => exact (normalizeResult_was r fun _ _ _ => trivial).mono fun _ _ => trivial
  | sideEffects path =>
    unfold Live.prog
    refine Sat.bind (P := fun _ => True) ?_ fun _ _ => trivial
    unfold loadSideEffects
    refine Sat.bind (hload path) fun s _ => ?_
    rcases s with e | (_ | pkg)
    · trivial
    · trivial
    · dsimp only
      split <;> trivial

/-- In any history, packages found in the cache are those of the directory asked for. -/
theorem got_keyed {cfg : Nat → Config} {ser : Json → Str} {fs : Fs} {l : List Event} {i : Nat} (o : Op)
    (r : o.Ret) (hg : Got cfg ser fs l i o r) : KeyR o r :=
  live_got (F := fun _ => True) (A := fun _ _ => True) (fun _ _ _ => trivial)
    (fun s rid o seeds hs hg => keyed_step cfg s rid o seeds hs hg) keyed_init prog_keyed
    (fun _ _ => trivial) hg

end
end Verif.Live
