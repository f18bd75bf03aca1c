import Verif.Spec.Imports
import Verif.Proofs.Packages
/-!
# Requests that begin with `#`
-/

namespace Verif

/-- What is at a place, as the outcome of a search. -/
theorem loc_search {c : Ctx} (hc : c.Sound) {y path : Str} {req : Request} {r : Loc} {i : Info}
    (h : AtPath c.opts c.fs (fun d r => c.load d = .ret r) y r) :
    SearchStats path req (r.hit i.request.query i.request.fragment) (locStats i r) := by
  cases r with
  | got g => cases g <;> exact rfl
  | missing => exact ⟨_, rfl⟩
  | broken e =>
    cases h with
    | broken _ _ hl => exact ⟨hc.err _ _ hl, i, rfl⟩

/-- What follows the imports stage. -/
def afterImports (c : Ctx) (n : Nat) (pkg : Option Pkg) (s : Stats) : Prog Stats :=
  (s.andThen fun i => aliasFieldPlugin c n pkg i).bind fun s => s.andThen fun i => lastStage c n i

theorem fieldProcess_noTag {k : FieldKind} {root : Node} {t : Str} {names : List Str} {e : Err}
    (h : fieldProcess k root t names = some (.error e)) : e.isTag = false := by
  have := fieldProcess_err h
  cases e <;> first | rfl | cases this

theorem outsideModule_true {p : Pkg} (h : ¬ cs!"node_modules" <:+: p.absDir) :
    outsideModule (some p) = true := by
  rw [← containsStr_iff] at h
  simp only [outsideModule, Bool.not_eq_true']
  exact Bool.not_eq_true _ ▸ h

theorem outsideModule_false {p : Pkg} (h : cs!"node_modules" <:+: p.absDir) :
    outsideModule (some p) = false := by
  rw [← containsStr_iff] at h
  simp only [outsideModule, Bool.not_eq_false']
  exact h

/-- The imports stage when imports give a target. -/
theorem importsPlugin_item {c : Ctx} {n : Nat} {pkg : Pkg} {info : Info} {t : Str} {l : List Str}
    (hh : cs!"#" <+: info.request.target)
    (hm : ImportsMapped c.opts pkg info.request.target (.ok (t :: l))) :
    importsPlugin c (n + 1) (some pkg) info =
      if (parseRequest t).kind = .normal then
        (c.load (Info.getPath ⟨pjoin pkg.absDir MODULE, parseRequest t⟩)).bind fun
        | .error err => .ret (.error err ⟨pjoin pkg.absDir MODULE, parseRequest t⟩)
        | .ok pkg' =>
          if outsideModule pkg' then .ret (.resolving ⟨pjoin pkg.absDir MODULE, parseRequest t⟩)
          else
            (exportsPlugin c pkg' ⟨pjoin pkg.absDir MODULE, parseRequest t⟩).bind fun s =>
            (s.andThen fun i => importsPlugin c n pkg' i).bind fun s =>
            (s.andThen fun i => aliasFieldPlugin c n pkg' i).bind fun s =>
            s.andThen fun i => .ret (importsCheck c i info.request.target)
      else if (parseRequest t).kind = .internal then importsPlugin c n (some pkg) ⟨pkg.absDir, parseRequest t⟩
      else .ret (importsCheck c ⟨pkg.absDir, parseRequest t⟩ info.request.target) := by
  obtain ⟨tree, h1, h2⟩ := hm
  have hh' := (startsWith_iff _ _).2 hh
  rw [importsPlugin]
  simp only [hh', Bool.not_true, Bool.false_eq_true, if_false, h1, h2]
  rfl

theorem importsCheck_yes {c : Ctx} {dir t asked : Str} (h : Usable c.fs dir t) :
    importsCheck c ⟨dir, parseRequest t⟩ asked = .resolving ⟨dir, parseRequest t⟩ := by
  unfold importsCheck
  rw [if_pos ((usable_iff c dir t).2 h)]

theorem importsCheck_no {c : Ctx} {dir t asked : Str} (h : ¬ Usable c.fs dir t) :
    importsCheck c ⟨dir, parseRequest t⟩ asked = .error (.notExported asked) ⟨dir, parseRequest t⟩ := by
  unfold importsCheck
  rw [if_neg fun h' => h ((usable_iff c dir t).1 h')]

theorem isPath_kind' {t : Str} (h : IsPath (parseRequest t).target) :
    (parseRequest t).kind ≠ .normal ∧ (parseRequest t).kind ≠ .internal := by
  have hk : (parseRequest t).kind = getTargetKind (parseRequest t).target := rfl
  rcases h with h | h | h <;> rw [hk, h] <;> exact ⟨nofun, nofun⟩

theorem getPath_bare {dir t : Str} (h : getTargetKind (parseRequest t).target = .normal) :
    Info.getPath ⟨dir, parseRequest t⟩ = pjoin dir (parseRequest t).target := by
  rw [getPath_eq]
  exact targetPath_bare h dir

theorem notHash_bare {t : Str} (h : getTargetKind t = .normal) : ¬ cs!"#" <+: t := by
  rintro ⟨r, rfl⟩
  cases h

/-- A `#` request comes to what the specification says, with enough fuel. -/
theorem importsOut_run {c : Ctx} (hc : c.Sound) {d : Str} {pkg : Pkg} (hd : isAbs d = true)
    (hl : c.load d = .ret (.ok (some pkg))) {asked : Str} {out : Except Err (List Str)} {h : Option Hit}
    (ho : ImportsOut c.opts c.fs (fun d r => c.load d = .ret r) pkg asked out h)
    (hh : cs!"#" <+: asked) (hm : ImportsMapped c.opts pkg asked out) :
    ∃ N, ∀ m n, N ≤ m → N ≤ n → ∀ info : Info, info.request.target = asked →
      ∃ s, (importsPlugin c m (some pkg) info).bind (afterImports c n (some pkg)) = .ret s ∧
        SearchStats info.path info.request h s := by
  have hpk : isAbs pkg.absDir = true := hc.abs _ _ hd hl
  have hmod : isAbs (pjoin pkg.absDir MODULE) = true := isAbs_pjoin_left _ hpk
  -- a path that passes the check
  have path : ∀ {dir t : Str} {y : Str} {r : Loc} {n : Nat}, IsPath (parseRequest t).target →
      NotCovered c.opts (some pkg) (targetPath dir (parseRequest t).target) →
      ((resolveAsFile c ⟨dir, parseRequest t⟩).andThen fun i => resolveAsDir c n i) =
        .ret (locStats ⟨dir, parseRequest t⟩ r) →
      afterImports c n (some pkg) (.resolving ⟨dir, parseRequest t⟩) =
        .ret (locStats ⟨dir, parseRequest t⟩ r) := by
    intro dir t y r n hp hcov h
    unfold afterImports
    rw [Stats.andThen_resolving, aliasFieldPlugin_notCovered (isPath_kind' hp).1 hcov]
    simp only [Prog.ret_bind, Stats.andThen_resolving]
    rw [lastStage_path rfl hp, h]
  -- a bare target that passes the check
  have bare : ∀ {t : Str} {n : Nat}, getTargetKind (parseRequest t).target = .normal →
      NotKeyed c.opts (some pkg) (parseRequest t).target →
      afterImports c n (some pkg) (.resolving ⟨pjoin pkg.absDir MODULE, parseRequest t⟩) =
        resolveAsModules c n ⟨pjoin pkg.absDir MODULE, parseRequest t⟩ := by
    intro t n hk hnk
    unfold afterImports
    rw [Stats.andThen_resolving, aliasFieldPlugin_notKeyed (show (parseRequest t).kind = _ from hk) hnk]
    simp only [Prog.ret_bind, Stats.andThen_resolving, lastStage, show (parseRequest t).kind = _ from hk]
  have search : ∀ {t name rest : Str} {dirs : List Str} {h : Option Hit},
      BareTarget (parseRequest t).target name rest → Ancestors (pjoin pkg.absDir MODULE) dirs →
      SearchOut c.opts c.fs (fun d r => c.load d = .ret r) name rest (parseRequest t).query
        (parseRequest t).fragment dirs h →
      ∃ N, ∀ n, N ≤ n → ∃ s, resolveAsModules c n ⟨pjoin pkg.absDir MODULE, parseRequest t⟩ = .ret s ∧
        SearchStats (pjoin pkg.absDir MODULE) (parseRequest t) h s := by
    intro t name rest dirs h hb ha hs
    exact searchOut_run (req := parseRequest t) hc rfl hb.kind hb.split hb.ascii hb.isName hb.scope hmod ha hs
  have some_stats : ∀ {p p' : Str} {q q' : Request} {h : Option Hit} {s : Stats},
      SearchStats p q h s → SearchStats p' q' h s := by
    intro p p' q q' h s hs
    match h, hs with
    | none, hs => exact hs
    | some (.file ..), hs => exact hs
    | some .ignored, hs => exact hs
    | some (.fail _), hs => exact hs
  -- a bare target: its package is loaded
  have item : ∀ {asked t : Str} {l : List Str} {p : Option Pkg} {m : Nat} {info : Info},
      info.request.target = asked → cs!"#" <+: asked → ImportsMapped c.opts pkg asked (.ok (t :: l)) →
      getTargetKind (parseRequest t).target = .normal →
      c.load (pjoin (pjoin pkg.absDir MODULE) (parseRequest t).target) = .ret (.ok p) →
      importsPlugin c (m + 1) (some pkg) info =
        if outsideModule p then .ret (.resolving ⟨pjoin pkg.absDir MODULE, parseRequest t⟩)
        else
          (exportsPlugin c p ⟨pjoin pkg.absDir MODULE, parseRequest t⟩).bind fun s =>
          (s.andThen fun i => importsPlugin c m p i).bind fun s =>
          (s.andThen fun i => aliasFieldPlugin c m p i).bind fun s =>
          s.andThen fun i => .ret (importsCheck c i asked) := by
    intro asked t l p m info hi hh hm hk hl
    subst hi
    rw [importsPlugin_item hh hm, if_pos (show (parseRequest t).kind = _ from hk), getPath_bare hk, hl]
    rfl
  -- the same without exports that count
  have noExports : ∀ {asked t : Str} {l : List Str} {p : Option Pkg} {m : Nat} {info : Info},
      info.request.target = asked → cs!"#" <+: asked → ImportsMapped c.opts pkg asked (.ok (t :: l)) →
      getTargetKind (parseRequest t).target = .normal →
      c.load (pjoin (pjoin pkg.absDir MODULE) (parseRequest t).target) = .ret (.ok p) →
      (∀ q, p = some q → cs!"node_modules" <:+: q.absDir ∧ q.exportsTree = .none) →
      NotKeyed c.opts p (parseRequest t).target →
      importsPlugin c (m + 2) (some pkg) info =
        .ret (importsCheck c ⟨pjoin pkg.absDir MODULE, parseRequest t⟩ asked) := by
    intro asked t l p m info hi hh hm hk hl hp hnk
    have hout : outsideModule p = false := by
      cases p with
      | none => rfl
      | some q => exact outsideModule_false (hp q rfl).1
    rw [item hi hh hm hk hl, hout, exportsPlugin_pass fun q hq _ => (hp q hq).2]
    simp only [Bool.false_eq_true, if_false, Prog.ret_bind, Stats.andThen_resolving]
    rw [importsPlugin_pass (notHash_bare hk)]
    simp only [Prog.ret_bind, Stats.andThen_resolving]
    rw [aliasFieldPlugin_notKeyed (show (parseRequest t).kind = _ from hk) hnk]
    simp only [Prog.ret_bind, Stats.andThen_resolving]
  induction ho with
  | @error asked e =>
    refine ⟨1, fun m n hm' _ info hi => ⟨.error e info, ?_, ?_⟩⟩
    · obtain ⟨m, rfl⟩ : ∃ k, m = k + 1 := ⟨m - 1, by omega⟩
      obtain ⟨tree, h1, h2⟩ := hm
      rw [importsPlugin]
      simp only [hi, (startsWith_iff _ _).2 hh, Bool.not_true, Bool.false_eq_true, if_false, h1, h2]
      rfl
    · obtain ⟨tree, -, h2⟩ := hm
      exact ⟨fieldProcess_noTag h2, _, rfl⟩
  | @none asked =>
    refine ⟨1, fun m n hm' _ info hi => ⟨.error (.notExported asked) info, ?_, rfl, _, rfl⟩⟩
    obtain ⟨m, rfl⟩ : ∃ k, m = k + 1 := ⟨m - 1, by omega⟩
    obtain ⟨tree, h1, h2⟩ := hm
    rw [importsPlugin]
    simp only [hi, (startsWith_iff _ _).2 hh, Bool.not_true, Bool.false_eq_true, if_false, h1, h2]
    rfl
  | @path asked t l r hp hu hcov hat =>
    obtain ⟨N, hN⟩ := atPath_run hc (targetPath_abs hpk) hat
    refine ⟨N + 1, fun m n hm' hn info hi => ⟨_, ?_, loc_search (i := ⟨pkg.absDir, parseRequest t⟩) hc hat⟩⟩
    obtain ⟨m, rfl⟩ : ∃ k, m = k + 1 := ⟨m - 1, by omega⟩
    rw [importsPlugin_item (by rwa [hi]) (by rwa [hi]), if_neg (isPath_kind' hp).1,
      if_neg (isPath_kind' hp).2, importsCheck_yes hu]
    simp only [Prog.ret_bind]
    exact path (y := []) hp hcov (hN n (by omega) ⟨pkg.absDir, parseRequest t⟩ rfl)
  | @moved asked t u l r hp hu hrep hpu hat =>
    obtain ⟨N, hN⟩ := atPath_run hc (targetPath_abs hpk) hat
    obtain ⟨M, hM⟩ := replaced_run_all hc hd hl (targetPath_abs hpk) hrep
    refine ⟨N + M + 1, fun m n hm' hn info hi => ⟨_, ?_,
      loc_search (i := ⟨pkg.absDir, (parseRequest t).withTarget u⟩) hc hat⟩⟩
    obtain ⟨m, rfl⟩ : ∃ k, m = k + 1 := ⟨m - 1, by omega⟩
    rw [importsPlugin_item (by rwa [hi]) (by rwa [hi]), if_neg (isPath_kind' hp).1,
      if_neg (isPath_kind' hp).2, importsCheck_yes hu]
    simp only [Prog.ret_bind, afterImports, Stats.andThen_resolving]
    rw [hM n (by omega) ⟨pkg.absDir, parseRequest t⟩ rfl (isPath_kind' hp).1 rfl]
    simp only [replaced, Prog.ret_bind, Stats.andThen_resolving]
    rw [lastStage_path rfl hpu]
    exact hN n (by omega) _ rfl
  | @dropped asked t l hp hu hrep =>
    obtain ⟨M, hM⟩ := replaced_run_all hc hd hl (targetPath_abs hpk) hrep
    refine ⟨M + 1, fun m n hm' hn info hi => ⟨.success .ignored, ?_, rfl⟩⟩
    obtain ⟨m, rfl⟩ : ∃ k, m = k + 1 := ⟨m - 1, by omega⟩
    rw [importsPlugin_item (by rwa [hi]) (by rwa [hi]), if_neg (isPath_kind' hp).1,
      if_neg (isPath_kind' hp).2, importsCheck_yes hu]
    simp only [Prog.ret_bind, afterImports, Stats.andThen_resolving]
    rw [hM n (by omega) ⟨pkg.absDir, parseRequest t⟩ rfl (isPath_kind' hp).1 rfl]
    rfl
  | @unusable asked t l hp hu =>
    refine ⟨1, fun m n hm' hn info hi => ⟨_, ?_, rfl, ⟨pkg.absDir, parseRequest t⟩, rfl⟩⟩
    obtain ⟨m, rfl⟩ : ∃ k, m = k + 1 := ⟨m - 1, by omega⟩
    rw [importsPlugin_item (by rwa [hi]) (by rwa [hi]), if_neg (isPath_kind' hp).1,
      if_neg (isPath_kind' hp).2, importsCheck_no hu, hi]
    rfl
  | @again asked t l out h hh' hm' ho ih =>
    obtain ⟨N, hN⟩ := ih hh' hm'
    refine ⟨N + 1, fun m n hmm hn info hi => ?_⟩
    obtain ⟨m, rfl⟩ : ∃ k, m = k + 1 := ⟨m - 1, by omega⟩
    obtain ⟨s, h1, h2⟩ := hN m n (by omega) (by omega) ⟨pkg.absDir, parseRequest t⟩ rfl
    refine ⟨s, ?_, some_stats h2⟩
    have hk : (parseRequest t).kind = .internal := by
      show getTargetKind (parseRequest t).target = .internal
      obtain ⟨r, hr⟩ := hh'
      rw [← hr]; rfl
    rw [importsPlugin_item (by rwa [hi]) (by rwa [hi]), if_neg (by rw [hk]; nofun), if_pos hk]
    exact h1
  | @broken asked t l e hk hl' =>
    refine ⟨1, fun m n hm' hn info hi => ⟨.error e ⟨pjoin pkg.absDir MODULE, parseRequest t⟩, ?_,
      hc.err _ _ hl', _, rfl⟩⟩
    obtain ⟨m, rfl⟩ : ∃ k, m = k + 1 := ⟨m - 1, by omega⟩
    rw [importsPlugin_item (by rwa [hi]) (by rwa [hi]), if_pos (show (parseRequest t).kind = _ from hk),
      getPath_bare hk, show c.load (pjoin (pjoin pkg.absDir MODULE) _) = _ from hl']
    rfl
  | @search asked t name rest l dirs p h hb hl' hout hnk ha hs =>
    obtain ⟨N, hN⟩ := search hb ha hs
    refine ⟨N + 1, fun m n hm' hn info hi => ?_⟩
    obtain ⟨m, rfl⟩ : ∃ k, m = k + 1 := ⟨m - 1, by omega⟩
    obtain ⟨s, h1, h2⟩ := hN n (by omega)
    refine ⟨s, ?_, some_stats h2⟩
    rw [item hi hh hm hb.kind hl', outsideModule_true hout, if_pos rfl]
    simp only [Prog.ret_bind]
    rw [bare hb.kind hnk, h1]
  | @file asked t name rest l dirs p h hb hl' hp hu hnk hnk' ha hs =>
    obtain ⟨N, hN⟩ := search hb ha hs
    refine ⟨N + 2, fun m n hm' hn info hi => ?_⟩
    obtain ⟨m, rfl⟩ : ∃ k, m = k + 2 := ⟨m - 2, by omega⟩
    obtain ⟨s, h1, h2⟩ := hN n (by omega)
    refine ⟨s, ?_, some_stats h2⟩
    rw [noExports hi hh hm hb.kind hl' hp hnk,
      importsCheck_yes (dir := pjoin pkg.absDir MODULE) hu]
    simp only [Prog.ret_bind]
    rw [bare hb.kind hnk', h1]
  | @noFile asked t l p hk hl' hp hnk hu =>
    refine ⟨2, fun m n hm' hn info hi => ⟨_, ?_, rfl, ⟨pjoin pkg.absDir MODULE, parseRequest t⟩, rfl⟩⟩
    obtain ⟨m, rfl⟩ : ∃ k, m = k + 2 := ⟨m - 2, by omega⟩
    rw [noExports hi hh hm hk hl' hp hnk,
      importsCheck_no (dir := pjoin pkg.absDir MODULE) hu]
    rfl
  | @exported asked t name rest u l l' p r hb hl' hin hdir hmap hf hp hcov hcov' hat =>
    have hpabs : isAbs p.absDir = true := hc.abs _ _ (isAbs_pjoin_left _ hmod) hl'
    obtain ⟨N, hN⟩ := atPath_run hc (targetPath_abs hpabs) hat
    refine ⟨N + 2, fun m n hm' hn info hi => ⟨_, ?_, loc_search (i := ⟨p.absDir, parseRequest u⟩) hc hat⟩⟩
    obtain ⟨m, rfl⟩ : ∃ k, m = k + 2 := ⟨m - 2, by omega⟩
    rw [item hi hh hm hb.kind hl', outsideModule_false hin,
      exportsPlugin_mapped (info := ⟨pjoin pkg.absDir MODULE, parseRequest t⟩) hb.kind hb.split hb.isName hb.scope
        (.inr (.inr (hc.lawful.dirExists _ (isAbs_pjoin_left _ hmod) hdir))) (.inl hin) hmap]
    simp only [exportsPick_first hf, Bool.false_eq_true, if_false, Prog.ret_bind, Stats.andThen_resolving]
    rw [importsPlugin_pass (info := ⟨p.absDir, parseRequest u⟩) (not_hash_of_kind hp)]
    simp only [Prog.ret_bind, Stats.andThen_resolving]
    rw [aliasFieldPlugin_notCovered (isPath_kind' hp).1 hcov]
    simp only [Prog.ret_bind, Stats.andThen_resolving]
    have hu : Usable c.fs p.absDir u := by
      obtain ⟨a, b, -, h, -⟩ := hf
      exact h
    rw [importsCheck_yes hu]
    exact path (y := []) hp hcov' (hN n (by omega) ⟨p.absDir, parseRequest u⟩ rfl)
  | @notExported asked t name rest l l' p hb hl' hin hdir hmap hno =>
    refine ⟨1, fun m n hm' hn info hi => ⟨_, ?_, rfl, ⟨pjoin pkg.absDir MODULE, parseRequest t⟩, rfl⟩⟩
    obtain ⟨m, rfl⟩ : ∃ k, m = k + 1 := ⟨m - 1, by omega⟩
    rw [item hi hh hm hb.kind hl', outsideModule_false hin,
      exportsPlugin_mapped (info := ⟨pjoin pkg.absDir MODULE, parseRequest t⟩) hb.kind hb.split hb.isName hb.scope
        (.inr (.inr (hc.lawful.dirExists _ (isAbs_pjoin_left _ hmod) hdir))) (.inl hin) hmap]
    simp only [exportsPick_none hno, Bool.false_eq_true, if_false, Prog.ret_bind]
    rw [← hb.split]
    rfl
  | @exportsError asked t name rest l p e hb hl' hin hdir hmap =>
    have he : e.isTag = false := by
      obtain ⟨tree, -, h⟩ := hmap
      exact fieldProcess_noTag h
    refine ⟨1, fun m n hm' hn info hi => ⟨_, ?_, he, ⟨pjoin pkg.absDir MODULE, parseRequest t⟩, rfl⟩⟩
    obtain ⟨m, rfl⟩ : ∃ k, m = k + 1 := ⟨m - 1, by omega⟩
    rw [item hi hh hm hb.kind hl', outsideModule_false hin,
      exportsPlugin_mapped (info := ⟨pjoin pkg.absDir MODULE, parseRequest t⟩) hb.kind hb.split hb.isName hb.scope
        (.inr (.inr (hc.lawful.dirExists _ (isAbs_pjoin_left _ hmod) hdir))) (.inl hin) hmap]
    rfl

variable {cfg : Nat → Config} {ser : Json → Str} {fs : Fs}

/-- What the stages of a plain call come to is what the call yields. -/
theorem search_yields (hs : Static cfg ser fs) {rid : Nat} {path request p : Str} {req : Request} {r : Option Hit}
    {s : Stats} {N : Nat}
    (hr : resolveCtx (pureCtx (cfg rid).opts fs false) N path request =
      answer (pureCtx (cfg rid).opts fs false) ⟨path, parseRequest request⟩ s)
    (h : SearchStats p req r s) : HitYields cfg ser fs rid path request r := by
  have hdisp : (parseRequest request).display = request := (parse_isSplit request).concat.symm
  match r, h with
  | none, ⟨i, hi⟩ =>
    subst hi
    refine yields_of_pure hs (hr.trans ?_)
    simp only [answer, Err.isTag, if_true, failedMessage, hdisp]
  | some (.file p q f), h2 =>
    cases (h2 : s = _)
    obtain ⟨a, ha, hans⟩ := finalAnswer (c := pureCtx (cfg rid).opts fs false) rfl hs.lawful (.inl rfl)
    exact ⟨a, ha, yields_of_pure hs (hr.trans hans)⟩
  | some .ignored, h2 =>
    cases (h2 : s = _)
    exact yields_of_pure hs hr
  | some (.fail e), ⟨h3, i, hi⟩ =>
    subst hi
    refine yields_of_pure hs (hr.trans ?_)
    simp only [answer, h3, Bool.false_eq_true, if_false]

/-- A `#` request comes to what the specification says. -/
theorem imports_yields (hs : Static cfg ser fs) {rid : Nat} {path request : Str} {pkg : Pkg}
    {out : Except Err (List Str)} {h : Option Hit}
    (hp : Plain (cfg rid).opts path (parseRequest request).target) (ha : isAbs path = true)
    (hh : cs!"#" <+: (parseRequest request).target)
    (hl : Loads (cfg rid).opts fs (targetPath path (parseRequest request).target) (.ok (some pkg)))
    (hm : ImportsMapped (cfg rid).opts pkg (parseRequest request).target out)
    (ho : ImportsOut (cfg rid).opts fs (Loads (cfg rid).opts fs) pkg (parseRequest request).target out h) :
    HitYields cfg ser fs rid path request h := by
  obtain ⟨N, hN⟩ := importsOut_run (c := pureCtx (cfg rid).opts fs false) (sound_pure hs rid) (targetPath_abs ha)
    hl ho hh hm
  obtain ⟨s, h1, h2⟩ := hN N N (Nat.le_refl _) (Nat.le_refl _) ⟨path, parseRequest request⟩ rfl
  refine search_yields hs (N := N + 1) ?_ h2
  rw [resolveCtx_plain (pureCtx (cfg rid).opts fs false) N path request hp.tsconfig
    (hp.alias.imp_left (containsStr_iff _ _).2) hp.prefer]
  have hk : ¬ (parseRequest request).kind = .normal := by
    show ¬ getTargetKind (parseRequest request).target = .normal
    obtain ⟨r, hr⟩ := hh
    rw [← hr]; nofun
  unfold plainStages pkgStage
  simp only [if_neg hk, getPath_eq]
  have hl' : (pureCtx (cfg rid).opts fs false).load (targetPath path (parseRequest request).target) =
    .ret (.ok (some pkg)) := hl
  simp only [hl', Prog.ret_bind]
  have key : ∀ q : Prog Stats, q.bind (afterImports (pureCtx (cfg rid).opts fs false) N (some pkg)) =
      ((q.bind fun s => s.andThen fun i =>
        aliasFieldPlugin (pureCtx (cfg rid).opts fs false) N (some pkg) i).bind fun s =>
        s.andThen fun i => lastStage (pureCtx (cfg rid).opts fs false) N i) := by
    intro q
    rw [Prog.bind_assoc]
    rfl
  rw [← key, h1]
  rfl

end Verif
