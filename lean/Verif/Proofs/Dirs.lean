import Verif.Proofs.BrowserMap
/-!
# Directories: main fields and main files
-/

namespace Verif

/-- What is found, for a request. -/
def gotStats (req : Request) : Got → Stats
  | .file p => .success (.info ⟨p, req.withTarget []⟩)
  | .ignored => .success .ignored

theorem gotStats_congr {r r' : Request} (h : ∀ t, r.withTarget t = r'.withTarget t) (g : Got) :
    gotStats r g = gotStats r' g := by
  cases g with
  | file p => rw [gotStats, gotStats, h]
  | ignored => rfl

/-- What the main files come to. -/
def filesStats (info cur : Info) : Option Got → Stats
  | some g => gotStats cur.request g
  | none => .resolving info

/-- One round of the loop over the main files. -/
theorem mainFileLoop_round {c : Ctx} {n : Nat} {pkg : Option Pkg} {info cur : Info} {m : Str} {l : List Str} :
    mainFileLoop c (n + 1) pkg info (m :: l) cur =
      ((aliasFieldPlugin c (n + 1) pkg (cur.withTarget (cs!"./" ++ m))).bind fun s =>
        s.andThen fun i => .ret (resolveAsFile c i)).bind fun
      | .success r => .ret (.success r)
      | .resolving i => mainFileLoop c (n + 1) pkg info l i
      | .error _ i => mainFileLoop c (n + 1) pkg info l i := by
  have hk : (cur.withTarget (cs!"./" ++ m)).request.kind ≠ .normal := by
    show getTargetKind (cs!"./" ++ m) ≠ .normal
    rw [getTargetKind_dotSlash]
    nofun
  have ht : ¬ cs!"#" <+: (cur.withTarget (cs!"./" ++ m)).request.target := by
    simp [Info.withTarget, Request.withTarget]
  rw [mainFileLoop]
  simp only [exportsPlugin_kind hk, Prog.ret_bind, Stats.andThen_resolving, importsPlugin_pass ht]
  rfl

/-- The loop over the main files follows the specification, with enough fuel. -/
theorem filesOut_run {c : Ctx} (hc : c.Sound) {dir : Str} {pkg : Option Pkg} (hd : isAbs dir = true)
    (hl : c.load dir = .ret (.ok pkg)) {l : List Str} {r : Option Got}
    (h : FilesOut c.opts c.fs pkg dir l r) :
    ∃ N, ∀ n, N ≤ n → ∀ info cur : Info, cur.path = dir →
      mainFileLoop c n pkg info l cur = .ret (filesStats info cur r) := by
  have hx : ∀ (m : Str) (cur : Info), cur.path = dir →
      targetPath (cur.withTarget (cs!"./" ++ m)).path (cur.withTarget (cs!"./" ++ m)).request.target =
        pjoin dir (cs!"./" ++ m) := by
    intro m cur hcur
    subst hcur
    exact targetPath_dotSlash ..
  have hkind : ∀ (m : Str) (cur : Info), (cur.withTarget (cs!"./" ++ m)).request.kind ≠ .normal := by
    intro m cur
    show getTargetKind (cs!"./" ++ m) ≠ .normal
    rw [getTargetKind_dotSlash]
    nofun
  have ha : ∀ m, isAbs (pjoin dir (cs!"./" ++ m)) = true := fun m => isAbs_pjoin_left _ hd
  -- the info used does not depend on the one before
  have swap : ∀ m y, Swap c.opts pkg (pjoin dir (cs!"./" ++ m)) (some y) → ∃ N, ∀ n, N ≤ n →
      ∀ cur : Info, cur.path = dir → ∃ i : Info, targetPath i.path i.request.target = y ∧
        (∀ t, i.request.withTarget t = cur.request.withTarget t) ∧
        aliasFieldPlugin c n pkg (cur.withTarget (cs!"./" ++ m)) = .ret (.resolving i) := by
    intro m y h
    cases h with
    | keep h =>
      exact ⟨0, fun n _ cur hcur => ⟨_, hx m cur hcur, fun _ => rfl,
        aliasFieldPlugin_notCovered (hkind m cur) (by rwa [hx m cur hcur])⟩⟩
    | @instead p t hp h' =>
      subst hp
      obtain ⟨N, hN⟩ := replaced_run_all hc hd hl (ha m) h'
      exact ⟨N, fun n hn cur hcur => ⟨⟨p.absDir, cur.request.withTarget t⟩, rfl, fun _ => rfl,
        hN n hn _ rfl (hkind m cur) (hx m cur hcur)⟩⟩
  induction h with
  | nil => exact ⟨0, fun n _ info cur _ => rfl⟩
  | @dropped m l h =>
    cases h with
    | @drop p hp h =>
      subst hp
      obtain ⟨N, hN⟩ := replaced_run_all hc hd hl (ha m) h
      refine ⟨N + 1, fun n hn info cur hcur => ?_⟩
      obtain ⟨n, rfl⟩ : ∃ k, n = k + 1 := ⟨n - 1, by omega⟩
      rw [mainFileLoop_round, hN (n + 1) (by omega) _ rfl (hkind m cur) (hx m cur hcur)]
      rfl
  | @file m y p l h hf =>
    obtain ⟨N, hN⟩ := swap m y h
    refine ⟨N + 1, fun n hn info cur hcur => ?_⟩
    obtain ⟨n, rfl⟩ : ∃ k, n = k + 1 := ⟨n - 1, by omega⟩
    obtain ⟨i, h1, h2, h3⟩ := hN (n + 1) (by omega) cur hcur
    rw [mainFileLoop_round, h3]
    simp only [Prog.ret_bind, Stats.andThen_resolving]
    rw [resolveAsFile_first (p := p) (h1 ▸ hf)]
    simp only [filesStats, gotStats, ← h2]
    rfl
  | @next m l r h hf _ ih =>
    obtain ⟨N, hN⟩ := ih
    refine ⟨N + 1, fun n hn info cur hcur => ?_⟩
    obtain ⟨n, rfl⟩ : ∃ k, n = k + 1 := ⟨n - 1, by omega⟩
    rw [mainFileLoop_round, aliasFieldPlugin_notCovered (hkind m cur) (by rwa [hx m cur hcur])]
    simp only [Prog.ret_bind, Stats.andThen_resolving]
    rw [resolveAsFile_none (by rwa [hx m cur hcur])]
    simp only
    rw [hN (n + 1) (by omega) info (cur.withTarget (cs!"./" ++ m)) hcur]
    cases r with
    | none => rfl
    | some g => exact congrArg _ (gotStats_congr (fun _ => rfl) g)
  | @gone m t p l r hp h hf hlast hrest ih =>
    subst hp
    obtain ⟨N, hN⟩ := ih
    obtain ⟨M, hM⟩ := replaced_run_all hc hd hl (ha m) h
    refine ⟨N + M + 1, fun n hn info cur hcur => ?_⟩
    obtain ⟨n, rfl⟩ : ∃ k, n = k + 1 := ⟨n - 1, by omega⟩
    rw [mainFileLoop_round, hM (n + 1) (by omega) _ rfl (hkind m cur) (hx m cur hcur)]
    simp only [replaced, Prog.ret_bind, Stats.andThen_resolving]
    rw [resolveAsFile_none (by exact hf)]
    simp only
    rcases hlast with rfl | hown
    · cases hrest
      rfl
    · rw [hN (n + 1) (by omega) info _ (hc.own dir p hd hl hown)]
      cases r with
      | none => rfl
      | some g => exact congrArg _ (gotStats_congr (fun _ => rfl) g)

/-- The loop over the main fields starts at the first one that has a value. -/
theorem mainFieldLoop_skip (c : Ctx) (n : Nat) (asDir : Info → Prog Stats) (pkg : Pkg) (info : Info)
    (fields : List Str) (cur : Info) :
    (fields.filterMap (fun f => (pkg.raw.get f).bind Json.asStr) = [] →
      mainFieldLoop c n asDir pkg info fields cur = .ret (.resolving info)) ∧
    ∀ v l, fields.filterMap (fun f => (pkg.raw.get f).bind Json.asStr) = v :: l →
      ∃ f rest, (pkg.raw.get f).bind Json.asStr = some v ∧
        rest.filterMap (fun f => (pkg.raw.get f).bind Json.asStr) = l ∧
        mainFieldLoop c n asDir pkg info fields cur =
          mainFieldLoop c n asDir pkg info (f :: rest) cur := by
  induction fields with
  | nil => exact ⟨fun _ => rfl, nofun⟩
  | cons f fields ih =>
    cases hv : (pkg.raw.get f).bind Json.asStr with
    | none =>
      rw [List.filterMap_cons_none (by exact hv)]
      have : mainFieldLoop c n asDir pkg info (f :: fields) cur =
          mainFieldLoop c n asDir pkg info fields cur := by
        rw [mainFieldLoop, hv]
      rw [this]
      exact ih
    | some v =>
      rw [List.filterMap_cons_some (by exact hv)]
      refine ⟨nofun, fun v' l h => ?_⟩
      cases h
      exact ⟨f, fields, hv, rfl, rfl⟩

/-- What the resolution of a directory comes to. -/
def dirStats (dir : Str) (info : Info) : Option Got → Stats
  | some g => gotStats info.request g
  | none => .resolving ⟨dir, info.request.withTarget []⟩

/-- The request tried for a main field. -/
def fieldInfo (v : Str) (cur : Info) : Info :=
  if startsWith v cs!"./" then cur.withTarget v else cur.withTarget (cs!"./" ++ v)

theorem fieldInfo_path (v : Str) (cur : Info) : (fieldInfo v cur).path = cur.path := by
  unfold fieldInfo
  split <;> rfl

theorem fieldInfo_request (v : Str) (cur : Info) (t : Str) :
    (fieldInfo v cur).request.withTarget t = cur.request.withTarget t := by
  unfold fieldInfo
  split <;> rfl

theorem fieldInfo_target {v : Str} (h : v ≠ cs!".") (cur : Info) :
    targetPath (fieldInfo v cur).path (fieldInfo v cur).request.target = fieldPath cur.path v := by
  unfold fieldPath fieldInfo
  by_cases hp : cs!"./" <+: v
  · rw [if_pos (by rwa [startsWith_iff]), if_pos hp]
    show targetPath cur.path v = _
    unfold targetPath
    rw [if_neg]
    rintro (rfl | rfl)
    · exact absurd hp (by decide)
    · exact h rfl
  · rw [if_neg (by rwa [startsWith_iff]), if_neg hp]
    show targetPath cur.path (cs!"./" ++ v) = _
    rw [targetPath_dotSlash]

theorem fieldInfo_kind (v : Str) (cur : Info) :
    (fieldInfo v cur).request.kind = getTargetKind (fieldInfo v cur).request.target ∧
      (fieldInfo v cur).request.kind ≠ .normal := by
  unfold fieldInfo
  split
  · rename_i h
    rw [startsWith_iff] at h
    obtain ⟨r, rfl⟩ := h
    exact ⟨rfl, nofun⟩
  · exact ⟨rfl, nofun⟩

/-- One round of the loop over the main fields. -/
theorem mainFieldLoop_round {c : Ctx} {n : Nat}
    {asDir : Info → Prog Stats} {pkg : Pkg} {info : Info} {f v : Str} {rest : List Str} {cur : Info}
    (hv : (pkg.raw.get f).bind Json.asStr = some v) (h1 : v ≠ cs!".") (h2 : v ≠ cs!"./") :
    mainFieldLoop c n asDir pkg info (f :: rest) cur =
      ((aliasFieldPlugin c n (some pkg) (fieldInfo v cur)).bind fun s =>
        (s.andThen fun i => .ret (resolveAsFile c i)).bind fun s =>
        s.andThen asDir).bind fun
      | .success r => .ret (.success r)
      | .resolving i => mainFieldLoop c n asDir pkg info rest i
      | .error _ i => mainFieldLoop c n asDir pkg info rest i := by
  rw [mainFieldLoop, hv]
  simp only
  rw [if_neg (by simp [h1, h2])]
  rfl

theorem resolveAsDir_step {c : Ctx} (n : Nat) {info : Info} {dir : Str}
    (hi : targetPath info.path info.request.target = dir) (hd : c.fs.isDir dir = true) :
    resolveAsDir c (n + 1) info =
      (c.load dir).bind fun
      | .error err => .ret (.error err info)
      | .ok pkg => (mainFieldPlugin c n (resolveAsDir c n) pkg
            ((info.withPath dir).withTarget [])).bind fun s =>
          s.andThen fun i => mainFilePlugin c n pkg i := by
  rw [resolveAsDir]
  simp only [getPath_eq, hi, hd, Bool.not_true, Bool.false_eq_true, if_false]
  rfl

theorem resolveAsDir_notDir {c : Ctx} (n : Nat) {info : Info} {dir : Str}
    (hi : targetPath info.path info.request.target = dir) (hd : c.fs.isDir dir = false) :
    resolveAsDir c (n + 1) info = .ret (.error .tag info) := by
  rw [resolveAsDir]
  simp only [getPath_eq, hi, hd, Bool.not_false, if_true]

/-- What is at a path, for a request. -/
def locStats (i : Info) : Loc → Stats
  | .got g => gotStats i.request g
  | .missing => .error .tag i
  | .broken e => .error e i

/-- The resolution of directories follows the specification, with enough fuel. -/
theorem dirOut_run {c : Ctx} (hc : c.Sound) {dir : Str} {r : Option Got}
    (h : DirOut c.opts c.fs (fun d r => c.load d = .ret r) dir r) : isAbs dir = true →
    ∃ N, ∀ n, N ≤ n → ∀ info : Info, targetPath info.path info.request.target = dir →
      c.fs.isDir dir = true → resolveAsDir c n info = .ret (dirStats dir info r) := by
  -- one main field
  have round : ∀ {pkg : Pkg} {dir v y : Str}, isAbs dir = true → c.load dir = .ret (.ok (some pkg)) →
      comps dir = comps pkg.absDir → v ≠ cs!"." → v ≠ cs!"./" →
      Swap c.opts (some pkg) (fieldPath dir v) (some y) → isAbs y = true ∧ ∃ N, ∀ n, N ≤ n →
        ∀ (info : Info) (f : Str) (rest : List Str) (cur : Info),
        (pkg.raw.get f).bind Json.asStr = some v → cur.path = dir →
        ∃ i : Info, targetPath i.path i.request.target = y ∧ i.path = dir ∧
          (∀ t, i.request.withTarget t = cur.request.withTarget t) ∧
          mainFieldLoop c n (resolveAsDir c n) pkg info (f :: rest) cur =
            ((resolveAsFile c i).andThen (resolveAsDir c n)).bind fun
            | .success r => .ret (.success r)
            | .resolving i => mainFieldLoop c n (resolveAsDir c n) pkg info rest i
            | .error _ i => mainFieldLoop c n (resolveAsDir c n) pkg info rest i := by
    intro pkg dir v y hd hl hown h1 h2 h
    have ha : isAbs (fieldPath dir v) = true := isAbs_pjoin_left _ hd
    cases h with
    | keep h =>
      refine ⟨ha, 0, fun n _ info f rest cur hv hcur => ⟨fieldInfo v cur, ?_, ?_,
        fieldInfo_request v cur, ?_⟩⟩
      · rw [fieldInfo_target h1, hcur]
      · rw [fieldInfo_path, hcur]
      · rw [mainFieldLoop_round hv h1 h2, aliasFieldPlugin_notCovered (fieldInfo_kind v cur).2
          (by rwa [fieldInfo_target h1, hcur])]
        simp only [Prog.ret_bind, Stats.andThen_resolving]
    | @instead p t hp h =>
      cases hp
      obtain ⟨N, hN⟩ := replaced_run_all hc hd hl ha h
      refine ⟨targetPath_abs (hc.abs dir pkg hd hl), N, fun n hn info f rest cur hv hcur =>
        ⟨⟨pkg.absDir, (fieldInfo v cur).request.withTarget t⟩, rfl, hc.own dir pkg hd hl hown, ?_, ?_⟩⟩
      · exact fieldInfo_request v cur
      · rw [mainFieldLoop_round hv h1 h2, hN n hn _ (fieldInfo_kind v cur).1 (fieldInfo_kind v cur).2
          (by rw [fieldInfo_target h1, hcur])]
        simp only [replaced, Prog.ret_bind, Stats.andThen_resolving]
  refine DirOut.rec
    (motive_1 := fun dir r _ => isAbs dir = true → ∃ N, ∀ n, N ≤ n → ∀ info : Info,
      targetPath info.path info.request.target = dir → c.fs.isDir dir = true →
      resolveAsDir c n info = .ret (dirStats dir info r))
    (motive_2 := fun pkg dir vs r _ => isAbs dir = true → c.load dir = .ret (.ok (some pkg)) →
      comps dir = comps pkg.absDir → ∃ N, ∀ n, N ≤ n → ∀ (info : Info) (fields : List Str)
      (cur : Info), fields.filterMap (fun f => (pkg.raw.get f).bind Json.asStr) = vs →
      cur.path = dir → mainFieldLoop c n (resolveAsDir c n) pkg info fields cur =
        .ret (filesStats info cur r))
    ?_ ?_ ?_ ?_ ?_ ?_ ?_ ?_ ?_ ?_ ?_ ?_ h
  · -- a main field decides
    intro dir g pkg hl hd _ ih ha
    obtain ⟨N, ih⟩ := ih ha hl hd
    refine ⟨N + 1, fun n hn info hi hdir => ?_⟩
    obtain ⟨n, rfl⟩ : ∃ k, n = k + 1 := ⟨n - 1, by omega⟩
    rw [resolveAsDir_step n hi hdir, hl]
    simp only [Prog.ret_bind, mainFieldPlugin]
    rw [if_neg (by simpa [pathEq, Info.withPath, Info.withTarget] using hd),
      ih n (by omega) _ _ _ rfl rfl]
    cases g <;> rfl
  · -- no package
    intro dir r hl hf ha
    obtain ⟨N, hN⟩ := filesOut_run hc ha hl hf
    refine ⟨N + 1, fun n hn info hi hdir => ?_⟩
    obtain ⟨n, rfl⟩ : ∃ k, n = k + 1 := ⟨n - 1, by omega⟩
    rw [resolveAsDir_step n hi hdir, hl]
    simp only [Prog.ret_bind, mainFieldPlugin, Stats.andThen_resolving, mainFilePlugin]
    rw [hN n (by omega) _ _ rfl]
    rcases r with _ | _ | _ <;> rfl
  · -- the package of another directory
    intro dir pkg r hl hd hf ha
    obtain ⟨N, hN⟩ := filesOut_run hc ha hl hf
    refine ⟨N + 1, fun n hn info hi hdir => ?_⟩
    obtain ⟨n, rfl⟩ : ∃ k, n = k + 1 := ⟨n - 1, by omega⟩
    rw [resolveAsDir_step n hi hdir, hl]
    simp only [Prog.ret_bind, mainFieldPlugin]
    rw [if_pos (by simpa [pathEq, Info.withPath, Info.withTarget] using hd)]
    simp only [Prog.ret_bind, Stats.andThen_resolving, mainFilePlugin]
    rw [hN n (by omega) _ _ rfl]
    rcases r with _ | _ | _ <;> rfl
  · -- no main field resolves
    intro dir pkg r hl hd _ hf ih ha
    obtain ⟨N, ih⟩ := ih ha hl hd
    obtain ⟨M, hM⟩ := filesOut_run hc ha hl hf
    refine ⟨N + M + 1, fun n hn info hi hdir => ?_⟩
    obtain ⟨n, rfl⟩ : ∃ k, n = k + 1 := ⟨n - 1, by omega⟩
    rw [resolveAsDir_step n hi hdir, hl]
    simp only [Prog.ret_bind, mainFieldPlugin]
    rw [if_neg (by simpa [pathEq, Info.withPath, Info.withTarget] using hd),
      ih n (by omega) _ _ _ rfl rfl]
    simp only [filesStats, Prog.ret_bind, Stats.andThen_resolving, mainFilePlugin]
    rw [hM n (by omega) _ _ rfl]
    rcases r with _ | _ | _ <;> rfl
  · -- no value left
    intro pkg dir _ _ _
    exact ⟨0, fun n _ info fields cur hf _ =>
      (mainFieldLoop_skip c n _ pkg info fields cur).1 hf⟩
  · -- the directory itself
    intro pkg dir v l hv _ _ _
    refine ⟨0, fun n _ info fields cur hf _ => ?_⟩
    obtain ⟨f, rest, h1, h2, h3⟩ := (mainFieldLoop_skip c n (resolveAsDir c n) pkg info fields cur).2
      v l hf
    rw [h3, mainFieldLoop, h1]
    simp only
    rw [if_pos (by simpa using hv)]
    rfl
  · -- to be ignored
    intro pkg dir v l hv1 hv2 hs ha hl hown
    cases hs with
    | @drop p hp h =>
      cases hp
      obtain ⟨N, hN⟩ := replaced_run_all (x := fieldPath dir v) hc ha hl (isAbs_pjoin_left _ ha) h
      refine ⟨N, fun n hn info fields cur hf hcur => ?_⟩
      obtain ⟨f, rest, h1, h2, h3⟩ :=
        (mainFieldLoop_skip c n (resolveAsDir c n) pkg info fields cur).2 v l hf
      rw [h3, mainFieldLoop_round h1 hv1 hv2, hN n hn _ (fieldInfo_kind v cur).1 (fieldInfo_kind v cur).2
        (by rw [fieldInfo_target hv1, hcur])]
      rfl
  · -- a file
    intro pkg dir v y p l hv1 hv2 hs hp ha hl hown
    obtain ⟨-, N, hN⟩ := round ha hl hown hv1 hv2 hs
    refine ⟨N, fun n hn info fields cur hf hcur => ?_⟩
    obtain ⟨f, rest, h1, h2, h3⟩ := (mainFieldLoop_skip c n (resolveAsDir c n) pkg info fields cur).2
      v l hf
    obtain ⟨i, h4, h5, h6, h7⟩ := hN n hn info f rest cur h1 hcur
    rw [h3, h7, resolveAsFile_first (p := p) (h4 ▸ hp)]
    simp only [filesStats, gotStats, ← h6]
    rfl
  · -- a directory
    intro pkg dir v y g l hv1 hv2 hs hp hd _ ih ha hl hown
    obtain ⟨hy, N, hN⟩ := round ha hl hown hv1 hv2 hs
    obtain ⟨M, hM⟩ := ih hy
    refine ⟨N + M, fun n hn info fields cur hf hcur => ?_⟩
    obtain ⟨f, rest, h1, h2, h3⟩ := (mainFieldLoop_skip c n (resolveAsDir c n) pkg info fields cur).2
      v l hf
    obtain ⟨i, h4, h5, h6, h7⟩ := hN n (by omega) info f rest cur h1 hcur
    rw [h3, h7, resolveAsFile_none (by rwa [h4])]
    simp only [Stats.andThen_resolving]
    rw [hM n (by omega) i h4 hd]
    simp only [dirStats, filesStats, gotStats_congr h6]
    cases g <;> rfl
  · -- nothing
    intro pkg dir v y l r hv1 hv2 hs hp hd _ ih ha hl hown
    obtain ⟨hy, N, hN⟩ := round ha hl hown hv1 hv2 hs
    obtain ⟨M, hM⟩ := ih ha hl hown
    refine ⟨N + M + 1, fun n hn info fields cur hf hcur => ?_⟩
    obtain ⟨n, rfl⟩ : ∃ k, n = k + 1 := ⟨n - 1, by omega⟩
    obtain ⟨f, rest, h1, h2, h3⟩ := (mainFieldLoop_skip c (n + 1) (resolveAsDir c (n + 1)) pkg info
      fields cur).2 v l hf
    obtain ⟨i, h4, h5, h6, h7⟩ := hN (n + 1) (by omega) info f rest cur h1 hcur
    rw [h3, h7, resolveAsFile_none (by rwa [h4])]
    simp only [Stats.andThen_resolving]
    rw [resolveAsDir_notDir n h4 hd]
    simp only [Prog.ret_bind]
    rw [hM (n + 1) (by omega) info rest _ h2 h5]
    cases r with
    | none => rfl
    | some g => exact congrArg _ (gotStats_congr h6 g)
  · -- a package that cannot be loaded
    intro pkg dir v y err l r hv1 hv2 hs hp hd hlo _ ih ha hl hown
    obtain ⟨hy, N, hN⟩ := round ha hl hown hv1 hv2 hs
    obtain ⟨M, hM⟩ := ih ha hl hown
    refine ⟨N + M + 1, fun n hn info fields cur hf hcur => ?_⟩
    obtain ⟨n, rfl⟩ : ∃ k, n = k + 1 := ⟨n - 1, by omega⟩
    obtain ⟨f, rest, h1, h2, h3⟩ := (mainFieldLoop_skip c (n + 1) (resolveAsDir c (n + 1)) pkg info
      fields cur).2 v l hf
    obtain ⟨i, h4, h5, h6, h7⟩ := hN (n + 1) (by omega) info f rest cur h1 hcur
    rw [h3, h7, resolveAsFile_none (by rwa [h4])]
    simp only [Stats.andThen_resolving]
    rw [resolveAsDir_step n h4 hd, hlo]
    simp only [Prog.ret_bind]
    rw [hM (n + 1) (by omega) info rest _ h2 h5]
    cases r with
    | none => rfl
    | some g => exact congrArg _ (gotStats_congr h6 g)
  · -- a directory that does not resolve
    intro pkg dir v y hv1 hv2 hs hp hd _ ih ha hl hown
    obtain ⟨hy, N, hN⟩ := round ha hl hown hv1 hv2 hs
    obtain ⟨M, hM⟩ := ih hy
    refine ⟨N + M, fun n hn info fields cur hf hcur => ?_⟩
    obtain ⟨f, rest, h1, h2, h3⟩ := (mainFieldLoop_skip c n (resolveAsDir c n) pkg info fields cur).2
      v [] hf
    obtain ⟨i, h4, h5, h6, h7⟩ := hN n (by omega) info f rest cur h1 hcur
    rw [h3, h7, resolveAsFile_none (by rwa [h4])]
    simp only [Stats.andThen_resolving]
    rw [hM n (by omega) i h4 hd]
    simp only [dirStats, Prog.ret_bind]
    exact (mainFieldLoop_skip c n _ pkg info rest _).1 h2

/-- What is at a path is found, with enough fuel. -/
theorem atPath_run {c : Ctx} (hc : c.Sound) {y : Str} {r : Loc} (hy : isAbs y = true)
    (h : AtPath c.opts c.fs (fun d r => c.load d = .ret r) y r) :
    ∃ N, ∀ n, N ≤ n → ∀ i : Info, targetPath i.path i.request.target = y →
      ((resolveAsFile c i).andThen fun i => resolveAsDir c n i) = .ret (locStats i r) := by
  cases h with
  | @file p h =>
    refine ⟨0, fun n _ i hi => ?_⟩
    rw [resolveAsFile_first (p := p) (by rwa [hi])]
    rfl
  | @dir g hf hd h =>
    obtain ⟨N, hN⟩ := dirOut_run hc h hy
    refine ⟨N, fun n hn i hi => ?_⟩
    rw [resolveAsFile_none (by rwa [hi]), Stats.andThen_resolving, hN n hn i hi hd]
    rfl
  | missing hf hd =>
    refine ⟨1, fun n hn i hi => ?_⟩
    obtain ⟨n, rfl⟩ : ∃ k, n = k + 1 := ⟨n - 1, by omega⟩
    rw [resolveAsFile_none (by rwa [hi]), Stats.andThen_resolving, resolveAsDir_notDir n hi hd]
    rfl
  | @broken e hf hd hl =>
    refine ⟨1, fun n hn i hi => ?_⟩
    obtain ⟨n, rfl⟩ : ∃ k, n = k + 1 := ⟨n - 1, by omega⟩
    rw [resolveAsFile_none (by rwa [hi]), Stats.andThen_resolving, resolveAsDir_step n hi hd, hl]
    rfl

end Verif
