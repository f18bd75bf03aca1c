import Verif.Proofs.Repeated
import Verif.Model.LiveMachine
/-!
# Options that differ only in what says nothing, with files that change at any moment
-/

namespace Verif.Live

/-- `h` with other aliases, condition names and `enforce_extension`. -/
def Host.other (h : Host) (l : List (Str × AliasMap)) (names : List Str) (en : Option Bool) : Host :=
  { h with opts := { h.opts with alias := l, conditionNames := names, enforceExtension := en } }

variable {h : Host} {l : List (Str × AliasMap)} {names : List Str} {en : Option Bool}

theorem parseAndStore_other : parseAndStore (h.other l names en) = parseAndStore h := by
  funext p d
  have h1 : exportsTreeOf ((h.other l names en).env noFs) = exportsTreeOf (h.env noFs) := by
    funext j; unfold exportsTreeOf; split; · rfl
    · dsimp only [Host.other, Host.env]; congr 1; funext r; cases r with
      | some t => rfl
      | none => dsimp only
  have h2 : importsTreeOf ((h.other l names en).env noFs) = importsTreeOf (h.env noFs) := by
    funext j; unfold importsTreeOf; split; · rfl
    · dsimp only [Host.other, Host.env]; congr 1; funext r; cases r with
      | some t => rfl
      | none => dsimp only
  have h3 : ∀ α k, dbgGuard (α := α) (h.other l names en) d k = dbgGuard h d k := fun _ _ => rfl
  have h4 : ∀ doc, parseContents (h.other l names en) p d doc = parseContents h p d doc := by
    intro doc
    unfold parseContents
    simp only [h1, h2]
  unfold parseAndStore parseDescription
  simp only [h3, h4]

theorem loadPkg_other : loadPkg (h.other l names en) = loadPkg h := by
  have : ∀ n, loadPkgAux (h.other l names en) n = loadPkgAux h n := by
    intro n
    induction n with
    | zero => rfl
    | succ n ih =>
      funext p
      simp only [loadPkgAux, ih, parseAndStore_other]
      rfl
  funext p
  simp only [loadPkg, this]
  rfl

theorem exportsPlugin_other (hc : ∀ k, names.contains k = h.opts.conditionNames.contains k) :
    exportsPlugin (h.other l names en) = exportsPlugin h := by
  funext p i
  have := fun root t => fieldProcess_names hc .exports root t
  simp only [exportsPlugin, Host.other, this]

theorem aliasFieldPlugin_other : aliasFieldPlugin (h.other l names en) = aliasFieldPlugin h := by
  funext n p i
  simp only [aliasFieldPlugin, Verif.aliasFieldPlugin, Host.other]
  rfl

theorem importsPlugin_other (hc : ∀ k, names.contains k = h.opts.conditionNames.contains k) :
    importsPlugin (h.other l names en) = importsPlugin h := by
  have h1 : ∀ root t, fieldProcess .imports root t (h.other l names en).opts.conditionNames =
      fieldProcess .imports root t h.opts.conditionNames := fun root t => fieldProcess_names hc .imports root t
  funext n
  induction n with
  | zero => rfl
  | succ n ih =>
    funext p i
    simp only [importsPlugin, h1, loadPkg_other, exportsPlugin_other hc, aliasFieldPlugin_other, ih]

theorem resolveAsFile_other (he : en.getD false = h.opts.enforceExtension.getD false) :
    resolveAsFile (h.other l names en) = resolveAsFile h := by
  funext i
  simp only [resolveAsFile, Host.other, he]

theorem mainFileLoop_other (he : en.getD false = h.opts.enforceExtension.getD false)
    (hc : ∀ k, names.contains k = h.opts.conditionNames.contains k) :
    mainFileLoop (h.other l names en) = mainFileLoop h := by
  funext n p i l
  induction l with
  | nil => rfl
  | cons x l ih =>
    funext cur
    simp only [mainFileLoop, exportsPlugin_other hc, importsPlugin_other hc, aliasFieldPlugin_other,
      resolveAsFile_other he, ih]

theorem mainFieldLoop_other (he : en.getD false = h.opts.enforceExtension.getD false) : mainFieldLoop (h.other l names en) = mainFieldLoop h := by
  funext n asDir p i l
  induction l with
  | nil => rfl
  | cons x l ih =>
    funext cur
    simp only [mainFieldLoop, aliasFieldPlugin_other, resolveAsFile_other he, ih]

theorem resolveAsDir_other (he : en.getD false = h.opts.enforceExtension.getD false)
    (hc : ∀ k, names.contains k = h.opts.conditionNames.contains k) :
    resolveAsDir (h.other l names en) = resolveAsDir h := by
  funext n
  induction n with
  | zero => rfl
  | succ n ih =>
    funext i
    simp only [resolveAsDir, mainFieldPlugin, loadPkg_other, mainFieldLoop_other he, mainFileLoop_other he hc, ih]
    rfl

theorem resolveAsModules_other (he : en.getD false = h.opts.enforceExtension.getD false)
    (hc : ∀ k, names.contains k = h.opts.conditionNames.contains k) :
    resolveAsModules (h.other l names en) = resolveAsModules h := by
  funext n
  induction n with
  | zero => rfl
  | succ n ih =>
    funext i
    simp only [resolveAsModules, moduleStep, modulePackageChain, loadPkg_other, exportsPlugin_other hc,
      importsPlugin_other hc, aliasFieldPlugin_other, resolveAsFile_other he, resolveAsDir_other he hc, ih]

theorem aliasLoop_applying (rec : Info → Live Stats) (info : Info) (l : List (Str × AliasMap)) :
    aliasLoop rec info l = aliasLoop rec info (applying l info.request.target) := by
  induction l with
  | nil => rfl
  | cons kv l ih =>
    obtain ⟨k, v⟩ := kv
    unfold applying at ih ⊢
    by_cases h : k <+: info.request.target
    · rw [List.filter_cons_of_pos (by simpa using h)]
      unfold aliasLoop
      rw [ih]
    · rw [List.filter_cons_of_neg (by simpa using h)]
      conv => lhs; unfold aliasLoop
      dsimp only
      rw [if_neg (by rw [startsWith_iff]; exact h)]
      exact ih

theorem resolveInner_other (he : en.getD false = h.opts.enforceExtension.getD false)
    (ha : ∀ t, applying l t = applying h.opts.alias t)
    (hc : ∀ k, names.contains k = h.opts.conditionNames.contains k) :
    resolveInner (h.other l names en) = resolveInner h := by
  have h1 : ∀ rec info, aliasPlugin (h.other l names en) rec info = aliasPlugin h rec info := by
    intro rec info
    unfold aliasPlugin
    rw [aliasLoop_applying, aliasLoop_applying (l := h.opts.alias), ← ha]
    rfl
  have h2 : preferRelativePlugin (h.other l names en) = preferRelativePlugin h := rfl
  have h3 : pkgStage (h.other l names en) = pkgStage h := by
    funext n i
    simp only [pkgStage, loadPkg_other, importsPlugin_other hc, aliasFieldPlugin_other]
  have h4 : lastStage (h.other l names en) = lastStage h := by
    funext n i
    simp only [lastStage, resolveAsFile_other he, resolveAsDir_other he hc, resolveAsModules_other he hc]
  funext n
  induction n with
  | zero => rfl
  | succ n ih =>
    funext i
    simp only [resolveInner, h1, h2, h3, h4, ih]

theorem prog_other (he : en.getD false = h.opts.enforceExtension.getD false)
    (ha : ∀ t, applying l t = applying h.opts.alias t)
    (hc : ∀ k, names.contains k = h.opts.conditionNames.contains k) :
    Live.prog (h.other l names en) = Live.prog h := by
  have h1 : tsValue (h.other l names en) = tsValue h := by
    funext n
    induction n with
    | zero => rfl
    | succ n ih =>
      funext loc
      simp only [tsValue, resolveInner_other he ha hc, ih]
  funext n call
  cases call with
  | sideEffects p =>
    simp only [Live.prog, loadSideEffects, loadPkg_other]
    rfl
  | resolve p r =>
    simp only [Live.prog, resolve, resolveStats, resolveWithTsconfig, h1, resolveInner_other he ha hc]
    rfl

theorem sys_same {cfg cfg' : Nat → Config} {ser : Json → Str} (hcache : ∀ rid, (cfg' rid).cache = (cfg rid).cache)
    (hp : ∀ rid n, Live.prog (host (cfg' rid) ser n) = Live.prog (host (cfg rid) ser n)) (s : Sys) (l : List Event) :
    s.after cfg' ser l = s.after cfg ser l := by
  have hn : Sys.next cfg' ser = Sys.next cfg ser := by
    funext s e
    cases e with
    | start rid call fuel => simp only [Sys.next, hp]
    | change fs => rfl
    | step i seed => simp only [Sys.next, Shared.view, Shared.store, hcache]
  unfold Sys.after
  rw [hn]

end Verif.Live
