import Verif.Model.Machine
/-!
# What the stages of resolution depend on

Two contexts that agree on the observations and options used by a stage have the same stage.
-/

namespace Verif

theorem condScan_names {names names' : List Str} (h : ∀ k, names.contains k = names'.contains k)
    (m : List (Str × MV)) (len i : Nat) (l : List Str) :
    condScan m len names i l = condScan m len names' i l := by
  induction l generalizing i with
  | nil => rfl
  | cons c l ih => simp only [condScan, h, ih]

theorem condMapping_names {names names' : List Str} (h : ∀ k, names.contains k = names'.contains k)
    (m : List (Str × MV)) : condMapping m names = condMapping m names' := by
  unfold condMapping
  generalize [(m, m.map (·.1), 0)] = stack
  generalize 2 * condSize m + 2 = n
  induction n generalizing stack with
  | zero => rfl
  | succ n ih =>
    cases stack with
    | nil => rfl
    | cons e stack =>
      obtain ⟨m, keys, j⟩ := e
      simp only [condLoop, condScan_names h, ih]

/-- Only membership in the condition names matters. -/
theorem mapping_names {names names' : List Str} (h : ∀ k, names.contains k = names'.contains k)
    (k : FieldKind) (remaining : Option Str) (sub : Bool) (n : Nat) :
    (∀ v, mapping k remaining sub names n v = mapping k remaining sub names' n v) ∧
    ∀ l, mappingArr k remaining sub names n l = mappingArr k remaining sub names' n l := by
  induction n with
  | zero => exact ⟨fun _ => rfl, fun _ => rfl⟩
  | succ n ih =>
    constructor
    · intro v
      cases v with
      | direct t => rfl
      | arr l => exact ih.2 l
      | cond m => simp only [mapping, condMapping_names h, ih.1]
    · intro l
      cases l with
      | nil => rfl
      | cons v l => simp only [mappingArr, ih.1, ih.2]

theorem fieldProcess_names {names names' : List Str} (h : ∀ k, names.contains k = names'.contains k)
    (k : FieldKind) (root : Node) (t : Str) :
    fieldProcess k root t names = fieldProcess k root t names' := by
  simp only [fieldProcess, (mapping_names h k _ _ _).1]

/-- Agreement on everything but alias, prefer_relative, symlinks, tsconfig, description_file,
and the contents and times of files. -/
structure Ctx.Agree (c c' : Ctx) : Prop where
  isFile : c.fs.isFile = c'.fs.isFile
  isDir : c.fs.isDir = c'.fs.isDir
  pathExists : c.fs.pathExists = c'.fs.pathExists
  load : c.load = c'.load
  extensions : c.opts.extensions = c'.opts.extensions
  enforce : c.opts.enforceExtension.getD false = c'.opts.enforceExtension.getD false
  mainFiles : c.opts.mainFiles = c'.opts.mainFiles
  mainFields : c.opts.mainFields = c'.opts.mainFields
  browser : c.opts.browserField = c'.opts.browserField
  conditions : ∀ k, c.opts.conditionNames.contains k = c'.opts.conditionNames.contains k

variable {c c' : Ctx}

theorem Ctx.Agree.fields (h : c.Agree c') (k : FieldKind) (root : Node) (t : Str) :
    fieldProcess k root t c.opts.conditionNames = fieldProcess k root t c'.opts.conditionNames :=
  fieldProcess_names h.conditions k root t

theorem Ctx.Agree.file (h : c.Agree c') : resolveAsFile c = resolveAsFile c' := by
  funext i
  simp only [resolveAsFile, extensionsPlugin, h.isFile, h.enforce, h.extensions]

theorem Ctx.Agree.pick (h : c.Agree c') : exportsPick c = exportsPick c' := by
  funext d l
  induction l with
  | nil => rfl
  | cons x l ih => simp only [exportsPick, h.isFile, ih]

theorem Ctx.Agree.exports (h : c.Agree c') : exportsPlugin c = exportsPlugin c' := by
  funext p i
  simp only [exportsPlugin, exportsRequestOf, h.pathExists, h.fields, h.pick]

theorem Ctx.Agree.aliasField (h : c.Agree c') : aliasFieldPlugin c = aliasFieldPlugin c' := by
  funext n p i
  simp only [aliasFieldPlugin, aliasMatches, aliasPathMatches, h.browser, h.extensions]

theorem Ctx.Agree.imports (h : c.Agree c') : importsPlugin c = importsPlugin c' := by
  funext n
  induction n with
  | zero => rfl
  | succ n ih =>
    funext p i
    simp only [importsPlugin, importsCheck, h.isFile, h.fields, h.load, h.exports,
      h.aliasField, ih]

theorem Ctx.Agree.mainFileLoop (h : c.Agree c') :
    Verif.mainFileLoop c = Verif.mainFileLoop c' := by
  funext n p i l
  induction l with
  | nil => rfl
  | cons x l ih =>
    funext cur
    simp only [Verif.mainFileLoop, h.exports, h.imports, h.aliasField, h.file, ih]

theorem Ctx.Agree.mainFieldLoop (h : c.Agree c') :
    Verif.mainFieldLoop c = Verif.mainFieldLoop c' := by
  funext n asDir p i l
  induction l with
  | nil => rfl
  | cons x l ih =>
    funext cur
    simp only [Verif.mainFieldLoop, h.aliasField, h.file, ih]

theorem Ctx.Agree.dir (h : c.Agree c') : resolveAsDir c = resolveAsDir c' := by
  funext n
  induction n with
  | zero => rfl
  | succ n ih =>
    funext i
    simp only [resolveAsDir, mainFieldPlugin, mainFilePlugin, h.isDir, h.load, h.mainFields,
      h.mainFiles, h.mainFieldLoop, h.mainFileLoop, ih]

theorem Ctx.Agree.moduleStep (h : c.Agree c') : Verif.moduleStep c = Verif.moduleStep c' := by
  funext n i
  simp only [Verif.moduleStep, modulePackageChain, h.isDir, h.load, h.exports, h.imports,
    h.aliasField, h.file, h.dir]

theorem Ctx.Agree.modules (h : c.Agree c') : resolveAsModules c = resolveAsModules c' := by
  funext n
  induction n with
  | zero => rfl
  | succ n ih =>
    funext i
    simp only [resolveAsModules, h.moduleStep, ih]

theorem Ctx.Agree.pkgStage (h : c.Agree c') : Verif.pkgStage c = Verif.pkgStage c' := by
  funext n i
  simp only [Verif.pkgStage, h.load, h.imports, h.aliasField]

theorem Ctx.Agree.lastStage (h : c.Agree c') : Verif.lastStage c = Verif.lastStage c' := by
  funext n i
  simp only [Verif.lastStage, h.file, h.dir, h.modules]

theorem Ctx.Agree.inner (h : c.Agree c') (ha : c.opts.alias = c'.opts.alias)
    (hp : c.opts.preferRelative = c'.opts.preferRelative) : resolveInner c = resolveInner c' := by
  funext n
  induction n with
  | zero => rfl
  | succ n ih =>
    funext i
    simp only [resolveInner, aliasPlugin, preferRelativePlugin, ha, hp, h.pkgStage, h.lastStage, ih]

theorem Ctx.Agree.tsValue (h : c.Agree c') (ha : c.opts.alias = c'.opts.alias)
    (hp : c.opts.preferRelative = c'.opts.preferRelative)
    (hr : ∀ p, (c.fs.read p).map Doc.jsonc = (c'.fs.read p).map Doc.jsonc) :
    Verif.tsValue c = Verif.tsValue c' := by
  funext n
  induction n with
  | zero => rfl
  | succ n ih =>
    funext l
    have hrl := hr l
    simp only [Verif.tsValue, h.inner ha hp, ih]
    cases h1 : c.fs.read l with
    | none =>
      rw [h1] at hrl
      cases h2 : c'.fs.read l with
      | none => rfl
      | some d => rw [h2] at hrl; cases hrl
    | some d =>
      rw [h1] at hrl
      cases h2 : c'.fs.read l with
      | none => rw [h2] at hrl; cases hrl
      | some d' =>
        rw [h2] at hrl
        simp only [Option.map_some, Option.some.injEq] at hrl
        simp only [hrl]

theorem Ctx.Agree.stats (h : c.Agree c') (ha : c.opts.alias = c'.opts.alias)
    (hp : c.opts.preferRelative = c'.opts.preferRelative) (ht : c.opts.tsconfig = c'.opts.tsconfig)
    (hr : c.opts.tsconfig.isSome → ∀ p, (c.fs.read p).map Doc.jsonc = (c'.fs.read p).map Doc.jsonc) :
    resolveStats c = resolveStats c' := by
  funext n p r
  unfold resolveStats
  simp only
  rw [← ht]
  cases hts : c.opts.tsconfig with
  | none => simp only; rw [h.inner ha hp]
  | some l =>
    rw [hts] at hr
    simp only [resolveWithTsconfig, h.inner ha hp, h.tsValue ha hp (hr rfl)]

/-- The loader depends on the options only through `description_file`. -/
theorem loadPkg_opts (e : Env) (o : Opts) (h : o.descriptionFile = e.opts.descriptionFile) :
    loadPkg { e with opts := o } = loadPkg e := by
  have hn : needUpdate { e with opts := o } = needUpdate e := rfl
  have hs : ∀ p d, parseAndStore { e with opts := o } p d = parseAndStore e p d := by
    intro p d
    have h1 : exportsTreeOf { e with opts := o } = exportsTreeOf e := by
      funext j; unfold exportsTreeOf; split; · rfl
      · dsimp only; congr 1; funext r; cases r with
        | some t => rfl
        | none => dsimp only
    have h2 : importsTreeOf { e with opts := o } = importsTreeOf e := by
      funext j; unfold importsTreeOf; split; · rfl
      · dsimp only; congr 1; funext r; cases r with
        | some t => rfl
        | none => dsimp only
    have h3 : readToString { e with opts := o } = readToString e := by
      funext j; unfold readToString; rfl
    unfold parseAndStore parseDescription dbgGuard
    simp only [h1, h2, h3]
  have key : ∀ n p, loadPkgAux { e with opts := o } n p = loadPkgAux e n p := by
    intro n
    induction n with
    | zero => intro p; rfl
    | succ n ih =>
      intro p
      unfold loadPkgAux
      simp only [h, ih, hn, hs]
  funext p
  exact key _ p

/-- Without a description file name nothing is loaded. -/
theorem loadPkg_none (e : Env) (h : e.opts.descriptionFile = none) (p : Str) :
    loadPkg e p = .ret (.ok none) := by
  unfold loadPkg loadPkgAux
  rw [h]

end Verif
