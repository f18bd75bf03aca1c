import Verif.Spec.Live
import Verif.Proofs.LoadFuel
/-!
# Files that stand still

If every look at a file is answered by one file system, the trees of `Verif.Model.Live` are those of
the other modules.
-/

namespace Verif

namespace Live

variable {fs : Fs} {h : Host}

theorem freeze_bind {α β : Type} (p : Live α) (f : α → Live β) :
    (p.bind f).freeze fs = (p.freeze fs).bind fun a => (f a).freeze fs := by
  induction p with
  | ret a => rfl
  | crash c => rfl
  | ask q k ih => exact ih _
  | op o k ih =>
    show Prog.op o _ = Prog.op o _
    congr 1
    funext r
    exact ih r

theorem freeze_lift {α : Type} (p : Prog α) : (lift p).freeze fs = p := by
  induction p with
  | ret a => rfl
  | crash c => rfl
  | op o k ih =>
    show Prog.op o _ = Prog.op o _
    congr 1
    funext r
    exact ih r

theorem freeze_isFile {β : Type} (p : Str) (f : Bool → Live β) :
    ((isFile p).bind f).freeze fs = (f (fs.isFile p)).freeze fs := rfl

theorem freeze_isDir {β : Type} (p : Str) (f : Bool → Live β) :
    ((isDir p).bind f).freeze fs = (f (fs.isDir p)).freeze fs := rfl

theorem freeze_exists {β : Type} (p : Str) (f : Bool → Live β) :
    ((pathExists p).bind f).freeze fs = (f (fs.pathExists p)).freeze fs := rfl

theorem freeze_canon {β : Type} (p : Str) (f : Option Str → Live β) :
    ((canon p).bind f).freeze fs = (f (fs.canon p)).freeze fs := rfl

theorem findUp_freeze (file : Str) (n : Nat) (dir : Str) :
    (findUp file n dir).freeze fs = .ret (Verif.findUp fs file n dir) := by
  induction n generalizing dir with
  | zero => rfl
  | succ n ih =>
    rw [findUp, Verif.findUp, freeze_isFile]
    split
    · rfl
    · cases pparent dir with
      | none => rfl
      | some parent => exact ih parent

theorem needUpdate_freeze (path : Str) :
    (needUpdate h path).freeze fs = Verif.needUpdate (h.env fs) path := by
  rw [needUpdate, Verif.needUpdate, freeze_isFile]
  show _ = if !fs.isFile path then _ else _
  split
  · rfl
  · show Prog.op _ _ = Prog.op _ _
    congr 1
    funext r
    cases r with
    | none => rfl
    | some stored =>
      show Live.freeze fs (Live.ask _ _) = _
      simp only [Live.freeze, Query.answer, Host.env]
      cases fs.mtime path with
      | none => rfl
      | some now =>
        show Live.freeze fs (if now < stored then _ else _) = if now < stored then _ else _
        split <;> rfl

theorem readToString_freeze (path : Str) :
    (readToString path).freeze fs = Verif.readToString (h.env fs) path := by
  simp only [readToString, Verif.readToString, Live.freeze, Query.answer, Host.env]
  cases fs.read path with
  | none => rfl
  | some doc =>
    simp only [Live.freeze, Query.answer]
    cases fs.mtime path <;> rfl

theorem dbgGuard_freeze {α : Type} (path : Str) (k : Live α) :
    (dbgGuard h path k).freeze fs = Verif.dbgGuard (h.env fs) path (k.freeze fs) := by
  unfold dbgGuard Verif.dbgGuard
  show _ = if h.debug then _ else _
  split
  · show Prog.op _ _ = Prog.op _ _
    congr 1
    funext r
    cases r <;> rfl
  · rfl

theorem exportsTreeOf_env (fs : Fs) (json : Json) :
    exportsTreeOf (h.env fs) json = exportsTreeOf (h.env noFs) json := by
  unfold exportsTreeOf
  cases json.get cs!"exports" with
  | none => rfl
  | some value =>
    dsimp only [Host.env]
    congr 1
    funext r
    cases r <;> rfl

theorem importsTreeOf_env (fs : Fs) (json : Json) :
    importsTreeOf (h.env fs) json = importsTreeOf (h.env noFs) json := by
  unfold importsTreeOf
  cases json.get cs!"imports" with
  | none => rfl
  | some value =>
    dsimp only [Host.env]
    congr 1
    funext r
    cases r <;> rfl

theorem parseDescription_freeze (dir path : Str) :
    (parseDescription h dir path).freeze fs = Verif.parseDescription (h.env fs) dir path := by
  unfold parseDescription Verif.parseDescription
  rw [dbgGuard_freeze, freeze_bind, readToString_freeze (h := h)]
  congr 2
  funext r
  cases r with
  | error e => rfl
  | ok doc =>
    show Live.freeze fs (lift _) = _
    rw [freeze_lift]
    unfold parseContents
    dsimp only
    cases doc.json with
    | none => rfl
    | some json =>
      dsimp only
      congr 1
      funext seed
      cases browserFields json with
      | none => rfl
      | some l =>
        dsimp only
        rw [exportsTreeOf_env fs, importsTreeOf_env fs]
        rfl

theorem parseAndStore_freeze (path desc : Str) :
    (parseAndStore h path desc).freeze fs = Verif.parseAndStore (h.env fs) path desc := by
  unfold parseAndStore Verif.parseAndStore
  rw [freeze_bind, parseDescription_freeze]
  congr 1
  funext r
  cases r <;> rfl

theorem cacheNone_freeze {n m : Nat} {path : Str} (hn : path.length < n) (hm : path.length < m) :
    (cacheNone n path).freeze fs = Verif.cacheNone fs m path := by
  induction n generalizing m path with
  | zero => omega
  | succ n ih =>
    cases m with
    | zero => omega
    | succ m =>
      rw [cacheNone, Verif.cacheNone, freeze_isDir]
      split
      · show Prog.op _ _ = Prog.op _ _
        congr 1
        funext r
        cases hp : pparent path with
        | none => rfl
        | some parent =>
          have := pparent_length hp
          exact ih (by omega) (by omega)
      · rename_i hd
        clear ih hn
        induction n with
        | zero => rfl
        | succ n ih2 =>
          rw [cacheNone, freeze_isDir, if_neg hd]
          exact ih2

theorem loadPkgAux_freeze {n m : Nat} {path : Str} (hn : path.length < n) (hm : path.length < m) :
    (loadPkgAux h n path).freeze fs = Verif.loadPkgAux (h.env fs) m path := by
  induction n generalizing m path with
  | zero => omega
  | succ n ih =>
    cases m with
    | zero => omega
    | succ m =>
      rw [loadPkgAux, Verif.loadPkgAux]
      show Live.freeze fs (match h.opts.descriptionFile with | none => _ | some desc => _) =
        match h.opts.descriptionFile with | none => _ | some desc => _
      cases h.opts.descriptionFile with
      | none => rfl
      | some desc =>
        dsimp only
        rw [freeze_isDir]
        show _ = if !fs.isDir path then _ else _
        split
        · cases hp : pparent path with
          | none => rfl
          | some dir =>
            have := pparent_length hp
            exact ih (by omega) (by omega)
        · show Prog.op _ _ = Prog.op _ _
          congr 1
          funext r
          cases r with
          | some cached =>
            show Live.freeze fs ((needUpdate h _).bind _) = _
            rw [freeze_bind, needUpdate_freeze]
            show _ = (Verif.needUpdate _ _).bind _
            congr 1
            funext r
            cases r with
            | error e => rfl
            | ok b =>
              cases b with
              | false => rfl
              | true =>
                show Live.freeze fs (if h.debug then _ else _) = if h.debug then _ else _
                split
                · show Prog.op _ _ = Prog.op _ _
                  congr 1
                  funext r
                  exact parseAndStore_freeze _ _
                · exact parseAndStore_freeze _ _
          | none =>
            show Live.freeze fs ((isFile _).bind _) = if !fs.isFile _ then _ else _
            rw [freeze_isFile]
            split
            · rename_i hf
              rw [freeze_bind, findUp_freeze]
              show Live.freeze fs (match Verif.findUp fs desc (path.length + 1) path with
                | some dir => _ | none => _) = match Verif.findUp fs desc (path.length + 1) path with
                | some dir => _ | none => _
              cases hu : Verif.findUp fs desc (path.length + 1) path with
              | none => exact cacheNone_freeze (by omega) (by omega)
              | some dir =>
                have : dir.length < path.length := by
                  rw [Verif.findUp, if_neg (by simpa using hf)] at hu
                  cases hp : pparent path with
                  | none => rw [hp] at hu; cases hu
                  | some parent =>
                    rw [hp] at hu
                    have h1 := pparent_length hp
                    obtain ⟨-, h2, -⟩ := findUp_above hu
                    omega
                exact ih (by omega) (by omega)
            · exact parseAndStore_freeze _ _

theorem loadPkg_freeze (path : Str) : (loadPkg h path).freeze fs = Verif.loadPkg (h.env fs) path :=
  loadPkgAux_freeze (by omega) (by omega)

theorem sideEffects_freeze (path : Str) :
    (loadSideEffects h path).freeze fs = Verif.loadSideEffects (h.env fs) path := by
  unfold loadSideEffects Verif.loadSideEffects
  rw [freeze_bind, loadPkg_freeze]
  congr 1
  funext r
  rcases r with e | (_ | pkg)
  · rfl
  · rfl
  · show Live.freeze fs (match h.opts.descriptionFile with | none => _ | some desc => _) =
      match h.opts.descriptionFile with | none => _ | some desc => _
    cases h.opts.descriptionFile <;> rfl

theorem andThen_freeze (s : Stats) {f : Info → Live Stats} {g : Info → Prog Stats}
    (hfg : ∀ i, (f i).freeze fs = g i) : (andThen s f).freeze fs = s.andThen g := by
  cases s with
  | resolving i => exact hfg i
  | success r => rfl
  | error e i => rfl

/-- Two sequences agree if their parts do. -/
theorem bind_freeze {α β : Type} {p : Live α} {q : Prog α} {f : α → Live β} {g : α → Prog β}
    (h1 : p.freeze fs = q) (h2 : ∀ a, (f a).freeze fs = g a) : (p.bind f).freeze fs = q.bind g := by
  rw [freeze_bind, h1]
  congr 1
  funext a
  exact h2 a

theorem extensions_freeze (path : Str) (info : Info) :
    (extensionsLoop path info h.opts.extensions).freeze fs =
      .ret (extensionsPlugin (h.env fs).ctx path info) := by
  unfold extensionsPlugin
  show _ = Prog.ret (match h.opts.extensions.find? fun ext => fs.isFile (appendExt path ext) with
    | some ext => _ | none => _)
  induction h.opts.extensions with
  | nil => rfl
  | cons ext l ih =>
    rw [extensionsLoop, freeze_isFile, List.find?_cons]
    cases fs.isFile (appendExt path ext) with
    | true => rfl
    | false => exact ih

theorem resolveAsFile_freeze (info : Info) :
    (resolveAsFile h info).freeze fs = .ret (Verif.resolveAsFile (h.env fs).ctx info) := by
  unfold resolveAsFile Verif.resolveAsFile
  show _ = Prog.ret (if (!(h.opts.enforceExtension.getD false) && fs.isFile info.getPath) = true then _ else _)
  cases h.opts.enforceExtension.getD false with
  | true => exact extensions_freeze _ _
  | false =>
    simp only [Bool.false_eq_true, if_false, Bool.not_false, Bool.true_and]
    rw [freeze_isFile]
    split
    · rfl
    · exact extensions_freeze _ _

theorem exportsRequestOf_freeze (pkg : Pkg) (info : Info) :
    (exportsRequestOf pkg info).freeze fs = Verif.exportsRequestOf (h.env fs).ctx pkg info := by
  unfold exportsRequestOf Verif.exportsRequestOf
  dsimp only
  split
  · rename_i h1
    simp only [h1]
    rfl
  · rename_i chars h1
    simp only [h1]
    cases splitFirst '/' chars with
    | some ab =>
      dsimp only
      split <;> rfl
    | none =>
      rw [freeze_exists]
      by_cases hb : (fs.pathExists (pjoin info.path info.request.target) ||
          decide (pkg.name = some info.request.target)) = true
      · have hb' : ((h.env fs).ctx.fs.pathExists (pjoin info.path info.request.target) ||
          decide (pkg.name = some info.request.target)) = true := hb
        rw [if_pos hb, if_pos hb']
        dsimp only [Live.freeze]
        split <;> rfl
      · have hb' : ¬((h.env fs).ctx.fs.pathExists (pjoin info.path info.request.target) ||
          decide (pkg.name = some info.request.target)) = true := hb
        rw [if_neg hb, if_neg hb']
        rfl

theorem exportsPick_freeze (absDir : Str) (l : List Str) :
    (exportsPick absDir l).freeze fs = .ret (Verif.exportsPick (h.env fs).ctx absDir l) := by
  induction l with
  | nil => rfl
  | cons item l ih =>
    rw [exportsPick, Verif.exportsPick, freeze_isFile]
    show _ = Prog.ret (if (fs.isFile _ && _) = true then _ else _)
    split
    · rfl
    · exact ih

theorem exportsPlugin_freeze (pkg : Option Pkg) (info : Info) :
    (exportsPlugin h pkg info).freeze fs = Verif.exportsPlugin (h.env fs).ctx pkg info := by
  unfold exportsPlugin Verif.exportsPlugin
  cases pkg with
  | none => rfl
  | some pkg =>
    dsimp only
    split
    · rfl
    · split
      · rfl
      · cases pkg.exportsTree with
        | none => rfl
        | some root =>
          refine bind_freeze (exportsRequestOf_freeze pkg info) fun r => ?_
          cases r with
          | none => rfl
          | some remaining =>
            show Live.freeze fs (match fieldProcess .exports root remaining h.opts.conditionNames with
                | none => _ | some (.error err) => _ | some (.ok list) => _) =
              match fieldProcess .exports root remaining h.opts.conditionNames with
                | none => _ | some (.error err) => _ | some (.ok list) => _
            rcases fieldProcess .exports root remaining h.opts.conditionNames with _ | (e | list)
            · rfl
            · rfl
            · dsimp only
              rw [freeze_bind, exportsPick_freeze (h := h)]
              show Live.freeze fs (match Verif.exportsPick (h.env fs).ctx pkg.absDir list with
                | some i => _ | none => _) = _
              cases Verif.exportsPick (h.env fs).ctx pkg.absDir list <;> rfl

theorem aliasField_freeze (fuel : Nat) (pkg : Option Pkg) (info : Info) :
    (aliasFieldPlugin h fuel pkg info).freeze fs = Verif.aliasFieldPlugin (h.env fs).ctx fuel pkg info := by
  unfold aliasFieldPlugin
  rw [freeze_lift]
  simp only [Verif.aliasFieldPlugin, Env.ctx, Host.env]
  rfl

theorem importsCheck_freeze (info : Info) (target : Str) :
    (importsCheck info target).freeze fs = .ret (Verif.importsCheck (h.env fs).ctx info target) := by
  unfold importsCheck Verif.importsCheck
  rw [freeze_isFile]
  show _ = Prog.ret (if (fs.isFile _ && _) = true then _ else _)
  split <;> rfl

theorem importsPlugin_freeze (n : Nat) (pkg : Option Pkg) (info : Info) :
    (importsPlugin h n pkg info).freeze fs = Verif.importsPlugin (h.env fs).ctx n pkg info := by
  induction n generalizing pkg info with
  | zero => rfl
  | succ n ih =>
    cases pkg with
    | none => rfl
    | some pkg =>
      rw [importsPlugin, Verif.importsPlugin]
      dsimp only
      split
      · rfl
      · cases pkg.importsTree with
        | none => rfl
        | some root =>
          show Live.freeze fs (match fieldProcess .imports root info.request.target h.opts.conditionNames with
                | none => _ | some (.error err) => _ | some (.ok []) => _ | some (.ok (item :: l)) => _) =
              match fieldProcess .imports root info.request.target h.opts.conditionNames with
                | none => _ | some (.error err) => _ | some (.ok []) => _ | some (.ok (item :: l)) => _
          rcases fieldProcess .imports root info.request.target h.opts.conditionNames with
            _ | (e | (_ | ⟨item, list⟩))
          · rfl
          · rfl
          · rfl
          · dsimp only
            split
            · refine bind_freeze (loadPkg_freeze _) fun r => ?_
              cases r with
              | error e => rfl
              | ok pkg' =>
                show Live.freeze fs (if outsideModule pkg' = true then _ else _) =
                  if outsideModule pkg' = true then _ else _
                split
                · rfl
                · exact bind_freeze (exportsPlugin_freeze _ _) fun s =>
                    bind_freeze (andThen_freeze s fun i => ih _ _) fun s =>
                    bind_freeze (andThen_freeze s fun i => aliasField_freeze _ _ _) fun s =>
                    andThen_freeze s fun i => importsCheck_freeze _ _
            · split
              · exact ih _ _
              · exact importsCheck_freeze _ _

theorem mainFileLoop_freeze (fuel : Nat) (pkg : Option Pkg) (info : Info) (l : List Str) (cur : Info) :
    (mainFileLoop h fuel pkg info l cur).freeze fs =
      Verif.mainFileLoop (h.env fs).ctx fuel pkg info l cur := by
  induction l generalizing cur with
  | nil => rfl
  | cons f l ih =>
    rw [mainFileLoop, Verif.mainFileLoop]
    refine bind_freeze (bind_freeze (exportsPlugin_freeze _ _) fun s =>
      bind_freeze (andThen_freeze s fun i => importsPlugin_freeze _ _ _) fun s =>
      bind_freeze (andThen_freeze s fun i => aliasField_freeze _ _ _) fun s =>
      andThen_freeze s fun i => resolveAsFile_freeze _) fun s => ?_
    cases s with
    | success r => rfl
    | resolving i => exact ih i
    | error e i => exact ih i

theorem mainFieldLoop_freeze (fuel : Nat) {asDir : Info → Live Stats} {asDir' : Info → Prog Stats}
    (hd : ∀ i, (asDir i).freeze fs = asDir' i) (pkg : Pkg) (info : Info) (l : List Str) (cur : Info) :
    (mainFieldLoop h fuel asDir pkg info l cur).freeze fs =
      Verif.mainFieldLoop (h.env fs).ctx fuel asDir' pkg info l cur := by
  induction l generalizing cur with
  | nil => rfl
  | cons f l ih =>
    rw [mainFieldLoop, Verif.mainFieldLoop]
    cases (pkg.raw.get f).bind Json.asStr with
    | none => exact ih cur
    | some v =>
      dsimp only
      split
      · rfl
      · refine bind_freeze (bind_freeze (aliasField_freeze _ _ _) fun s =>
          bind_freeze (andThen_freeze s fun i => resolveAsFile_freeze _) fun s =>
          andThen_freeze s hd) fun s => ?_
        cases s with
        | success r => rfl
        | resolving i => exact ih i
        | error e i => exact ih i

theorem mainFieldPlugin_freeze (fuel : Nat) {asDir : Info → Live Stats} {asDir' : Info → Prog Stats}
    (hd : ∀ i, (asDir i).freeze fs = asDir' i) (pkg : Option Pkg) (info : Info) :
    (mainFieldPlugin h fuel asDir pkg info).freeze fs =
      Verif.mainFieldPlugin (h.env fs).ctx fuel asDir' pkg info := by
  unfold mainFieldPlugin Verif.mainFieldPlugin
  cases pkg with
  | none => rfl
  | some pkg =>
    dsimp only
    split
    · rfl
    · exact mainFieldLoop_freeze fuel hd _ _ _ _

theorem resolveAsDir_freeze (n : Nat) (info : Info) :
    (resolveAsDir h n info).freeze fs = Verif.resolveAsDir (h.env fs).ctx n info := by
  induction n generalizing info with
  | zero => rfl
  | succ n ih =>
    rw [resolveAsDir, Verif.resolveAsDir, freeze_isDir]
    show _ = if (!fs.isDir _) = true then _ else _
    split
    · rfl
    · refine bind_freeze (loadPkg_freeze _) fun r => ?_
      cases r with
      | error e => rfl
      | ok pkg =>
        exact bind_freeze (mainFieldPlugin_freeze n ih _ _) fun s =>
          andThen_freeze s fun i => mainFileLoop_freeze _ _ _ _ _

theorem chain_freeze (fuel : Nat) (pkg : Option Pkg) (info : Info) :
    (modulePackageChain h fuel pkg info).freeze fs =
      Verif.modulePackageChain (h.env fs).ctx fuel pkg info :=
  bind_freeze (exportsPlugin_freeze _ _) fun s =>
    bind_freeze (andThen_freeze s fun i => importsPlugin_freeze _ _ _) fun s =>
    bind_freeze (andThen_freeze s fun i => aliasField_freeze _ _ _) fun s =>
    bind_freeze (andThen_freeze s fun i => resolveAsFile_freeze _) fun s =>
    andThen_freeze s fun i => resolveAsDir_freeze _ _

theorem moduleStep_freeze (fuel : Nat) (info : Info) :
    (moduleStep h fuel info).freeze fs = Verif.moduleStep (h.env fs).ctx fuel info := by
  unfold moduleStep Verif.moduleStep
  dsimp only
  rw [freeze_isDir]
  show _ = if (!fs.isDir _) = true then _ else _
  split
  · rfl
  · cases moduleName info.request.target with
    | none => rfl
    | some name =>
      refine bind_freeze (loadPkg_freeze _) fun r => ?_
      cases r with
      | error e => rfl
      | ok pkg =>
        dsimp only
        rw [freeze_isDir]
        show _ = if (!fs.isDir _ && _) = true then _ else _
        split
        · rw [freeze_bind, resolveAsFile_freeze]
          show Live.freeze fs (match Verif.resolveAsFile (h.env fs).ctx _ with | .success r => _ | _ => _) = _
          cases Verif.resolveAsFile (h.env fs).ctx ⟨pjoin info.path MODULE, info.request⟩ <;> rfl
        · refine bind_freeze (chain_freeze _ _ _) fun s => ?_
          cases s with
          | success r => rfl
          | resolving i => rfl
          | error e i =>
            show Live.freeze fs (if e.isTag = true then _ else _) = if e.isTag = true then _ else _
            split <;> rfl

theorem modules_freeze (n : Nat) (info : Info) :
    (resolveAsModules h n info).freeze fs = Verif.resolveAsModules (h.env fs).ctx n info := by
  induction n generalizing info with
  | zero => rfl
  | succ n ih =>
    rw [resolveAsModules, Verif.resolveAsModules]
    refine bind_freeze (moduleStep_freeze n info) fun sb => ?_
    rcases sb with ⟨s, _ | _⟩
    · refine bind_freeze (andThen_freeze s fun i => ?_) fun s => ?_
      · cases pparent info.path with
        | none => rfl
        | some parent => exact ih _
      · cases s <;> rfl
    · rfl

theorem aliasLoop_freeze {rec : Info → Live Stats} {rec' : Info → Prog Stats}
    (hr : ∀ i, (rec i).freeze fs = rec' i) (info : Info) (l : List (Str × AliasMap)) :
    (aliasLoop rec info l).freeze fs = Verif.aliasLoop rec' info l := by
  induction l with
  | nil => rfl
  | cons kv l ih =>
    obtain ⟨k, v⟩ := kv
    cases v with
    | ignored =>
      rw [aliasLoop, Verif.aliasLoop]
      split
      · rfl
      · exact ih
    | target to =>
      rw [aliasLoop, Verif.aliasLoop]
      split
      · split
        · exact ih
        · refine bind_freeze (hr _) fun s => ?_
          cases s with
          | success r => rfl
          | resolving i => exact ih
          | error e i => exact ih
      · exact ih

theorem aliasPlugin_freeze {rec : Info → Live Stats} {rec' : Info → Prog Stats}
    (hr : ∀ i, (rec i).freeze fs = rec' i) (info : Info) :
    (aliasPlugin h rec info).freeze fs = Verif.aliasPlugin (h.env fs).ctx rec' info := by
  unfold aliasPlugin Verif.aliasPlugin
  split
  · rfl
  · exact aliasLoop_freeze hr _ _

theorem prefer_freeze {rec : Info → Live Stats} {rec' : Info → Prog Stats}
    (hr : ∀ i, (rec i).freeze fs = rec' i) (info : Info) :
    (preferRelativePlugin h rec info).freeze fs = Verif.preferRelativePlugin (h.env fs).ctx rec' info := by
  unfold preferRelativePlugin Verif.preferRelativePlugin
  split
  · rfl
  · show Live.freeze fs (if h.opts.preferRelative = true then _ else _) =
      if h.opts.preferRelative = true then _ else _
    split
    · refine bind_freeze (hr _) fun s => ?_
      cases s <;> rfl
    · rfl

theorem pkgStage_freeze (fuel : Nat) (info : Info) :
    (pkgStage h fuel info).freeze fs = Verif.pkgStage (h.env fs).ctx fuel info := by
  refine bind_freeze (loadPkg_freeze _) fun r => ?_
  cases r with
  | error e => rfl
  | ok pkg =>
    exact bind_freeze (importsPlugin_freeze _ _ _) fun s => andThen_freeze s fun i => aliasField_freeze _ _ _

theorem lastStage_freeze (fuel : Nat) (info : Info) :
    (lastStage h fuel info).freeze fs = Verif.lastStage (h.env fs).ctx fuel info := by
  have file : ((resolveAsFile h info).bind fun s => andThen s fun i => resolveAsDir h fuel i).freeze fs =
      (Verif.resolveAsFile (h.env fs).ctx info).andThen fun i => Verif.resolveAsDir (h.env fs).ctx fuel i :=
    bind_freeze (resolveAsFile_freeze info) fun s => andThen_freeze s fun i => resolveAsDir_freeze _ _
  unfold lastStage Verif.lastStage
  cases info.request.kind with
  | relative => exact file
  | absoluteWin => exact file
  | absolutePosix => exact file
  | internal => exact modules_freeze _ _
  | normal => exact modules_freeze _ _

theorem resolveInner_freeze (n : Nat) (info : Info) :
    (resolveInner h n info).freeze fs = Verif.resolveInner (h.env fs).ctx n info := by
  induction n generalizing info with
  | zero => rfl
  | succ n ih =>
    rw [resolveInner, Verif.resolveInner]
    refine bind_freeze (bind_freeze (aliasPlugin_freeze ih info) fun s =>
      bind_freeze (andThen_freeze s fun i => prefer_freeze ih i) fun s =>
      bind_freeze (andThen_freeze s fun i => pkgStage_freeze _ _) fun s =>
      andThen_freeze s fun i => lastStage_freeze _ _) fun s => ?_
    cases s <;> rfl

theorem tsValue_freeze (n : Nat) (location : Str) :
    (tsValue h n location).freeze fs = Verif.tsValue (h.env fs).ctx n location := by
  induction n generalizing location with
  | zero => rfl
  | succ n ih =>
    rw [tsValue, Verif.tsValue]
    simp only [Live.freeze, Query.answer]
    show _ = match fs.read location with | none => _ | some doc => _
    cases fs.read location with
    | none => rfl
    | some doc =>
      dsimp only
      rcases doc.jsonc with msg | (_ | json)
      · rfl
      · rfl
      · dsimp only
        split
        · rename_i s hs
          simp only [hs]
          cases pparent location with
          | none => rfl
          | some dir =>
            refine bind_freeze (resolveInner_freeze _ _) fun st => ?_
            rcases st with (i | _) | i | ⟨e, i⟩
            · refine bind_freeze (ih _) fun r => ?_
              cases r <;> rfl
            · rfl
            · rfl
            · rfl
        · rename_i hs
          split
          · rename_i hs'
            exact absurd hs' (hs _)
          · rfl

theorem tsPathsTry_freeze {rec : Info → Live Stats} {rec' : Info → Prog Stats}
    (hr : ∀ i, (rec i).freeze fs = rec' i) (star : Str) {next : Live Stats} {next' : Prog Stats}
    (hn : next.freeze fs = next') (l : List Str) :
    (tsPathsTry rec star next l).freeze fs = Verif.tsPathsTry rec' star next' l := by
  induction l with
  | nil => exact hn
  | cons p l ih =>
    rw [tsPathsTry, Verif.tsPathsTry]
    refine bind_freeze (hr _) fun s => ?_
    cases s with
    | success r => rfl
    | resolving i => exact ih
    | error e i => exact ih

theorem tsEntries_freeze {rec : Info → Live Stats} {rec' : Info → Prog Stats}
    (hr : ∀ i, (rec i).freeze fs = rec' i) (info : Info) (l : List (Str × List Str)) :
    (tsEntries rec info l).freeze fs = Verif.tsEntries rec' info l := by
  induction l with
  | nil => exact hr info
  | cons kv l ih =>
    obtain ⟨k, v⟩ := kv
    rw [tsEntries, Verif.tsEntries]
    generalize (if k = info.request.target then some (some []) else matchStar k info.request.target) = x
    rcases x with _ | (_ | s)
    · rfl
    · exact ih
    · exact tsPathsTry_freeze hr s ih v

theorem withTsconfig_freeze (fuel : Nat) (info : Info) (location : Str) :
    (resolveWithTsconfig h fuel info location).freeze fs =
      Verif.resolveWithTsconfig (h.env fs).ctx fuel info location := by
  refine bind_freeze (tsValue_freeze _ _) fun r => ?_
  cases r with
  | error e => rfl
  | ok json =>
    dsimp only
    cases tsInfoOf json with
    | none => rfl
    | some ts =>
      dsimp only
      cases createMatchList location ts with
      | none => rfl
      | some entries =>
        show Prog.op _ _ = Prog.op _ _
        congr 1
        funext r
        exact tsEntries_freeze (resolveInner_freeze fuel) _ _

theorem normalizeResult_freeze (r : Result) :
    (normalizeResult h r).freeze fs = Verif.normalizeResult (h.env fs).ctx r := by
  unfold normalizeResult Verif.normalizeResult
  cases r with
  | ignored => rfl
  | info info =>
    dsimp only
    show Live.freeze fs (if (h.debug && _) = true then _ else _) = if (h.debug && _) = true then _ else _
    split
    · rfl
    · unfold normalizePath Verif.normalizePath
      by_cases hs : h.opts.symlinks = true
      · have hs' : (h.env fs).ctx.opts.symlinks = true := hs
        rw [if_pos hs, if_pos hs', freeze_bind, freeze_canon]
        have hc : (h.env fs).ctx.fs.canon info.path = fs.canon info.path := rfl
        rw [hc]
        cases fs.canon info.path <;> rfl
      · have hs' : ¬(h.env fs).ctx.opts.symlinks = true := hs
        rw [if_neg hs, if_neg hs']
        rfl

/-- On files that stand still, `resolve` of `Verif.Model.Live` is `resolve` of `Verif.Model.Tsconfig`. -/
theorem resolve_freeze (fuel : Nat) (path request : Str) :
    (resolve h fuel path request).freeze fs = Verif.resolve (h.env fs) fuel path request := by
  unfold resolve Verif.resolve resolveCtx
  refine bind_freeze ?_ fun s => ?_
  · unfold resolveStats Verif.resolveStats
    show Live.freeze fs (match h.opts.tsconfig with | some l => _ | none => _) =
      match h.opts.tsconfig with | some l => _ | none => _
    cases h.opts.tsconfig with
    | none => exact resolveInner_freeze _ _
    | some location => exact withTsconfig_freeze _ _ _
  · cases s with
    | success r => exact normalizeResult_freeze r
    | resolving i => rfl
    | error e i => rfl

end Live
end Verif
