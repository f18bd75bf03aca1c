import Verif.Proofs.Live
import Verif.Model.Locks
/-!
# Where calls keep guards
-/

namespace Verif.Live

/-- The operations allowed while a guard is kept. -/
def quickOp : Op → Bool
  | .getFile _ | .dbgDel _ | .seed => true
  | _ => false

/-- Whether a guard is kept after an operation. -/
def keptAfter (held : Bool) : (o : Op) → o.Ret → Bool
  | .getPkg _, r => (r : Option (Option Pkg)).isSome
  | _, _ => held

/-- The operation whose guard is kept. -/
def keepsGuard : Op → Bool
  | .getPkg _ => true
  | _ => false

/-- A call that keeps a guard (`held`) or none performs only quick operations while it keeps one, does not
drop guards it has not, does not crash with one, and returns with one or without (`out`). -/
def Disc {α : Type} (out : Bool) : Live α → Bool → Prop
  | .ret _, held => held = out
  | .crash _, held => held = false
  | .ask q k, held => (q = .release → held = true) ∧ ∀ r, (k r).Disc out (if q = .release then false else held)
  | .op o k, held => (held = true → quickOp o = true) ∧ ∀ r, (k r).Disc out (keptAfter held o r)

section
variable {α β : Type}

theorem Disc.bind {mid out held : Bool} {p : Live α} {f : α → Live β} (h : p.Disc mid held)
    (hf : ∀ a, (f a).Disc out mid) : (p.bind f).Disc out held := by
  induction p generalizing held with
  | ret a => cases h; exact hf a
  | crash c => exact h
  | ask q k ih => exact ⟨h.1, fun r => ih r (h.2 r)⟩
  | op o k ih => exact ⟨h.1, fun r => ih r (h.2 r)⟩

/-- A call that keeps no guard before or after. -/
def Clean (p : Live α) : Prop := p.Disc false false

theorem clean_ret (a : α) : Clean (.ret a) := rfl
theorem clean_crash (c : Crash) : Clean (.crash c : Live α) := rfl
theorem clean_panic (s : Site) : Clean (panic s : Live α) := rfl

theorem Clean.bind {p : Live α} {f : α → Live β} (h : Clean p) (hf : ∀ a, Clean (f a)) : Clean (p.bind f) :=
  Disc.bind h hf

theorem clean_ask {q : Query} (hq : q ≠ .release) {k : q.Ret → Live α} (h : ∀ r, Clean (k r)) :
    Clean (.ask q k) := by
  refine ⟨fun e => absurd e hq, fun r => ?_⟩
  rw [if_neg hq]
  exact h r

theorem clean_op {o : Op} {k : o.Ret → Live α} (h : ∀ r, Clean (k r)) (ho : keepsGuard o = false := by rfl) :
    Clean (.op o k) := by
  refine ⟨nofun, fun r => ?_⟩
  have : keptAfter false o r = false := by
    cases o with
    | getPkg d => cases ho
    | _ => rfl
  rw [this]
  exact h r

theorem clean_isFile (p : Str) : Clean (isFile p) := clean_ask (q := .isFile p) nofun fun _ => rfl
theorem clean_isDir (p : Str) : Clean (isDir p) := clean_ask (q := .isDir p) nofun fun _ => rfl
theorem clean_exists (p : Str) : Clean (pathExists p) := clean_ask (q := .pathExists p) nofun fun _ => rfl
theorem clean_canon (p : Str) : Clean (canon p) := clean_ask (q := .canon p) nofun fun _ => rfl

theorem clean_andThen {s : Stats} {f : Info → Live Stats} (h : ∀ i, Clean (f i)) : Clean (andThen s f) := by
  cases s with
  | resolving i => exact h i
  | success r => rfl
  | error e i => rfl

/-- Walk through a tree. -/
macro "tidy_step" : tactic => `(tactic| first
  | with_reducible exact clean_ret _
  | with_reducible exact clean_crash _
  | with_reducible exact clean_panic _
  | with_reducible assumption
  | with_reducible exact clean_isFile _
  | with_reducible exact clean_isDir _
  | with_reducible exact clean_exists _
  | with_reducible exact clean_canon _
  | with_reducible apply Clean.bind
  | with_reducible apply clean_andThen
  | with_reducible intro _
  | split)

macro "tidy" : tactic => `(tactic| repeat' tidy_step)

theorem clean_findUp (file : Str) (n : Nat) (dir : Str) : Clean (findUp file n dir) := by
  induction n generalizing dir with
  | zero => rfl
  | succ n ih => unfold findUp; tidy; exact ih _

theorem disc_needUpdate (h : Host) (path : Str) : (needUpdate h path).Disc true true := by
  unfold needUpdate
  refine Disc.bind (mid := true) ⟨nofun, fun _ => rfl⟩ fun b => ?_
  cases b with
  | false => rfl
  | true =>
    refine ⟨fun _ => rfl, fun r => ?_⟩
    cases r with
    | none => rfl
    | some t =>
      refine ⟨nofun, fun m => ?_⟩
      cases m with
      | none => rfl
      | some m => dsimp only; split <;> rfl

theorem clean_readToString (path : Str) : Clean (readToString path) := by
  refine clean_ask (q := .read path) nofun fun r => ?_
  cases r with
  | none => rfl
  | some doc =>
    refine clean_ask (q := .mtime path) nofun fun m => ?_
    cases m with
    | none => rfl
    | some m => exact clean_op fun _ => rfl

theorem lift_bind (p : Prog α) (f : α → Prog β) : lift (p.bind f) = (lift p).bind fun a => lift (f a) := by
  induction p with
  | ret a => rfl
  | crash c => rfl
  | op o k ih =>
    show Live.op o (fun r => lift ((k r).bind f)) = Live.op o (fun r => (lift (k r)).bind fun a => lift (f a))
    congr 1
    funext r
    exact ih r

theorem clean_lift_ret (a : α) : Clean (lift (.ret a)) := rfl
theorem clean_lift_panic (s : Site) : Clean (lift (Prog.panic s : Prog α)) := rfl

theorem clean_lift_op {o : Op} {k : o.Ret → Prog α} (h : ∀ r, Clean (lift (k r)))
    (ho : keepsGuard o = false := by rfl) : Clean (lift (.op o k)) := clean_op h ho

theorem clean_exportsTree (e : Env) (json : Json) : Clean (lift (exportsTreeOf e json)) := by
  unfold exportsTreeOf
  split
  · rfl
  · refine clean_lift_op fun r => ?_
    split
    · rfl
    · split
      · rfl
      · rfl
      · exact clean_lift_op fun _ => rfl

theorem clean_importsTree (e : Env) (json : Json) : Clean (lift (importsTreeOf e json)) := by
  unfold importsTreeOf
  split
  · rfl
  · refine clean_lift_op fun r => ?_
    split
    · rfl
    · split
      · rfl
      · rfl
      · exact clean_lift_op fun _ => rfl

theorem clean_contents (h : Host) (dir path : Str) (doc : Doc) :
    Clean (lift (parseContents h dir path doc)) := by
  unfold parseContents
  dsimp only
  split
  · rfl
  · refine clean_lift_op fun seed => ?_
    split
    · rfl
    · rw [lift_bind]
      refine (clean_exportsTree _ _).bind fun r => ?_
      split
      · rfl
      · rw [lift_bind]
        refine (clean_importsTree _ _).bind fun r => ?_
        split
        · rfl
        · split <;> rfl

theorem clean_parse (h : Host) (dir path : Str) : Clean (parseDescription h dir path) := by
  unfold parseDescription dbgGuard
  have hk : Clean ((readToString path).bind fun
      | .error _ => .ret (.error (.openFailed path))
      | .ok doc => lift (parseContents h dir path doc)) := by
    refine (clean_readToString _).bind fun r => ?_
    split
    · rfl
    · exact clean_contents _ _ _ _
  split
  · refine clean_op fun r => ?_
    split
    · rfl
    · exact clean_op fun _ => hk
  · exact hk

theorem clean_cacheNone (n : Nat) (path : Str) : Clean (cacheNone n path) := by
  induction n generalizing path with
  | zero => rfl
  | succ n ih =>
    unfold cacheNone
    refine (clean_isDir _).bind fun b => ?_
    split
    · refine clean_op fun _ => ?_
      split
      · exact ih _
      · rfl
    · exact ih _

theorem clean_parseAndStore (h : Host) (dir path : Str) : Clean (parseAndStore h dir path) := by
  unfold parseAndStore
  refine (clean_parse _ _ _).bind fun r => ?_
  split
  · rfl
  · exact clean_op fun _ => rfl

theorem disc_release {out : Bool} {p : Live α} (h : p.Disc out false) :
    (Live.ask .release fun _ => p).Disc out true := ⟨fun _ => rfl, fun _ => h⟩

theorem clean_loadAux (h : Host) (n : Nat) (path : Str) : Clean (loadPkgAux h n path) := by
  induction n generalizing path with
  | zero => rfl
  | succ n ih =>
    unfold loadPkgAux
    split
    · rfl
    · refine (clean_isDir _).bind fun b => ?_
      split
      · split
        · exact ih _
        · rfl
      · refine ⟨nofun, fun r => ?_⟩
        cases r with
        | some cached =>
          refine Disc.bind (disc_needUpdate h _) fun u => ?_
          split
          · exact disc_release rfl
          · exact disc_release rfl
          · split
            · exact ⟨fun _ => rfl, fun _ => disc_release (clean_parseAndStore _ _ _)⟩
            · exact disc_release (clean_parseAndStore _ _ _)
        | none =>
          refine (clean_isFile _).bind fun b => ?_
          split
          · refine (clean_findUp _ _ _).bind fun r => ?_
            split
            · exact ih _
            · exact clean_cacheNone _ _
          · exact clean_parseAndStore _ _ _

theorem clean_load (h : Host) (path : Str) : Clean (loadPkg h path) := clean_loadAux _ _ _

theorem clean_sideEffects (h : Host) (path : Str) : Clean (loadSideEffects h path) := by
  unfold loadSideEffects
  have := clean_load h path
  tidy

theorem clean_extensionsLoop (path : Str) (info : Info) (l : List Str) : Clean (extensionsLoop path info l) := by
  induction l with
  | nil => rfl
  | cons ext l ih => unfold extensionsLoop; tidy

theorem clean_asFile (h : Host) (info : Info) : Clean (resolveAsFile h info) := by
  unfold resolveAsFile
  dsimp only
  have := clean_extensionsLoop info.getPath info h.opts.extensions
  tidy

theorem clean_exportsRequest (pkg : Pkg) (info : Info) : Clean (exportsRequestOf pkg info) := by
  unfold exportsRequestOf
  dsimp only
  tidy

theorem clean_exportsPick (dir : Str) (l : List Str) : Clean (exportsPick dir l) := by
  induction l with
  | nil => rfl
  | cons x l ih => unfold exportsPick; tidy

theorem clean_exports (h : Host) (pkg : Option Pkg) (info : Info) : Clean (exportsPlugin h pkg info) := by
  unfold exportsPlugin
  have h1 := clean_exportsRequest
  have h2 := clean_exportsPick
  tidy
  all_goals first
    | exact h1 _ _
    | exact h2 _ _

theorem clean_aliasField (h : Host) (n : Nat) (pkg : Option Pkg) (info : Info) :
    Clean (aliasFieldPlugin h n pkg info) := by
  unfold aliasFieldPlugin Verif.aliasFieldPlugin
  repeat' split
  all_goals rfl

theorem clean_check (info : Info) (t : Str) : Clean (importsCheck info t) := by
  unfold importsCheck
  tidy

theorem clean_imports (h : Host) (n : Nat) (pkg : Option Pkg) (info : Info) :
    Clean (importsPlugin h n pkg info) := by
  induction n generalizing pkg info with
  | zero => rfl
  | succ n ih =>
    unfold importsPlugin
    dsimp only
    tidy
    all_goals first
      | exact ih _ _
      | exact clean_load _ _
      | exact clean_exports _ _ _
      | exact clean_aliasField _ _ _ _
      | exact clean_check _ _

theorem clean_mainFile (h : Host) (n : Nat) (pkg : Option Pkg) (info : Info) (l : List Str) (cur : Info) :
    Clean (mainFileLoop h n pkg info l cur) := by
  induction l generalizing cur with
  | nil => rfl
  | cons f l ih =>
    unfold mainFileLoop
    dsimp only
    tidy
    all_goals first
      | exact ih _
      | exact clean_exports _ _ _
      | exact clean_imports _ _ _ _
      | exact clean_aliasField _ _ _ _
      | exact clean_asFile _ _

theorem clean_mainField (h : Host) (n : Nat) {asDir : Info → Live Stats} (hd : ∀ i, Clean (asDir i))
    (pkg : Pkg) (info : Info) (l : List Str) (cur : Info) :
    Clean (mainFieldLoop h n asDir pkg info l cur) := by
  induction l generalizing cur with
  | nil => rfl
  | cons f l ih =>
    unfold mainFieldLoop
    dsimp only
    tidy
    all_goals first
      | exact ih _
      | exact hd _
      | exact clean_aliasField _ _ _ _
      | exact clean_asFile _ _

theorem clean_mainFieldPlugin (h : Host) (n : Nat) {asDir : Info → Live Stats} (hd : ∀ i, Clean (asDir i))
    (pkg : Option Pkg) (info : Info) : Clean (mainFieldPlugin h n asDir pkg info) := by
  unfold mainFieldPlugin
  tidy
  exact clean_mainField _ _ hd _ _ _ _

theorem clean_asDir (h : Host) (n : Nat) (info : Info) : Clean (resolveAsDir h n info) := by
  induction n generalizing info with
  | zero => rfl
  | succ n ih =>
    unfold resolveAsDir
    dsimp only
    tidy
    all_goals first
      | exact clean_load _ _
      | exact clean_mainFieldPlugin _ _ ih _ _
      | exact clean_mainFile _ _ _ _ _ _

theorem clean_chain (h : Host) (n : Nat) (pkg : Option Pkg) (info : Info) :
    Clean (modulePackageChain h n pkg info) := by
  unfold modulePackageChain
  dsimp only
  tidy
  all_goals first
    | exact clean_exports _ _ _
    | exact clean_imports _ _ _ _
    | exact clean_aliasField _ _ _ _
    | exact clean_asFile _ _
    | exact clean_asDir _ _ _

theorem clean_moduleStep (h : Host) (n : Nat) (info : Info) : Clean (moduleStep h n info) := by
  unfold moduleStep
  dsimp only
  tidy
  all_goals first
    | exact clean_load _ _
    | exact clean_asFile _ _
    | exact clean_chain _ _ _ _

theorem clean_modules (h : Host) (n : Nat) (info : Info) : Clean (resolveAsModules h n info) := by
  induction n generalizing info with
  | zero => rfl
  | succ n ih =>
    unfold resolveAsModules
    tidy
    all_goals first
      | exact ih _
      | exact clean_moduleStep _ _ _

theorem clean_aliasLoop {rec : Info → Live Stats} (hr : ∀ i, Clean (rec i)) (info : Info)
    (l : List (Str × AliasMap)) : Clean (aliasLoop rec info l) := by
  induction l with
  | nil => rfl
  | cons x l ih =>
    unfold aliasLoop
    dsimp only
    tidy
    exact hr _

theorem clean_inner (h : Host) (n : Nat) (info : Info) : Clean (resolveInner h n info) := by
  induction n generalizing info with
  | zero => rfl
  | succ n ih =>
    unfold resolveInner aliasPlugin preferRelativePlugin pkgStage lastStage
    dsimp only
    tidy
    all_goals first
      | exact ih _
      | exact clean_aliasLoop ih _ _
      | exact clean_load _ _
      | exact clean_imports _ _ _ _
      | exact clean_aliasField _ _ _ _
      | exact clean_asFile _ _
      | exact clean_asDir _ _ _
      | exact clean_modules _ _ _

theorem clean_tsValue (h : Host) (n : Nat) (location : Str) : Clean (tsValue h n location) := by
  induction n generalizing location with
  | zero => rfl
  | succ n ih =>
    unfold tsValue
    refine clean_ask (q := .read location) nofun fun r => ?_
    tidy
    all_goals first
      | exact ih _
      | exact clean_inner _ _ _

theorem clean_tsPathsTry {rec : Info → Live Stats} (hr : ∀ i, Clean (rec i)) (star : Str)
    {next : Live Stats} (hn : Clean next) (l : List Str) : Clean (tsPathsTry rec star next l) := by
  induction l with
  | nil => exact hn
  | cons x l ih => unfold tsPathsTry; tidy; exact hr _

theorem clean_tsEntries {rec : Info → Live Stats} (hr : ∀ i, Clean (rec i)) (info : Info)
    (l : List (Str × List Str)) : Clean (tsEntries rec info l) := by
  induction l with
  | nil => exact hr _
  | cons x l ih =>
    unfold tsEntries
    dsimp only
    tidy
    all_goals exact clean_tsPathsTry hr _ ih _

theorem clean_tsconfig (h : Host) (n : Nat) (info : Info) (location : Str) :
    Clean (resolveWithTsconfig h n info location) := by
  unfold resolveWithTsconfig
  refine (clean_tsValue _ _ _).bind fun r => ?_
  split
  · rfl
  · split
    · rfl
    · split
      · rfl
      · exact clean_op fun _ => clean_tsEntries (clean_inner h n) _ _

theorem clean_resolve (h : Host) (n : Nat) (path request : Str) : Clean (resolve h n path request) := by
  unfold resolve resolveStats normalizeResult normalizePath
  dsimp only
  tidy
  all_goals first
    | exact clean_tsconfig _ _ _ _
    | exact clean_inner _ _ _

theorem clean_prog (h : Host) (n : Nat) (c : Call) : Clean (Live.prog h n c) := by
  cases c with
  | resolve path request => exact (clean_resolve _ _ _ _).bind fun _ => rfl
  | sideEffects path => exact (clean_sideEffects _ _).bind fun _ => rfl

end
end Verif.Live
