import Verif.Proofs.LiveSuccess
import Verif.Spec.Reads
/-!
# Which files a call looks at
-/

namespace Verif.Live

/-- If looks at files are answered by `A` and operations by `R`, every look is one of `Q` and
every operation one of `O`. -/
def Looks {α : Type} (A : (q : Query) → q.Ret → Prop) (R : (o : Op) → o.Ret → Prop) (Q : Query → Prop)
    (O : Op → Prop) : Live α → Prop
  | .ret _ => True
  | .crash _ => True
  | .ask q k => Q q ∧ ∀ r, A q r → (k r).Looks A R Q O
  | .op o k => O o ∧ ∀ r, R o r → (k r).Looks A R Q O

/-- A look that reads no file and canonicalises no path. -/
def _root_.Verif.Query.mild : Query → Prop
  | .read _ => False
  | .mtime _ => False
  | .canon _ => False
  | _ => True

/-- An operation that stores neither a package nor a time. -/
def _root_.Verif.Op.mild : Op → Prop
  | .putPkg _ _ => False
  | .putFile _ _ => False
  | _ => True

section
variable {α β : Type} {A : (q : Query) → q.Ret → Prop} {R : (o : Op) → o.Ret → Prop}
  {Q : Query → Prop} {O : Op → Prop} {h : Host}

theorem Looks.bind' {p : Live α} {f : α → Live β} (hp : p.Looks A R Q O)
    (hf : ∀ a, Ends A R p (.done a) → (f a).Looks A R Q O) : (p.bind f).Looks A R Q O := by
  induction p with
  | ret a => exact hf a (.ret a)
  | crash c => trivial
  | ask q k ih => exact ⟨hp.1, fun r hr => ih r (hp.2 r hr) fun a ha => hf a (.ask r hr ha)⟩
  | op o k ih => exact ⟨hp.1, fun r hr => ih r (hp.2 r hr) fun a ha => hf a (.op r hr ha)⟩

theorem Looks.bind {p : Live α} {f : α → Live β} (hp : p.Looks A R Q O)
    (hf : ∀ a, (f a).Looks A R Q O) : (p.bind f).Looks A R Q O := hp.bind' fun a _ => hf a

theorem looks_lift {P : α → Prop} {p : Prog α} (hp : p.Sat O R P) : (lift p).Looks A R Q O := by
  induction p with
  | ret a => trivial
  | crash c => trivial
  | op o k ih => exact ⟨hp.1, fun r hr => ih r (hp.2 r hr)⟩

theorem looks_reach {p p' : Live α} (hp : p.Looks A R Q O)
    (hr : Reach A R p p') : p'.Looks A R Q O := by
  induction hr with
  | refl => exact hp
  | ask r _ ha ih => exact ih.2 r ha
  | op r _ hr ih => exact ih.2 r hr

variable (hQ : ∀ q, q.mild → Q q)
include hQ

theorem looks_isFile {p : Str} {f : Bool → Live β} (hf : ∀ b, A (.isFile p) b → (f b).Looks A R Q O) :
    ((isFile p).bind f).Looks A R Q O := ⟨hQ _ trivial, hf⟩

theorem looks_isDir {p : Str} {f : Bool → Live β} (hf : ∀ b, A (.isDir p) b → (f b).Looks A R Q O) :
    ((isDir p).bind f).Looks A R Q O := ⟨hQ _ trivial, hf⟩

theorem looks_exists {p : Str} {f : Bool → Live β} (hf : ∀ b, A (.pathExists p) b → (f b).Looks A R Q O) :
    ((pathExists p).bind f).Looks A R Q O := ⟨hQ _ trivial, hf⟩

/-! ## The loader -/

theorem looks_findUp (file : Str) (n : Nat) (dir : Str) : (findUp file n dir).Looks A R Q O := by
  induction n generalizing dir with
  | zero => trivial
  | succ n ih =>
    rw [findUp]
    refine looks_isFile hQ fun b _ => ?_
    split
    · trivial
    · split
      · exact ih _
      · trivial

theorem looks_cacheNone (hput : ∀ d, A (.isDir d) true → O (.putPkg d none)) (n : Nat) (path : Str) : (cacheNone n path).Looks A R Q O := by
  induction n generalizing path with
  | zero => trivial
  | succ n ih =>
    rw [cacheNone]
    refine looks_isDir hQ fun b hb => ?_
    cases b with
    | true =>
      refine ⟨hput _ hb, fun r _ => ?_⟩
      dsimp only
      split
      · exact ih _
      · trivial
    | false => exact ih _

omit hQ in
theorem looks_readToString {path : Str} (hr : Q (.read path)) (hm : Q (.mtime path))
    (hput : ∀ m, A (.mtime path) (some m) → O (.putFile path m)) :
    (readToString path).Looks A R Q O := by
  refine ⟨hr, fun r _ => ?_⟩
  cases r with
  | none => trivial
  | some doc =>
    refine ⟨hm, fun m hA => ?_⟩
    cases m with
    | none => trivial
    | some m => exact ⟨hput m hA, fun _ _ => trivial⟩

omit hQ in
/-- What was read has left its time behind. -/
theorem readToString_put {path : Str} {doc : Doc} (he : Ends A R (readToString path) (.done (.ok doc))) :
    ∃ m, R (.putFile path m) () := by
  unfold readToString at he
  cases he with
  | ask r _ he =>
    cases r with
    | none => cases he
    | some doc =>
      cases he with
      | ask m _ he =>
        cases m with
        | none => cases he
        | some m =>
          cases he with
          | op r hr he => exact ⟨m, hr⟩

variable (hO : ∀ o, o.mild → O o)
include hO

omit hQ in
theorem mild_contents (dir path : Str) (doc : Doc) :
    (parseContents h dir path doc).Sat O R fun _ => True := by
  unfold parseContents
  dsimp only
  split
  · trivial
  · refine ⟨hO _ trivial, fun seed _ => ?_⟩
    dsimp only
    split
    · trivial
    · refine Prog.Sat.bind (P := fun _ => True) ?_ fun r _ => ?_
      · unfold exportsTreeOf
        split
        · trivial
        · refine ⟨hO _ trivial, fun r _ => ?_⟩
          dsimp only
          split
          · trivial
          · split
            · trivial
            · trivial
            · exact ⟨hO _ trivial, fun _ _ => trivial⟩
      · cases r with
        | error e => trivial
        | ok et =>
          refine Prog.Sat.bind (P := fun _ => True) ?_ fun r _ => ?_
          · unfold importsTreeOf
            split
            · trivial
            · refine ⟨hO _ trivial, fun r _ => ?_⟩
              dsimp only
              split
              · trivial
              · split
                · trivial
                · trivial
                · exact ⟨hO _ trivial, fun _ _ => trivial⟩
          · cases r with
            | error e => trivial
            | ok it =>
              dsimp only
              split <;> trivial

omit hQ in
theorem looks_parseAndStore {path desc : Str} (hr : Q (.read desc)) (hm : Q (.mtime desc))
    (hfile : ∀ m, A (.mtime desc) (some m) → O (.putFile desc m))
    (hpkg : ∀ m pkg, R (.putFile desc m) () → O (.putPkg path (some pkg))) :
    (parseAndStore h path desc).Looks A R Q O := by
  have key : ((readToString desc).bind fun
      | .error _ => .ret (.error (.openFailed desc))
      | .ok doc => lift (parseContents h path desc doc) : Live (Except Err Pkg)).Looks A R Q O :=
    (looks_readToString hr hm hfile).bind fun r => by
      cases r with
      | error e => trivial
      | ok doc => exact looks_lift (mild_contents hO _ _ _)
  have put : ∀ pkg, Ends A R ((readToString desc).bind fun
      | .error _ => .ret (.error (.openFailed desc))
      | .ok doc => lift (parseContents h path desc doc) : Live (Except Err Pkg)) (.done (.ok pkg)) →
      ∃ m, R (.putFile desc m) () := by
    intro pkg he
    obtain ⟨r, h1, h2⟩ := Ends.done_bind he
    cases r with
    | error e => cases h2
    | ok doc => exact readToString_put h1
  unfold parseAndStore
  refine Looks.bind' ?_ fun r he => ?_
  · unfold parseDescription dbgGuard
    split
    · refine ⟨hO _ trivial, fun r _ => ?_⟩
      cases r with
      | true => trivial
      | false => exact ⟨hO _ trivial, fun _ _ => key⟩
    · exact key
  · cases r with
    | error e => trivial
    | ok pkg =>
      refine ⟨?_, fun _ _ => trivial⟩
      have : ∃ m, R (.putFile desc m) () := by
        unfold parseDescription dbgGuard at he
        split at he
        · cases he with
          | op r _ he =>
            cases r with
            | true => cases he
            | false =>
              cases he with
              | op r _ he => exact put pkg he
        · exact put pkg he
      obtain ⟨m, hm⟩ := this
      exact hpkg m pkg hm

/-- The loader reads description files only, and none for which the caches say that there is no need
to. -/
theorem looks_load (hd : ∀ desc d, h.opts.descriptionFile = some desc → A (.isDir d) true →
    A (.isFile (pjoin d desc)) true → Q (.mtime (pjoin d desc)) ∧
      (R (.getPkg d) none → Q (.read (pjoin d desc))) ∧
      (R (.getFile (pjoin d desc)) none → Q (.read (pjoin d desc))) ∧
      ∀ stored now, R (.getFile (pjoin d desc)) (some stored) → A (.mtime (pjoin d desc)) (some now) →
        stored ≤ now → h.duration ≤ now - stored → Q (.read (pjoin d desc)))
    (hfile : ∀ desc d m, h.opts.descriptionFile = some desc → A (.mtime (pjoin d desc)) (some m) →
      O (.putFile (pjoin d desc) m))
    (hnone : ∀ d, A (.isDir d) true → O (.putPkg d none))
    (hsome : ∀ desc d m pkg, h.opts.descriptionFile = some desc →
      R (.putFile (pjoin d desc) m) () → O (.putPkg d (some pkg)))
    (n : Nat) (path : Str) : (loadPkgAux h n path).Looks A R Q O := by
  induction n generalizing path with
  | zero => trivial
  | succ n ih =>
    rw [loadPkgAux]
    split
    · trivial
    · rename_i desc hdesc
      refine looks_isDir hQ fun b hb => ?_
      cases b with
      | false =>
        simp only [Bool.not_false, if_true]
        split
        · exact ih _
        · trivial
      | true =>
        simp only [Bool.not_true, Bool.false_eq_true, if_false]
        refine ⟨hO _ trivial, fun r hget => ?_⟩
        cases r with
        | some cached =>
          unfold needUpdate
          refine looks_isFile (β := Except Err (Option Pkg)) hQ fun b hf => ?_
          cases b with
          | false => exact ⟨hQ _ trivial, fun _ _ => trivial⟩
          | true =>
            obtain ⟨hm, -, hunread, hold⟩ := hd desc path hdesc hb hf
            have again : Q (.read (pjoin path desc)) → (if h.debug then
                .op (.dbgDel (pjoin path desc)) fun _ => .ask .release fun _ => parseAndStore h path (pjoin path desc)
                else .ask .release fun _ => parseAndStore h path (pjoin path desc) :
                Live (Except Err (Option Pkg))).Looks A R Q O := by
              intro hr
              have hps : (parseAndStore h path (pjoin path desc)).Looks A R Q O := looks_parseAndStore hO hr hm
                (fun m => hfile desc path m hdesc) fun m pkg => hsome desc path m pkg hdesc
              split
              · exact ⟨hO _ trivial, fun _ _ => ⟨hQ _ trivial, fun _ _ => hps⟩⟩
              · exact ⟨hQ _ trivial, fun _ _ => hps⟩
            refine ⟨hO _ trivial, fun r hR => ?_⟩
            cases r with
            | none => exact again (hunread hR)
            | some stored =>
              refine ⟨hm, fun m hA => ?_⟩
              cases m with
              | none => exact ⟨hQ _ trivial, fun _ _ => trivial⟩
              | some now =>
                dsimp only [Live.bind]
                by_cases hlt : now < stored
                · rw [if_pos hlt]
                  exact ⟨hQ _ trivial, fun _ _ => trivial⟩
                · rw [if_neg hlt]
                  dsimp only [Live.bind]
                  cases hdur : decide (now - stored ≥ h.duration) with
                  | false => exact ⟨hQ _ trivial, fun _ _ => trivial⟩
                  | true => exact again (hold stored now hR hA (by omega) (of_decide_eq_true hdur))
        | none =>
          refine looks_isFile hQ fun b hf => ?_
          cases b with
          | false =>
            refine (looks_findUp hQ _ _ _).bind fun r => ?_
            cases r with
            | some dir => exact ih _
            | none => exact looks_cacheNone hQ hnone _ _
          | true =>
            obtain ⟨hm, hr, -⟩ := hd desc path hdesc hb hf
            exact looks_parseAndStore hO (hr hget) hm (fun m => hfile desc path m hdesc) fun m pkg => hsome desc path m pkg hdesc

/-! ## Plugins and resolution -/

omit hO

omit hQ in
theorem looks_andThen {s : Stats} {f : Info → Live Stats} (hf : ∀ i, (f i).Looks A R Q O) :
    (andThen s f).Looks A R Q O := by
  cases s with
  | resolving i => exact hf i
  | success r => trivial
  | error e i => trivial

theorem looks_extensions (path : Str) (info : Info) (l : List Str) :
    (extensionsLoop path info l).Looks A R Q O := by
  induction l with
  | nil => trivial
  | cons ext l ih =>
    refine looks_isFile hQ fun b _ => ?_
    split
    · trivial
    · exact ih

theorem looks_asFile (info : Info) : (resolveAsFile h info).Looks A R Q O := by
  unfold resolveAsFile
  dsimp only
  split
  · exact looks_extensions hQ _ _ _
  · refine looks_isFile hQ fun b _ => ?_
    split
    · trivial
    · exact looks_extensions hQ _ _ _

theorem looks_exportsRequest (pkg : Pkg) (info : Info) : (exportsRequestOf pkg info).Looks A R Q O := by
  unfold exportsRequestOf
  dsimp only
  split
  · trivial
  · split
    · trivial
    · refine looks_exists hQ fun b _ => ?_
      split <;> trivial

theorem looks_exportsPick (dir : Str) (l : List Str) : (exportsPick dir l).Looks A R Q O := by
  induction l with
  | nil => trivial
  | cons item l ih =>
    refine looks_isFile hQ fun b _ => ?_
    split
    · trivial
    · exact ih

theorem looks_exports (pkg : Option Pkg) (info : Info) : (exportsPlugin h pkg info).Looks A R Q O := by
  unfold exportsPlugin
  split
  · trivial
  · split
    · trivial
    · split
      · trivial
      · split
        · trivial
        · refine (looks_exportsRequest hQ _ _).bind fun r => ?_
          cases r with
          | none => trivial
          | some remaining =>
            dsimp only
            split
            · trivial
            · trivial
            · refine (looks_exportsPick hQ _ _).bind fun r => ?_
              cases r <;> trivial

omit hQ in
theorem looks_aliasField (n : Nat) (pkg : Option Pkg) (info : Info) :
    (aliasFieldPlugin h n pkg info).Looks A R Q O := by
  unfold aliasFieldPlugin Verif.aliasFieldPlugin
  split
  · trivial
  · split
    · trivial
    · split
      · trivial
      · split <;> trivial

theorem looks_importsCheck (info : Info) (t : Str) : (importsCheck info t).Looks A R Q O :=
  looks_isFile hQ fun b _ => by split <;> trivial

variable (hload : ∀ p, (loadPkg h p).Looks A R Q O)
include hload

theorem looks_imports (n : Nat) (pkg : Option Pkg) (info : Info) :
    (importsPlugin h n pkg info).Looks A R Q O := by
  induction n generalizing pkg info with
  | zero => trivial
  | succ n ih =>
    unfold importsPlugin
    split
    · trivial
    · split
      · trivial
      · dsimp only
        split
        · trivial
        · split
          · trivial
          · trivial
          · trivial
          · split
            · refine (hload _).bind fun r => ?_
              cases r with
              | error e => trivial
              | ok pkg' =>
                dsimp only
                split
                · trivial
                · exact (looks_exports hQ _ _).bind fun s =>
                    (looks_andThen fun i => ih _ _).bind fun s =>
                    (looks_andThen fun i => looks_aliasField _ _ _).bind fun s =>
                    looks_andThen fun i => looks_importsCheck hQ _ _
            · split
              · exact ih _ _
              · exact looks_importsCheck hQ _ _

theorem looks_mainFile (n : Nat) (pkg : Option Pkg) (info : Info) (l : List Str) (cur : Info) :
    (mainFileLoop h n pkg info l cur).Looks A R Q O := by
  induction l generalizing cur with
  | nil => trivial
  | cons m l ih =>
    rw [mainFileLoop]
    refine Looks.bind ?_ fun s => ?_
    · exact (looks_exports hQ _ _).bind fun s =>
        (looks_andThen fun i => looks_imports hQ hload _ _ _).bind fun s =>
        (looks_andThen fun i => looks_aliasField _ _ _).bind fun s =>
        looks_andThen fun i => looks_asFile hQ _
    · cases s with
      | success r => trivial
      | resolving i => exact ih _
      | error e i => exact ih _

omit hload in
theorem looks_mainField (n : Nat) {asDir : Info → Live Stats} (hdir : ∀ i, (asDir i).Looks A R Q O)
    (pkg : Pkg) (info : Info) (l : List Str) (cur : Info) :
    (mainFieldLoop h n asDir pkg info l cur).Looks A R Q O := by
  induction l generalizing cur with
  | nil => trivial
  | cons m l ih =>
    rw [mainFieldLoop]
    split
    · exact ih _
    · split
      · trivial
      · refine Looks.bind ?_ fun s => ?_
        · exact (looks_aliasField _ _ _).bind fun s =>
            (looks_andThen fun i => looks_asFile hQ _).bind fun s => looks_andThen hdir
        · cases s with
          | success r => trivial
          | resolving i => exact ih _
          | error e i => exact ih _

theorem looks_dir (n : Nat) (info : Info) : (resolveAsDir h n info).Looks A R Q O := by
  induction n generalizing info with
  | zero => trivial
  | succ n ih =>
    rw [resolveAsDir]
    refine looks_isDir hQ fun b _ => ?_
    split
    · trivial
    · refine (hload _).bind fun r => ?_
      cases r with
      | error e => trivial
      | ok pkg =>
        refine Looks.bind ?_ fun s => looks_andThen fun i => looks_mainFile hQ hload _ _ _ _ _
        unfold mainFieldPlugin
        split
        · trivial
        · split
          · trivial
          · exact looks_mainField hQ _ ih _ _ _ _

theorem looks_chain (n : Nat) (pkg : Option Pkg) (info : Info) :
    (modulePackageChain h n pkg info).Looks A R Q O :=
  (looks_exports hQ _ _).bind fun s =>
    (looks_andThen fun i => looks_imports hQ hload _ _ _).bind fun s =>
    (looks_andThen fun i => looks_aliasField _ _ _).bind fun s =>
    (looks_andThen fun i => looks_asFile hQ _).bind fun s =>
    looks_andThen fun i => looks_dir hQ hload _ _

theorem looks_moduleStep (n : Nat) (info : Info) : (moduleStep h n info).Looks A R Q O := by
  unfold moduleStep
  refine looks_isDir hQ fun b _ => ?_
  split
  · trivial
  · dsimp only
    split
    · trivial
    · refine (hload _).bind fun r => ?_
      cases r with
      | error e => trivial
      | ok pkg =>
        refine looks_isDir hQ fun b _ => ?_
        split
        · refine (looks_asFile hQ _).bind fun s => ?_
          cases s <;> trivial
        · refine (looks_chain hQ hload _ _ _).bind fun s => ?_
          cases s with
          | success r => trivial
          | resolving i => trivial
          | error e i =>
            dsimp only
            split <;> trivial

theorem looks_modules (n : Nat) (info : Info) : (resolveAsModules h n info).Looks A R Q O := by
  induction n generalizing info with
  | zero => trivial
  | succ n ih =>
    rw [resolveAsModules]
    refine (looks_moduleStep hQ hload _ _).bind fun r => ?_
    rcases r with ⟨s, _ | _⟩
    · refine (looks_andThen fun i => ?_).bind fun s => ?_
      · split
        · exact ih _
        · trivial
      · cases s <;> trivial
    · trivial

omit hQ hload in
theorem looks_alias {rec : Info → Live Stats} (hrec : ∀ i, (rec i).Looks A R Q O) (info : Info)
    (l : List (Str × AliasMap)) : (aliasLoop rec info l).Looks A R Q O := by
  induction l with
  | nil => trivial
  | cons e l ih =>
    obtain ⟨from_, to⟩ := e
    unfold aliasLoop
    dsimp only
    split
    · split
      · split
        · exact ih
        · refine (hrec _).bind fun s => ?_
          cases s with
          | success r => trivial
          | resolving i => exact ih
          | error e i => exact ih
      · trivial
    · exact ih

theorem looks_inner (n : Nat) (info : Info) : (resolveInner h n info).Looks A R Q O := by
  induction n generalizing info with
  | zero => trivial
  | succ n ih =>
    rw [resolveInner]
    refine Looks.bind ?_ fun s => ?_
    · refine Looks.bind ?_ fun s => (looks_andThen fun i => ?_).bind fun s =>
        (looks_andThen fun i => ?_).bind fun s => looks_andThen fun i => ?_
      · unfold aliasPlugin
        split
        · trivial
        · exact looks_alias ih _ _
      · unfold preferRelativePlugin
        split
        · trivial
        · split
          · refine (ih _).bind fun s => ?_
            cases s <;> trivial
          · trivial
      · unfold pkgStage
        refine (hload _).bind fun r => ?_
        cases r with
        | error e => trivial
        | ok pkg =>
          exact (looks_imports hQ hload _ _ _).bind fun s => looks_andThen fun i => looks_aliasField _ _ _
      · have file : ((resolveAsFile h i).bind fun s => andThen s fun i => resolveAsDir h n i).Looks A R Q O :=
          (looks_asFile hQ _).bind fun s => looks_andThen fun i => looks_dir hQ hload _ _
        unfold lastStage
        split
        · exact file
        · exact file
        · exact file
        · exact looks_modules hQ hload _ _
    · cases s <;> trivial

/-! ## tsconfig and the entry point -/

omit hQ hload in
/-- A success of `_resolve` is a file that was seen. -/
theorem inner_saw {n : Nat} {info i : Info}
    (hr : Ends A R (resolveInner h n info) (.done (.success (.info i)))) :
    A (.isFile i.path) true ∧ i.getPath = i.path := by
  have h1 : FileWas A h.opts i := (inner_sat (was_inv h A) n trivial).returns
    (hr.mono (fun _ _ h => h) fun _ _ _ => trivial)
  refine ⟨h1.file, ?_⟩
  rw [Info.getPath, h1.target]
  rfl

theorem looks_tsValue {n : Nat} {location : Str} (hr : Q (.read location))
    (hsaw : ∀ p, A (.isFile p) true → Q (.read p)) : (tsValue h n location).Looks A R Q O := by
  induction n generalizing location with
  | zero => trivial
  | succ n ih =>
    rw [tsValue]
    refine ⟨hr, fun r _ => ?_⟩
    cases r with
    | none => trivial
    | some doc =>
      dsimp only
      split
      · trivial
      · trivial
      · split
        · split
          · trivial
          · refine (looks_inner hQ hload _ _).bind' fun s hs => ?_
            split
            · obtain ⟨h1, h2⟩ := inner_saw hs
              refine (ih (by rw [h2]; exact hsaw _ h1)).bind fun r => ?_
              cases r <;> trivial
            · trivial
            · trivial
        · trivial

omit hQ hload in
theorem looks_tsTry {rec : Info → Live Stats} (hrec : ∀ i, (rec i).Looks A R Q O) (star : Str)
    {next : Live Stats} (hnext : next.Looks A R Q O) (l : List Str) :
    (tsPathsTry rec star next l).Looks A R Q O := by
  induction l with
  | nil => exact hnext
  | cons p l ih =>
    rw [tsPathsTry]
    refine (hrec _).bind fun s => ?_
    cases s with
    | success r => trivial
    | resolving i => exact ih
    | error e i => exact ih

omit hQ hload in
theorem looks_tsEntries {rec : Info → Live Stats} (hrec : ∀ i, (rec i).Looks A R Q O) (info : Info)
    (l : List (Str × List Str)) : (tsEntries rec info l).Looks A R Q O := by
  induction l with
  | nil => exact hrec _
  | cons e l ih =>
    obtain ⟨pattern, paths⟩ := e
    rw [tsEntries]
    split
    · trivial
    · exact ih
    · exact looks_tsTry hrec _ ih _

include hO in
theorem looks_stats (n : Nat) (path request : Str)
    (hts : ∀ location, h.opts.tsconfig = some location → Q (.read location) ∧
      ∀ p, A (.isFile p) true → Q (.read p)) : (resolveStats h n path request).Looks A R Q O := by
  unfold resolveStats
  dsimp only
  split
  · rename_i location hl
    unfold resolveWithTsconfig
    refine (looks_tsValue hQ hload (hts _ hl).1 (hts _ hl).2).bind fun r => ?_
    cases r with
    | error e => trivial
    | ok json =>
      dsimp only
      split
      · trivial
      · split
        · trivial
        · exact ⟨hO _ trivial, fun _ _ => looks_tsEntries (looks_inner hQ hload n) _ _⟩
  · exact looks_inner hQ hload _ _

include hO in
theorem looks_resolve (n : Nat) (path request : Str)
    (hts : ∀ location, h.opts.tsconfig = some location → Q (.read location) ∧
      ∀ p, A (.isFile p) true → Q (.read p))
    (hcanon : h.opts.symlinks = true → ∀ p, A (.isFile p) true → Q (.canon p)) :
    (resolve h n path request).Looks A R Q O := by
  refine (looks_stats hQ hO hload n path request hts).bind' fun s hs => ?_
  have h1 := (stats_was n path request).returns (hs.mono (fun _ _ h => h) fun _ _ _ => trivial)
  cases s with
  | error e i => trivial
  | resolving i => trivial
  | success r =>
    cases r with
    | ignored => trivial
    | info i =>
      have h2 : FileWas A h.opts i := h1
      dsimp only [normalizeResult]
      split
      · trivial
      · unfold normalizePath
        split
        · rename_i hsym
          refine Looks.bind ⟨hcanon hsym _ h2.file, fun r _ => ?_⟩ fun r => ?_
          · cases r <;> trivial
          · cases r <;> trivial
        · trivial

omit hload in
include hO in
theorem looks_prog (hload : ∀ p, (loadPkg h p).Looks A R Q O) (n : Nat) (call : Call)
    (hts : ∀ path request location, call = .resolve path request → h.opts.tsconfig = some location →
      Q (.read location) ∧ ∀ p, A (.isFile p) true → Q (.read p))
    (hcanon : ∀ path request, call = .resolve path request → h.opts.symlinks = true →
      ∀ p, A (.isFile p) true → Q (.canon p)) : (Live.prog h n call).Looks A R Q O := by
  cases call with
  | resolve path request =>
    exact (looks_resolve hQ hO hload n path request (fun location => hts path request location rfl)
      (hcanon path request rfl)).bind fun _ => trivial
  | sideEffects path =>
    refine Looks.bind (Looks.bind (hload path) fun r => ?_) fun _ => trivial
    split
    · trivial
    · trivial
    · split <;> trivial

end
end Verif.Live
