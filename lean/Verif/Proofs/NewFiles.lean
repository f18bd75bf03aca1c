import Verif.Proofs.Appended
import Verif.Proofs.Termination
import Verif.Spec.NewFiles
/-!
# The resolver with new files
-/

namespace Verif

/-- A success with a new file. -/
def FreshStats (P : Str → Prop) : Stats → Prop
  | .success (.info i) => P i.path ∧ i.request.target = [] ∧ i.request.kind = .relative
  | _ => False

/-- On the way to a new file. -/
def FreshInfo (P : Str → Prop) : Stats → Prop
  | .resolving i => P i.getPath ∧ ¬ P i.path ∧ i.request.kind = getTargetKind i.request.target
  | _ => False

/-- A package that is not in the way: its directory is no new file, and it has no imports. -/
def PkgAside (P : Str → Prop) (pkg : Option Pkg) : Prop :=
  ∀ p, pkg = some p → ¬ P p.absDir ∧ p.importsTree = none

/-- What is assumed. -/
structure Fresh (P : Str → Prop) (o : Opts) (fs fs' : Fs) : Prop where
  adds : Adds P fs fs'
  browser : o.browserField = false
  enforce : o.enforceExtension ≠ some true
  desc : ∀ d desc, o.descriptionFile = some desc → ¬ P (pjoin d desc)
  bare : ∀ d t, PackageName t t → ¬ P (pjoin (pjoin d MODULE) t)
  imports : ∀ v, ¬ IsField fs cs!"imports" v

section
variable {P : Str → Prop} {o : Opts} {fs fs' : Fs} (h : Fresh P o fs fs')
include h

local notation "ca" => pureCtx o fs false
local notation "cb" => pureCtx o fs' false
local notation "Nw" => FreshStats P

omit h in
theorem FreshStats.passes {s : Stats} (h : Nw s) : ∃ i, s = .success (.info i) := by
  cases s with
  | success r =>
    cases r with
    | info i => exact ⟨i, rfl⟩
    | ignored => exact h.elim
  | resolving i => exact h.elim
  | error e i => exact h.elim

omit h in
theorem fresh_andThen {p q : Prog Stats} {f g : Info → Prog Stats} (h : p.Grows Nw q)
    (hf : ∀ i, (f i).Grows Nw (g i)) :
    (p.bind fun s => s.andThen f).Grows Nw (q.bind fun s => s.andThen g) := by
  refine h.bind (fun s => ?_) fun s hs => ?_
  · cases s with
    | resolving i => exact hf i
    | success r => exact .ret _
    | error e i => exact .ret _
  · obtain ⟨i, rfl⟩ := hs.passes
    exact ⟨_, rfl, hs⟩

omit h in
theorem fresh_stage {s : Stats} {f g : Info → Prog Stats} (hf : ∀ i, (f i).Grows Nw (g i)) :
    (s.andThen f).Grows Nw (s.andThen g) := by
  cases s with
  | resolving i => exact hf i
  | success r => exact .ret _
  | error e i => exact .ret _

theorem findPkg_fresh (p : Str) : findPkg fs' o.descriptionFile p = findPkg fs o.descriptionFile p := by
  unfold findPkg
  cases hd : o.descriptionFile with
  | none => rfl
  | some desc =>
    have hn := fun d => h.desc d desc hd
    have hf : ∀ d, fs'.isFile (pjoin d desc) = fs.isFile (pjoin d desc) := by
      intro d
      have := h.adds.isFile (pjoin d desc)
      rw [Bool.eq_iff_iff, this]
      exact ⟨fun h => h.resolve_right (hn d), .inl⟩
    have hc : closest fs' desc p = closest fs desc p := by
      unfold closest
      congr 1
      funext d
      rw [h.adds.isDir, hf]
    dsimp only
    rw [hc]
    have hr : ∀ d, readPkg fs' d (pjoin d desc) = readPkg fs d (pjoin d desc) := by
      intro d
      unfold readPkg
      rw [h.adds.read _ (hn d), h.adds.mtime _ (hn d)]
    simp only [hr]

theorem findPkg_apart {p : Str} {pkg : Option Pkg}
    (hp : findPkg fs o.descriptionFile p = .ret (.ok pkg)) : PkgAside P pkg := by
  rintro q rfl
  cases hd : o.descriptionFile with
  | none => rw [hd] at hp; cases hp
  | some desc =>
    rw [hd] at hp
    cases hc : closest fs desc p with
    | none => rw [findPkg_none hc] at hp; cases hp
    | some d =>
      rw [findPkg_here hc] at hp
      obtain ⟨-, hdir, -⟩ := closest_length hc
      cases hr : readPkg fs d (pjoin d desc) with
      | crash c => rw [hr] at hp; cases hp
      | op o k => rw [hr] at hp; cases hp
      | ret r =>
        rw [hr] at hp
        cases r with
        | error e => cases hp
        | ok q' =>
          cases hp
          have hf := readPkg_fromFile hr
          refine ⟨fun hP => ?_, ?_⟩
          · rw [readPkg_dir hr] at hP
            rw [(h.adds.new _ hP).2] at hdir
            cases hdir
          · cases ht : q.importsTree with
            | none => rfl
            | some t =>
              obtain ⟨v, hv, -⟩ := hf.imports t ht
              obtain ⟨file, doc, h1, h2⟩ := hf.file
              exact (h.imports v ⟨file, doc, _, h1, h2, hv⟩).elim

theorem fresh_load {α : Type} {New' : α → Prop} {p : Str} {f g : Except Err (Option Pkg) → Prog α}
    (hf : ∀ r, (∀ pkg, r = .ok pkg → PkgAside P pkg) → (f r).Grows New' (g r)) :
    (((ca).load p).bind f).Grows New' (((cb).load p).bind g) := by
  have : (cb).load p = (ca).load p := findPkg_fresh h p
  rw [this]
  show ((findPkg fs o.descriptionFile p).bind f).Grows New' ((findPkg fs o.descriptionFile p).bind g)
  rcases findPkg_cases fs o.descriptionFile p with ⟨a, ha⟩ | ⟨c, hc⟩
  · rw [ha]
    exact hf a fun pkg hp => findPkg_apart h (hp ▸ ha)
  · rw [hc]
    exact .crash _

theorem fresh_file (i : Info) :
    (Prog.ret (resolveAsFile ca i)).Grows Nw (.ret (resolveAsFile cb i)) := by
  rcases resolveAsFile_cases cb i with ⟨p, ⟨a, b, h3, h4, h5⟩, h6⟩ | ⟨h2, h3⟩
  · rcases (h.adds.isFile p).1 h4 with hp | hp
    · have : resolveAsFile ca i = _ := resolveAsFile_first (c := ca) (info := i) (p := p)
        ⟨a, b, h3, hp, fun q hq hn => h5 q hq ((h.adds.isFile q).2 (.inl hn))⟩
      rw [this, h6]
      exact .ret _
    · rw [h6]
      exact .found _ ⟨hp, rfl, rfl⟩
  · have : resolveAsFile ca i = _ := resolveAsFile_none (c := ca) (info := i) fun q hq => by
      have := h2 q hq
      rw [Bool.eq_false_iff] at this ⊢
      exact fun hn => this ((h.adds.isFile q).2 (.inl hn))
    rw [this, h3]
    exact .ret _

/-- A new file on the way is found. -/
theorem fresh_found {i : Info} (hi : P i.getPath) : FreshStats P (resolveAsFile cb i) := by
  have : resolveAsFile cb i = _ := resolveAsFile_first (c := cb) (info := i) (p := i.getPath) (by
    have he : i.getPath = targetPath i.path i.request.target := getPath_eq i
    unfold fileCandidates
    rw [if_neg (show ¬ (cb).opts.enforceExtension = some true from h.enforce)]
    exact ⟨[], _, by rw [← he]; rfl, (h.adds.isFile _).2 (.inr hi), by simp⟩)
  rw [this]
  exact ⟨hi, rfl, rfl⟩

theorem fresh_pick {d : Str} (hd : ¬ P d) (l : List Str) :
    exportsPick cb d l = exportsPick ca d l ∨ ∃ i, exportsPick cb d l = some i ∧ FreshInfo P (.resolving i) := by
  induction l with
  | nil => exact .inl rfl
  | cons x l ih =>
    unfold exportsPick
    dsimp only
    by_cases hp : P (Info.getPath ⟨d, parseRequest x⟩)
    · cases hc : checkTarget (parseRequest x).target with
      | false => simpa using ih
      | true =>
        refine .inr ⟨_, ?_, hp, hd, rfl⟩
        rw [show (cb).fs.isFile _ = true from (h.adds.isFile _).2 (.inr hp)]
        rfl
    · have : (cb).fs.isFile (Info.getPath ⟨d, parseRequest x⟩) = (ca).fs.isFile (Info.getPath ⟨d, parseRequest x⟩) := by
        rw [Bool.eq_iff_iff]
        exact ⟨fun hn => ((h.adds.isFile _).1 hn).resolve_right hp, fun hn => (h.adds.isFile _).2 (.inl hn)⟩
      rw [this]
      split
      · exact .inl rfl
      · exact ih

theorem fresh_exports {pkg : Option Pkg} (hp : PkgAside P pkg) (i : Info)
    (hi : i.request.kind = .normal → ∃ d, i.path = pjoin d MODULE) :
    (exportsPlugin ca pkg i).Grows (FreshInfo P) (exportsPlugin cb pkg i) := by
  by_cases hk : i.request.kind = .normal
  · obtain ⟨d, hd⟩ := hi hk
    have hreq : ∀ pkg, exportsRequestOf cb pkg i = exportsRequestOf ca pkg i := by
      intro pkg
      unfold exportsRequestOf
      dsimp only
      split
      · rfl
      · rename_i chars hc
        cases hs : splitFirst '/' chars with
        | some ab => rfl
        | none =>
          have hb : PackageName i.request.target i.request.target := by
            have hn := splitFirst_none.1 hs
            split at hc
            · rename_i h1
              rw [startsWith_iff] at h1
              cases hs' : splitFirst '/' i.request.target with
              | none => exact .scope h1 (splitFirst_none.1 hs')
              | some ab =>
                obtain ⟨a, b⟩ := ab
                obtain ⟨h2, h3, h4⟩ := splitFirst_some hs'
                rw [hs'] at hc
                cases hc
                cases b with
                | nil => cases h4
                | cons x b =>
                  cases h4
                  rw [h2] at h1 ⊢
                  have h5 : ['@'] <+: a := by
                    cases a with
                    | nil => obtain ⟨r, hr⟩ := h1; cases hr
                    | cons y a => obtain ⟨r, hr⟩ := h1; cases hr; exact ⟨a, rfl⟩
                  have := PackageName.inScope (rest := []) h5 h3 (b := b) hn (.inl rfl)
                  simpa using this
            · rename_i h1
              rw [startsWith_iff] at h1
              cases hc
              have := PackageName.plain (name := i.request.target) (rest := []) (by simpa using h1) hn (.inl rfl)
              simpa using this
          have : (cb).fs.pathExists (pjoin i.path i.request.target) =
              (ca).fs.pathExists (pjoin i.path i.request.target) :=
            h.adds.pathExists _ (hd ▸ h.bare d _ hb)
          rw [this]
    cases pkg with
    | none => exact .ret _
    | some pkg =>
      unfold exportsPlugin
      dsimp only
      split
      · exact .ret _
      · split
        · exact .ret _
        · split
          · exact .ret _
          · rename_i root _
            rw [hreq]
            have hl : (∃ a, exportsRequestOf ca pkg i = .ret a) ∨ ∃ c, exportsRequestOf ca pkg i = .crash c := by
              unfold exportsRequestOf
              dsimp only
              generalize (if startsWith i.request.target cs!"@" = true then _ else _ : Option Str) = x
              cases x with
              | none => exact .inr ⟨_, rfl⟩
              | some x =>
                dsimp only
                repeat' split
                all_goals exact .inl ⟨_, rfl⟩
            rcases hl with ⟨a, ha⟩ | ⟨c, hc⟩
            · rw [ha]
              show Prog.Grows _ (match a with | none => _ | some remaining => _) (match a with | none => _ | some remaining => _)
              cases a with
              | none => exact .ret _
              | some a =>
                dsimp only
                show Prog.Grows _ (match fieldProcess .exports root a o.conditionNames with
                  | none => _ | some (.error err) => _ | some (.ok list) => _)
                  (match fieldProcess .exports root a o.conditionNames with
                  | none => _ | some (.error err) => _ | some (.ok list) => _)
                split
                · exact .crash _
                · exact .ret _
                · rename_i list _
                  rcases fresh_pick h (hp pkg rfl).1 list with he | ⟨j, he, hj⟩
                  · rw [he]
                    split <;> exact .ret _
                  · rw [he]
                    exact .found _ hj
            · rw [hc]
              exact .crash _
  · have : ∀ c, exportsPlugin c pkg i = .ret (.resolving i) := by
      intro c
      unfold exportsPlugin
      cases pkg with
      | none => rfl
      | some pkg => simp [hk]
    rw [this, this]
    exact .ret _

theorem fresh_imports (n : Nat) {pkg : Option Pkg} (hp : PkgAside P pkg) (i : Info) :
    (importsPlugin ca n pkg i).Grows Nw (importsPlugin cb (n + 1) pkg i) ∧
      importsPlugin cb (n + 1) pkg i = .ret (.resolving i) := by
  have key : ∀ c n, importsPlugin c (n + 1) pkg i = .ret (.resolving i) := by
    intro c n
    unfold importsPlugin
    cases pkg with
    | none => rfl
    | some pkg =>
      dsimp only
      split
      · rfl
      · rw [(hp pkg rfl).2]
  refine ⟨?_, key _ _⟩
  cases n with
  | zero => exact .fuel _
  | succ n => rw [key, key]; exact .ret _

theorem fresh_field (n : Nat) (pkg : Option Pkg) (i : Info) :
    aliasFieldPlugin ca n pkg i = .ret (.resolving i) ∧ aliasFieldPlugin cb n pkg i = .ret (.resolving i) := by
  unfold aliasFieldPlugin
  simp [pureCtx, h.browser]

/-- The stages between exports and the look at the file. -/
theorem fresh_mid (n : Nat) {pkg : Option Pkg} (hp : PkgAside P pkg) {f g : Stats → Prog Stats} {p q : Prog Stats}
    (hpq : p.Grows (FreshInfo P) q) (hf : ∀ s, (f s).Grows Nw (g s))
    (hn : ∀ s, FreshInfo P s ∨ Nw s → ∃ b, g s = .ret b ∧ Nw b) :
    (p.bind fun s => (s.andThen fun i => importsPlugin ca n pkg i).bind f).Grows Nw
      (q.bind fun s => (s.andThen fun i => importsPlugin cb (n + 1) pkg i).bind g) := by
  refine hpq.bind (fun s => ?_) fun s hs => ?_
  · exact (fresh_stage fun i => (fresh_imports h n hp i).1).bind hf fun s hs => hn s (.inr hs)
  · cases s with
    | resolving i =>
      show ∃ b, ((importsPlugin cb (n + 1) pkg i).bind g) = .ret b ∧ _
      rw [(fresh_imports h n hp i).2]
      exact hn _ (.inl hs)
    | success r => exact hs.elim
    | error e i => exact hs.elim

theorem fresh_mainFileLoop (n : Nat) {pkg : Option Pkg} (hp : PkgAside P pkg) (info : Info) (l : List Str) (cur : Info) :
    (mainFileLoop ca n pkg info l cur).Grows Nw (mainFileLoop cb (n + 1) pkg info l cur) := by
  induction l generalizing cur with
  | nil => exact .ret _
  | cons f l ih =>
    unfold mainFileLoop
    dsimp only
    refine Prog.Grows.bind (New := Nw) ?_ (fun s => ?_) fun s hs => ?_
    · refine fresh_mid h n hp (fresh_exports h hp _ fun hk => ?_) (fun s => ?_) fun s hs => ?_
      · have : getTargetKind (cs!"./" ++ f) = .relative := by
          simp [getTargetKind, startsWith, List.isPrefixOf]
        cases hk.symm.trans this
      · refine fresh_andThen (fresh_stage fun i => ?_) (fresh_file h)
        rw [(fresh_field h n pkg i).1, (fresh_field h (n + 1) pkg i).2]
        exact .ret _
      · rcases hs with hs | hs
        · cases s with
          | resolving i =>
            show ∃ b, ((aliasFieldPlugin cb (n + 1) pkg i).bind fun s => s.andThen _) = .ret b ∧ _
            rw [(fresh_field h (n + 1) pkg i).2]
            exact ⟨_, rfl, fresh_found h hs.1⟩
          | success r => exact hs.elim
          | error e i => exact hs.elim
        · obtain ⟨i, rfl⟩ := hs.passes
          exact ⟨_, rfl, hs⟩
    · cases s with
      | success r => exact .ret _
      | resolving i => exact ih i
      | error e i => exact ih i
    · obtain ⟨i, rfl⟩ := hs.passes
      exact ⟨_, rfl, hs⟩

theorem fresh_mainFieldLoop (n : Nat) {asDir asDir' : Info → Prog Stats}
    (hd : ∀ i, (asDir i).Grows Nw (asDir' i)) (pkg : Pkg) (info : Info) (l : List Str) (cur : Info) :
    (mainFieldLoop ca n asDir pkg info l cur).Grows Nw
      (mainFieldLoop cb (n + 1) asDir' pkg info l cur) := by
  induction l generalizing cur with
  | nil => exact .ret _
  | cons f l ih =>
    unfold mainFieldLoop
    split
    · exact ih cur
    · dsimp only
      split
      · exact .ret _
      · refine Prog.Grows.bind (New := Nw) ?_ (fun s => ?_) fun s hs => ?_
        · rw [(fresh_field h n (some pkg) _).1, (fresh_field h (n + 1) (some pkg) _).2]
          exact fresh_andThen (fresh_file h _) hd
        · cases s with
          | success r => exact .ret _
          | resolving i => exact ih i
          | error e i => exact ih i
        · obtain ⟨i, rfl⟩ := hs.passes
          exact ⟨_, rfl, hs⟩

theorem fresh_dir (n : Nat) (i : Info) :
    (resolveAsDir ca n i).Grows Nw (resolveAsDir cb (n + 1) i) := by
  induction n generalizing i with
  | zero => exact .fuel _
  | succ n ih =>
    unfold resolveAsDir
    dsimp only
    rw [show (cb).fs.isDir i.getPath = (ca).fs.isDir i.getPath from h.adds.isDir _]
    split
    · exact .ret _
    · refine fresh_load h fun r hr => ?_
      cases r with
      | error err => exact .ret _
      | ok pkg =>
        dsimp only
        refine fresh_andThen ?_ fun i => fresh_mainFileLoop h _ (hr pkg rfl) _ _ _
        unfold mainFieldPlugin
        cases pkg with
        | none => exact .ret _
        | some pkg =>
          dsimp only
          split
          · exact .ret _
          · exact fresh_mainFieldLoop h _ ih _ _ _ _

theorem fresh_chain (n : Nat) {pkg : Option Pkg} (hp : PkgAside P pkg) (i : Info)
    (hi : ∃ d, i.path = pjoin d MODULE) :
    (modulePackageChain ca n pkg i).Grows Nw (modulePackageChain cb (n + 1) pkg i) := by
  unfold modulePackageChain
  refine fresh_mid h n hp (fresh_exports h hp _ fun hk => hi) (fun s => ?_) fun s hs => ?_
  · refine Prog.Grows.bind (New := Nw) (fresh_stage fun i => ?_) (fun s => ?_) fun s hs => ?_
    · dsimp only
      rw [(fresh_field h n pkg _).1, (fresh_field h (n + 1) pkg _).2]
      exact .ret _
    · exact fresh_andThen (fresh_stage (fresh_file h)) (fresh_dir h _)
    · obtain ⟨i, rfl⟩ := hs.passes
      exact ⟨_, rfl, hs⟩
  · rcases hs with hs | hs
    · cases s with
      | resolving i =>
        dsimp only [Stats.andThen]
        rw [(fresh_field h (n + 1) pkg _).2]
        have hf : FreshStats P (resolveAsFile cb
            (if i.request.kind = .normal then i.withTarget (cs!"./" ++ i.request.target) else i)) := by
          refine fresh_found h ?_
          split
          · rename_i hk
            obtain ⟨h1, h2, h3⟩ := hs
            rw [getPath_eq] at h1 ⊢
            unfold targetPath at h1 ⊢
            split at h1
            · exact (h2 h1).elim
            · rw [if_neg (by
                show ¬ (cs!"./" ++ i.request.target = [] ∨ cs!"./" ++ i.request.target = ['.'])
                simp)]
              exact h.adds.dot _ _ (h3.symm.trans hk) h1
          · exact hs.1
        obtain ⟨j, hj⟩ := hf.passes
        rw [hj] at hf
        refine ⟨_, ?_, hf⟩
        show ((Prog.ret (resolveAsFile cb
          (if i.request.kind = .normal then i.withTarget (cs!"./" ++ i.request.target) else i))).bind
            fun s => s.andThen fun i => resolveAsDir cb (n + 1) i) = _
        rw [hj]
        rfl
      | success r => exact hs.elim
      | error e i => exact hs.elim
    · obtain ⟨i, rfl⟩ := hs.passes
      exact ⟨_, rfl, hs⟩

theorem fresh_moduleStep (n : Nat) (i : Info) :
    (moduleStep ca n i).Grows (fun x => Nw x.1 ∧ x.2 = false) (moduleStep cb (n + 1) i) := by
  unfold moduleStep
  dsimp only
  rw [show (cb).fs.isDir (pjoin i.path MODULE) = (ca).fs.isDir (pjoin i.path MODULE) from h.adds.isDir _]
  split
  · exact .ret _
  · split
    · exact .crash _
    · rename_i name _
      refine fresh_load h fun r hr => ?_
      cases r with
      | error err => exact .ret _
      | ok pkg =>
        dsimp only
        rw [show (cb).fs.isDir (pjoin (pjoin i.path MODULE) name) = (ca).fs.isDir (pjoin (pjoin i.path MODULE) name)
          from h.adds.isDir _]
        split
        · have := fresh_file h ⟨pjoin i.path MODULE, i.request⟩
          generalize resolveAsFile ca ⟨pjoin i.path MODULE, i.request⟩ = s at this ⊢
          generalize resolveAsFile cb ⟨pjoin i.path MODULE, i.request⟩ = s' at this ⊢
          cases this with
          | ret => split <;> exact .ret _
          | found _ hn =>
            obtain ⟨j, rfl⟩ := hn.passes
            exact .found _ ⟨hn, rfl⟩
        · refine (fresh_chain h _ (hr pkg rfl) _ ⟨_, rfl⟩).bind (fun s => ?_) fun s hs => ?_
          · cases s with
            | success r => exact .ret _
            | resolving j => exact .ret _
            | error e j => dsimp only; split <;> exact .ret _
          · obtain ⟨j, rfl⟩ := hs.passes
            exact ⟨_, rfl, hs, rfl⟩

theorem fresh_modules (n : Nat) (i : Info) :
    (resolveAsModules ca n i).Grows Nw (resolveAsModules cb (n + 1) i) := by
  induction n generalizing i with
  | zero => exact .fuel _
  | succ n ih =>
    unfold resolveAsModules
    refine (fresh_moduleStep h n i).bind (fun x => ?_) fun x hx => ?_
    · obtain ⟨s, b⟩ := x
      cases b with
      | true => exact .ret _
      | false =>
        refine Prog.Grows.bind (New := Nw) (fresh_stage fun j => ?_) (fun s => ?_) fun s hs => ?_
        · split
          · exact ih _
          · exact .ret _
        · cases s <;> exact .ret _
        · obtain ⟨j, rfl⟩ := hs.passes
          exact ⟨_, rfl, hs⟩
    · obtain ⟨s, b⟩ := x
      obtain ⟨h1, h2⟩ := hx
      cases (h2 : b = false)
      obtain ⟨j, rfl⟩ := FreshStats.passes h1
      exact ⟨_, rfl, h1⟩

omit h in
theorem fresh_aliasLoop {rec rec' : Info → Prog Stats} (hr : ∀ i, (rec i).Grows Nw (rec' i)) (info : Info)
    (l : List (Str × AliasMap)) : (aliasLoop rec info l).Grows Nw (aliasLoop rec' info l) := by
  induction l with
  | nil => exact .ret _
  | cons kv l ih =>
    obtain ⟨from_, to⟩ := kv
    unfold aliasLoop
    dsimp only
    split
    · cases to with
      | ignored => exact .ret _
      | target to =>
        dsimp only
        split
        · exact ih
        · refine (hr _).bind (fun s => ?_) fun s hs => ?_
          · cases s with
            | success r => exact .ret _
            | resolving j => exact ih
            | error e j => exact ih
          · obtain ⟨j, rfl⟩ := hs.passes
            exact ⟨_, rfl, hs⟩
    · exact ih

theorem fresh_inner (n : Nat) (i : Info) :
    (resolveInner ca n i).Grows Nw (resolveInner cb (n + 1) i) := by
  induction n generalizing i with
  | zero => exact .fuel _
  | succ n ih =>
    unfold resolveInner
    refine Prog.Grows.bind (New := Nw) ?_ (fun s => ?_) fun s hs => ?_
    · refine Prog.Grows.bind (New := Nw) ?_ (fun s => ?_) fun s hs => ?_
      · unfold aliasPlugin
        split
        · exact .ret _
        · exact fresh_aliasLoop ih _ _
      · refine Prog.Grows.bind (New := Nw) (fresh_stage fun i => ?_) (fun s => ?_) fun s hs => ?_
        · unfold preferRelativePlugin
          split
          · exact .ret _
          · split
            · rename_i h
              rw [if_pos (show (cb).opts.preferRelative = true from h)]
              refine (ih _).bind (fun s => ?_) fun s hs => ?_
              · cases s <;> exact .ret _
              · obtain ⟨j, rfl⟩ := hs.passes
                exact ⟨_, rfl, hs⟩
            · rename_i h
              rw [if_neg (show ¬ (cb).opts.preferRelative = true from h)]
              exact .ret _
        · refine Prog.Grows.bind (New := Nw) (fresh_stage fun i => ?_) (fun s => ?_) fun s hs => ?_
          · unfold pkgStage
            refine fresh_load h fun r hr => ?_
            cases r with
            | error err => exact .ret _
            | ok pkg =>
              refine fresh_andThen (fresh_imports h _ (hr pkg rfl) _).1 fun i => ?_
              rw [(fresh_field h _ pkg i).1, (fresh_field h _ pkg i).2]
              exact .ret _
          · refine fresh_stage fun i => ?_
            unfold lastStage
            have : ((resolveAsFile ca i).andThen fun i => resolveAsDir ca n i).Grows Nw
                ((resolveAsFile cb i).andThen fun i => resolveAsDir cb (n + 1) i) :=
              fresh_andThen (fresh_file h i) (fresh_dir h n)
            split
            · exact this
            · exact this
            · exact this
            · exact fresh_modules h _ _
          · obtain ⟨j, rfl⟩ := hs.passes
            exact ⟨_, rfl, hs⟩
        · obtain ⟨j, rfl⟩ := hs.passes
          exact ⟨_, rfl, hs⟩
      · obtain ⟨j, rfl⟩ := hs.passes
        exact ⟨_, rfl, hs⟩
    · cases s with
      | success r => exact .ret _
      | resolving j => exact .crash _
      | error e j => exact .ret _
    · obtain ⟨j, rfl⟩ := hs.passes
      exact ⟨_, rfl, hs⟩

omit h in
theorem pure_fileOk (ht : o.tsconfig = none) (n : Nat) (path request : Str) :
    (resolveStats ca n path request).Sat (fun _ => True) (fun _ _ => True)
      (FinalInv (FileOk o fs) (fun _ => True) True ⟨path, parseRequest request⟩) := by
  refine resolveStats_sat (c := ca) (D := fun _ => True) (L := fun _ => True) (I := fun _ => True) ?_ n path request
    trivial fun l hl => ?_
  · exact {
      load := fun p _ => by
        rcases findPkg_cases fs o.descriptionFile p with ⟨a, ha⟩ | ⟨c, hc⟩
        · show (findPkg fs o.descriptionFile p).Sat _ _ _
          rw [ha]
          exact ⟨fun _ _ => trivial, fun _ _ => trivial⟩
        · show (findPkg fs o.descriptionFile p).Sat _ _ _
          rw [hc]
          trivial
      errTag := trivial
      errPkg := fun _ _ => ⟨fun _ => trivial, fun _ _ _ _ _ => trivial, fun _ _ _ _ _ => trivial⟩
      ask := fun _ _ => trivial
      askModule := fun _ _ => trivial
      pathGet := fun _ _ => trivial
      pathPkg := fun _ _ _ _ => trivial
      pathModule := fun _ _ => trivial
      pathParent := fun _ _ _ _ _ _ => trivial
      target := fun _ _ _ => trivial
      file := fun i _ => resolveAsFile_ok (c := ca) trivial
      exports := fun _ _ _ _ => trivial
      imports := fun _ _ _ _ => ⟨trivial, trivial⟩ }
  · cases ht.symm.trans hl

theorem fresh_resolve (ht : o.tsconfig = none) (n : Nat) (path request : Str) :
    (resolveCtx ca n path request).Grows (AnswerIn P o fs') (resolveCtx cb (n + 1) path request) := by
  unfold resolveCtx
  have hsat := pure_fileOk (fs := fs) ht n path request
  have hg : (resolveStats ca n path request).Grows Nw (resolveStats cb (n + 1) path request) := by
    unfold resolveStats
    have h1 : (ca).opts.tsconfig = none := ht
    have h2 : (cb).opts.tsconfig = none := ht
    simp only [h1, h2]
    exact fresh_inner h n _
  generalize resolveStats ca n path request = p at hg hsat
  generalize resolveStats cb (n + 1) path request = q at hg
  cases hg with
  | fuel => exact .fuel _
  | crash c => exact .crash c
  | ret s =>
    cases s with
    | error e i => exact .ret _
    | resolving i => exact .crash _
    | success r =>
      have : normalizeResult cb r = normalizeResult ca r := by
        cases r with
        | ignored => rfl
        | info i =>
          have hi : FileOk o fs i := hsat
          have hc : fs'.canon i.path = fs.canon i.path :=
            h.adds.canon _ fun hP => by have := hi.file; rw [(h.adds.new _ hP).1] at this; cases this
          unfold normalizeResult normalizePath
          simp only [show (cb).fs.canon i.path = (ca).fs.canon i.path from hc]
          rfl
      show (normalizeResult ca r).Grows _ (normalizeResult cb r)
      rw [this]
      refine .of_cases ?_
      unfold normalizeResult
      split
      · split
        · exact .inr ⟨_, rfl⟩
        · split <;> exact .inl ⟨_, rfl⟩
      · exact .inl ⟨_, rfl⟩
  | found _ hs =>
    obtain ⟨⟨p, t, q, f, k⟩, rfl⟩ := hs.passes
    obtain ⟨hf, ht', hk⟩ := hs
    cases (ht' : t = [])
    cases (hk : k = .relative)
    obtain ⟨b, h3, h4⟩ := normalizeResult_file (c := cb) rfl p q f
    show Prog.Grows _ _ (normalizeResult cb (.info ⟨p, ⟨[], q, f, .relative⟩⟩))
    rw [h3]
    exact .found _ ⟨p, q, f, hf, h4⟩

end

end Verif
