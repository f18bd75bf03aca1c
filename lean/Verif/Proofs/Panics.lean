import Verif.Proofs.Termination
import Verif.Proofs.Tsconfig
import Verif.Spec.Panics
/-!
# Where panics come from
-/

namespace Verif

/-- However the program ends if the operations answer as `Y` says: a value satisfies `Q`, a crash
satisfies `B`. -/
def Prog.Good {α : Type} (Y : (o : Op) → o.Ret → Prop) (B : Crash → Prop) (Q : α → Prop) :
    Prog α → Prop
  | .ret a => Q a
  | .crash c => B c
  | .op o k => ∀ r, Y o r → (k r).Good Y B Q

/-- Operations may answer anything. -/
def AnyRet (o : Op) (_ : o.Ret) : Prop := True

section
variable {α β : Type} {Y : (o : Op) → o.Ret → Prop} {B : Crash → Prop} {Q : α → Prop}

theorem Prog.Good.mono {R : α → Prop} {p : Prog α} (h : p.Good Y B Q) (hQ : ∀ a, Q a → R a) :
    p.Good Y B R := by
  induction p with
  | ret a => exact hQ a h
  | crash c => exact h
  | op o k ih => exact fun r hr => ih r (h r hr)

theorem Prog.Good.weaken {B' : Crash → Prop} {p : Prog α} (h : p.Good Y B Q) (hB : ∀ c, B c → B' c) :
    p.Good Y B' Q := by
  induction p with
  | ret a => exact h
  | crash c => exact hB c h
  | op o k ih => exact fun r hr => ih r (h r hr)

theorem Prog.Good.bind {R : β → Prop} {p : Prog α} {f : α → Prog β} (h : p.Good Y B Q)
    (hf : ∀ a, Q a → (f a).Good Y B R) : (p.bind f).Good Y B R := by
  induction p with
  | ret a => exact hf a h
  | crash c => exact h
  | op o k ih => exact fun r hr => ih r (h r hr)

theorem Prog.Good.ends {p : Prog α} (h : p.Good AnyRet B Q) {x : Outcome α} (he : p.Ends x) :
    (∀ a, x = .done a → Q a) ∧ ∀ c, x = .crashed c → B c := by
  induction he with
  | ret a => exact ⟨fun b hb => by cases hb; exact h, nofun⟩
  | crash c => exact ⟨nofun, fun b hb => by cases hb; exact h⟩
  | op r _ ih => exact ih (h r trivial)

/-- What is known of the answers. -/
theorem Prog.Good.sat {G : Op → Prop} {p : Prog α} (h : p.Good Y B Q) {P : α → Prop} (hs : p.Sat G Y P) :
    p.Good Y B fun a => Q a ∧ P a := by
  induction p with
  | ret a => exact ⟨h, hs⟩
  | crash c => exact h
  | op o k ih => exact fun r hr => ih r (h r hr) (hs.2 r hr)

theorem Prog.Good.all {p : Prog α} (h : p.Good Y B Q) {P : α → Prop} (hs : p.All P) :
    p.Good Y B fun a => Q a ∧ P a := by
  induction p with
  | ret a => exact ⟨h, hs⟩
  | crash c => exact h
  | op o k ih => exact fun r hr => ih r (h r hr) (hs.2 r trivial)

theorem Prog.Good.andThen {R E R' E' : Info → Prop} {p : Prog Stats} {f : Info → Prog Stats}
    (h : p.Good Y B (StatsAre R E)) (hf : ∀ i, R i → (f i).Good Y B (StatsAre R' E'))
    (he : ∀ i, E i → E' i) : (p.bind fun s => s.andThen f).Good Y B (StatsAre R' E') := by
  refine h.bind fun s hs => ?_
  cases s with
  | resolving i => exact hf i hs
  | success r => exact trivial
  | error e i => exact he i hs
end

/-- Nothing is known. -/
def Any (_ : Info) : Prop := True

/-- A directory that may have no main file: there is none, or a `browser` entry covers it. -/
def NoMainAt (c : Ctx) (L : Str → Pkg → Prop) (d : Str) : Prop :=
  c.fs.isDir d = true ∧ ((∀ p ∈ mainCandidates c.opts d, c.fs.isFile p = false) ∨
    c.opts.browserField = true ∧ ∃ m k pkg v, L d pkg ∧ m ∈ c.opts.mainFiles ∧
      (k, v) ∈ pkg.aliasFields ∧ Covers c.opts.extensions pkg.absDir k (pjoin d (cs!"./" ++ m)))

/-- The demands on crashes `B`, on packages `L` loaded for a path, and on requests `C`. -/
structure Safe (c : Ctx) (Y : (o : Op) → o.Ret → Prop) (B : Crash → Prop) (L : Str → Pkg → Prop) (C : Request → Prop) : Prop where
  fuel : B .fuel
  load : ∀ p, (c.load p).Good Y B fun r => ∀ pkg, r = .ok (some pkg) → L p pkg
  prefer : ∀ r, C r → C (r.withTarget (cs!"./" ++ r.target))
  empty : ∀ r, C r → C (r.withTarget [])
  browser : c.opts.browserField = true → ∀ p pkg k t r, L p pkg → (k, .target t) ∈ pkg.aliasFields →
    C r → C (r.withTarget t)
  imports : ∀ p pkg root r l, L p pkg → pkg.importsTree = some root → C r →
    fieldProcess .imports root r.target c.opts.conditionNames = some (.ok l) →
    ∀ item ∈ l, C (parseRequest item)
  exports : ∀ p pkg root (info : Info) rem l, L p pkg → pkg.exportsTree = some root → C info.request →
    exportsRequestOf c pkg info = .ret (some rem) →
    fieldProcess .exports root rem c.opts.conditionNames = some (.ok l) →
    ∀ item ∈ l, C (parseRequest item)
  noSlash : ∀ r, C r → startsWith r.target cs!"@" = true → splitFirst '/' r.target = none →
    B (.panic .scopedNoSlash)
  slice : ∀ r, C r → moduleName r.target = none → B (.panic .moduleSlice)

/-- The demands on what is resolved: `J`. -/
structure SafeInfo (c : Ctx) (B : Crash → Prop) (L : Str → Pkg → Prop) (C : Request → Prop)
    (J : Info → Prop) : Prop where
  req : ∀ i, J i → C i.request
  alias : ∀ i src to, J i → (src, .target to) ∈ c.opts.alias → src <+: i.request.target →
    J ⟨i.path, i.request.withTarget (replaceFirst i.request.target src to)⟩
  prefer : ∀ i, J i → c.opts.preferRelative = true →
    J ⟨i.path, i.request.withTarget (cs!"./" ++ i.request.target)⟩
  mapped : ∀ i j, J i → (startsWith i.request.target cs!"#" = true ∨ c.opts.browserField = true) →
    C j.request → J j
  dir : ∀ i, J i → i.request.kind ≠ .normal → i.request.kind ≠ .internal → NoMainAt c L i.getPath →
    B (.panic .resolveUnreachable)

/-- A package that was loaded. -/
def Loaded (L : Str → Pkg → Prop) (pkg : Option Pkg) : Prop := ∀ p, pkg = some p → ∃ x, L x p

section
variable {c : Ctx} {Y : (o : Op) → o.Ret → Prop} {B : Crash → Prop} {L : Str → Pkg → Prop} {C : Request → Prop}

theorem exportsRequestOf_cases (c : Ctx) (pkg : Pkg) (info : Info) :
    (∃ r, exportsRequestOf c pkg info = .ret r) ∨
      (startsWith info.request.target cs!"@" = true ∧ splitFirst '/' info.request.target = none ∧
        exportsRequestOf c pkg info = .panic .scopedNoSlash) := by
  unfold exportsRequestOf
  simp only
  split
  · rename_i h
    split at h
    · rename_i ha
      exact .inr ⟨ha, by simpa using h, rfl⟩
    · cases h
  · refine .inl ?_
    split
    · exact ⟨_, rfl⟩
    · split
      · exact ⟨_, rfl⟩
      · exact ⟨_, rfl⟩

theorem good_exports (hs : Safe c Y B L C) {pkg : Option Pkg} (hp : Loaded L pkg) {info : Info}
    (hi : C info.request) : (exportsPlugin c pkg info).Good Y B (StatsAre (fun i => C i.request) Any) := by
  unfold exportsPlugin
  cases pkg with
  | none => exact hi
  | some pkg =>
    obtain ⟨x, hx⟩ := hp pkg rfl
    simp only
    split
    · exact hi
    split
    · exact hi
    split
    · exact hi
    rename_i root hroot
    rcases exportsRequestOf_cases c pkg info with ⟨r, hr⟩ | ⟨h1, h2, hr⟩
    · rw [hr]
      cases r with
      | none => exact trivial
      | some rem =>
        show Prog.Good Y B _ (match fieldProcess .exports root rem c.opts.conditionNames with
          | none => _ | some (.error err) => _ | some (.ok list) => _)
        cases hf : fieldProcess .exports root rem c.opts.conditionNames with
        | none => exact hs.fuel
        | some r =>
          cases r with
          | error e => exact trivial
          | ok l =>
            simp only
            cases hk : exportsPick c pkg.absDir l with
            | none => exact trivial
            | some i =>
              obtain ⟨item, hm, e, -⟩ := exportsPick_mem hk
              show C i.request
              rw [e]
              exact hs.exports x pkg root info rem l hx hroot hi hr hf item hm
    · rw [hr]
      exact hs.noSlash _ hi h1 h2

theorem aliasChain_mem {fields : List (Str × AliasMap)} {n : Nat} {to : AliasMap} {t : Str}
    (hto : ∃ k, (k, to) ∈ fields) (h : aliasChain fields n to = some (.target t)) :
    ∃ k, (k, .target t) ∈ fields := by
  induction n generalizing to with
  | zero => cases h
  | succ n ih =>
    cases to with
    | ignored => cases h
    | target s =>
      simp only [aliasChain] at h
      split at h
      · rename_i next hn
        exact ih ⟨s, alookup_mem hn⟩ h
      · cases h; exact hto

theorem aliasField_cases (c : Ctx) (n : Nat) (pkg : Option Pkg) (info : Info) :
    aliasFieldPlugin c n pkg info = .crash .fuel ∨
    aliasFieldPlugin c n pkg info = .ret (.resolving info) ∨
    aliasFieldPlugin c n pkg info = .ret (.success .ignored) ∨
    (c.opts.browserField = true ∧ ∃ p k t, pkg = some p ∧ (k, .target t) ∈ p.aliasFields ∧
      aliasFieldPlugin c n pkg info = .ret (.resolving ((info.withPath p.absDir).withTarget t))) := by
  unfold aliasFieldPlugin
  split
  · exact .inr (.inl rfl)
  rename_i hb
  split
  · exact .inr (.inl rfl)
  rename_i pkg
  split
  · exact .inr (.inl rfl)
  rename_i k to hf
  split
  · exact .inl rfl
  · rename_i t ht
    obtain ⟨k', hk'⟩ := aliasChain_mem ⟨k, List.mem_of_find?_eq_some hf⟩ ht
    exact .inr (.inr (.inr ⟨by simpa using hb, pkg, k', t, rfl, hk', rfl⟩))
  · exact .inr (.inr (.inl rfl))

theorem good_aliasField (hs : Safe c Y B L C) {pkg : Option Pkg} (hp : Loaded L pkg) {n : Nat} {info : Info}
    (hi : C info.request) : (aliasFieldPlugin c n pkg info).Good Y B (StatsAre (fun i => C i.request) Any) := by
  rcases aliasField_cases c n pkg info with h | h | h | ⟨hb, p, k, t, rfl, hm, h⟩
  · rw [h]; exact hs.fuel
  · rw [h]; exact hi
  · rw [h]; exact trivial
  · rw [h]
    obtain ⟨x, hx⟩ := hp p rfl
    exact hs.browser hb x p k t info.request hx hm hi

/-- Without demands on the request. -/
theorem any_aliasField (hf : B .fuel) (n : Nat) (pkg : Option Pkg) (info : Info) :
    (aliasFieldPlugin c n pkg info).Good Y B (StatsAre Any Any) := by
  rcases aliasField_cases c n pkg info with h | h | h | ⟨hb, p, k, t, rfl, hm, h⟩
  · rw [h]; exact hf
  · rw [h]; exact trivial
  · rw [h]; exact trivial
  · rw [h]; exact trivial

theorem good_check {info : Info} {target : Str} (hi : C info.request) :
    StatsAre (fun i => C i.request) Any (importsCheck c info target) := by
  unfold importsCheck
  split
  · exact hi
  · exact trivial

theorem good_imports (hs : Safe c Y B L C) (n : Nat) {pkg : Option Pkg} (hp : Loaded L pkg) {info : Info}
    (hi : C info.request) : (importsPlugin c n pkg info).Good Y B (StatsAre (fun i => C i.request) Any) := by
  induction n generalizing pkg info with
  | zero => exact hs.fuel
  | succ n ih =>
    unfold importsPlugin
    cases pkg with
    | none => exact hi
    | some pkg =>
      obtain ⟨x, hx⟩ := hp pkg rfl
      simp only
      split
      · exact hi
      split
      · exact hi
      rename_i root hroot
      split
      · exact hs.fuel
      · exact trivial
      · exact trivial
      · rename_i item l hf
        have hc : C (parseRequest item) :=
          hs.imports x pkg root info.request _ hx hroot hi hf item (List.mem_cons_self ..)
        split
        · refine (hs.load _).bind fun r hr => ?_
          cases r with
          | error e => exact trivial
          | ok pkg' =>
            have hp' : Loaded L pkg' := fun p hp => ⟨_, hr p (by rw [hp])⟩
            simp only
            split
            · exact hc
            · refine (good_exports hs hp' hc).bind fun s hs1 => ?_
              refine Prog.Good.bind (Q := StatsAre (fun i => C i.request) Any) ?_ fun s hs2 => ?_
              · cases s with
                | resolving i => exact ih hp' hs1
                | success r => exact trivial
                | error e i => exact trivial
              refine Prog.Good.bind (Q := StatsAre (fun i => C i.request) Any) ?_ fun s hs3 => ?_
              · cases s with
                | resolving i => exact good_aliasField hs hp' hs2
                | success r => exact trivial
                | error e i => exact trivial
              · cases s with
                | resolving i => exact good_check hs3
                | success r => exact trivial
                | error e i => exact trivial
        · split
          · exact ih hp hc
          · exact good_check hc

/-! ## Directories -/

theorem asFile_cases (c : Ctx) (info : Info) :
    (∃ r, resolveAsFile c info = .success r) ∨ resolveAsFile c info = .resolving info := by
  rcases resolveAsFile_cases c info with ⟨p, -, h⟩ | ⟨-, h⟩
  · exact .inl ⟨_, h⟩
  · exact .inr h

theorem any_mainFileLoop (hf : B .fuel) (n : Nat) (pkg : Option Pkg) (info : Info) (l : List Str)
    (cur : Info) : (mainFileLoop c n pkg info l cur).Good Y B (StatsAre (fun i => i = info) Any) := by
  induction l generalizing cur with
  | nil => exact rfl
  | cons m l ih =>
    have hk : (cur.withTarget (cs!"./" ++ m)).request.kind ≠ .normal := by
      show getTargetKind (cs!"./" ++ m) ≠ .normal
      rw [getTargetKind_dotSlash]
      nofun
    have ht : ¬ cs!"#" <+: (cur.withTarget (cs!"./" ++ m)).request.target := by
      simp [Info.withTarget, Request.withTarget]
    unfold mainFileLoop
    simp only [exportsPlugin_kind hk, Prog.ret_bind, Stats.andThen_resolving]
    refine Prog.Good.bind (Q := StatsAre Any Any) ?_ fun s hs => ?_
    · cases n with
      | zero => exact hf
      | succ n =>
        rw [importsPlugin_pass ht]
        simp only [Prog.ret_bind, Stats.andThen_resolving]
        refine (any_aliasField hf _ _ _).andThen (R' := Any) (E' := Any) (fun i _ => ?_) fun _ h => h
        rcases asFile_cases c i with ⟨r, h⟩ | h <;> rw [h] <;> exact trivial
    · cases s with
      | success r => exact trivial
      | resolving i => exact ih i
      | error e i => exact ih i

/-- Main files that no `browser` entry covers are tried in order. -/
theorem mainFileLoop_uncovered (n : Nat) (pkg : Option Pkg) (info cur : Info) (l : List Str)
    (hb : ∀ m ∈ l, NotCovered c.opts pkg (pjoin cur.path (cs!"./" ++ m))) {p : Str}
    (hp : FirstIn (fun p => c.fs.isFile p = true)
      (l.flatMap fun m => fileCandidates c.opts (pjoin cur.path (cs!"./" ++ m))) p) :
    ∃ r, mainFileLoop c (n + 1) pkg info l cur = .ret (.success r) := by
  induction l generalizing cur with
  | nil => obtain ⟨a, b, h, -⟩ := hp; simp at h
  | cons m l ih =>
    have hk : (cur.withTarget (cs!"./" ++ m)).request.kind ≠ .normal := by
      show getTargetKind (cs!"./" ++ m) ≠ .normal
      rw [getTargetKind_dotSlash]
      nofun
    have ht : ¬ cs!"#" <+: (cur.withTarget (cs!"./" ++ m)).request.target := by
      simp [Info.withTarget, Request.withTarget]
    have hcur : targetPath (cur.withTarget (cs!"./" ++ m)).path
        (cur.withTarget (cs!"./" ++ m)).request.target = pjoin cur.path (cs!"./" ++ m) := by
      simp only [Info.withTarget, Request.withTarget]
      exact targetPath_dotSlash ..
    have halias := aliasFieldPlugin_notCovered (c := c) (n := n + 1) (pkg := pkg) hk
      (by rw [hcur]; exact hb m (List.mem_cons_self ..))
    unfold mainFileLoop
    simp only [exportsPlugin_kind hk, Prog.ret_bind, Stats.andThen_resolving,
      importsPlugin_pass ht, halias]
    rcases resolveAsFile_cases c (cur.withTarget (cs!"./" ++ m)) with ⟨q, hq, h⟩ | ⟨hq, h⟩
    · rw [h]; exact ⟨_, rfl⟩
    · rw [h]
      rw [hcur] at hq
      simp only
      rw [List.flatMap_cons, firstIn_append_right (by simpa using hq)] at hp
      exact ih _ (fun m' hm => hb m' (List.mem_cons_of_mem _ hm)) hp

theorem good_mainFile (hs : Safe c Y B L C) (n : Nat) {pkg : Option Pkg} {info : Info}
    (hd : c.fs.isDir info.path = true) (hp : ∀ p, pkg = some p → L info.path p) :
    (mainFilePlugin c n pkg info).Good Y B (StatsAre (fun i => i = info ∧ NoMainAt c L info.path) Any) := by
  have hall := any_mainFileLoop (Y := Y) (c := c) (B := B) hs.fuel n pkg info c.opts.mainFiles info
  unfold mainFilePlugin
  by_cases hB : NoMainAt c L info.path
  · refine hall.mono fun s h => ?_
    cases s with
    | resolving i => exact ⟨h, hB⟩
    | success r => exact trivial
    | error e i => exact trivial
  · have hnc : ∀ m ∈ c.opts.mainFiles, NotCovered c.opts pkg (pjoin info.path (cs!"./" ++ m)) := by
      intro m hm hb p kv hpk hkv hcov
      exact hB ⟨hd, .inr ⟨hb, m, kv.1, p, kv.2, hp p hpk, hm, hkv, hcov⟩⟩
    rcases firstIn_or_none (fun p => c.fs.isFile p = true) (mainCandidates c.opts info.path) with
      ⟨p, h⟩ | h
    · cases n with
      | zero =>
        cases hm : c.opts.mainFiles with
        | nil =>
          obtain ⟨a, b, h, -⟩ := h
          rw [mainCandidates, hm] at h
          simp at h
        | cons m l =>
          unfold mainFileLoop
          have hk : (info.withTarget (cs!"./" ++ m)).request.kind ≠ .normal := by
            show getTargetKind (cs!"./" ++ m) ≠ .normal
            rw [getTargetKind_dotSlash]
            nofun
          simp only [exportsPlugin_kind hk, Prog.ret_bind, Stats.andThen_resolving]
          exact hs.fuel
      | succ n =>
        obtain ⟨r, hr⟩ := mainFileLoop_uncovered (c := c) n pkg info info c.opts.mainFiles hnc h
        rw [hr]
        exact trivial
    · exact (hB ⟨hd, .inl (by simpa using h)⟩).elim

theorem any_mainField (hf : B .fuel) (n : Nat) {asDir : Info → Prog Stats}
    (had : ∀ i, (asDir i).Good Y B (StatsAre Any Any)) (pkg : Pkg) (info : Info) (l : List Str) (cur : Info) :
    (mainFieldLoop c n asDir pkg info l cur).Good Y B (StatsAre (fun i => i = info) Any) := by
  induction l generalizing cur with
  | nil => exact rfl
  | cons f l ih =>
    unfold mainFieldLoop
    split
    · exact ih cur
    · split
      · exact rfl
      · simp only
        generalize (if startsWith _ cs!"./" then _ else _ : Info) = cur'
        refine Prog.Good.bind (Q := StatsAre Any Any) ?_ fun s hs => ?_
        · refine (any_aliasField hf _ _ _).bind fun s hs => ?_
          refine Prog.Good.bind (Q := StatsAre Any Any) ?_ fun s hs => ?_
          · cases s with
            | resolving i =>
              show StatsAre Any Any (resolveAsFile c i)
              rcases asFile_cases c i with ⟨r, h⟩ | h <;> rw [h] <;> exact trivial
            | success r => exact trivial
            | error e i => exact trivial
          · cases s with
            | resolving i => exact had i
            | success r => exact trivial
            | error e i => exact trivial
        · cases s with
          | success r => exact trivial
          | resolving i => exact ih i
          | error e i => exact ih i

theorem good_asDir (hs : Safe c Y B L C) (n : Nat) (info : Info) :
    (resolveAsDir c n info).Good Y B (StatsAre (fun i => i.request = info.request.withTarget [] ∧
      NoMainAt c L info.getPath) Any) := by
  induction n generalizing info with
  | zero => exact hs.fuel
  | succ n ih =>
    unfold resolveAsDir
    simp only
    split
    · exact trivial
    rename_i hd
    refine (hs.load _).bind fun r hr => ?_
    cases r with
    | error e => exact trivial
    | ok pkg =>
      simp only
      refine Prog.Good.andThen (R := fun i => i = (info.withPath info.getPath).withTarget []) (E := Any) ?_
        (fun i hi => ?_) fun _ h => h
      · unfold mainFieldPlugin
        cases pkg with
        | none => exact rfl
        | some pkg =>
          simp only
          split
          · exact rfl
          · refine any_mainField hs.fuel n (fun i => (ih i).mono fun s _ => ?_) _ _ _ _
            cases s <;> exact trivial
      · subst hi
        refine (good_mainFile hs n (pkg := pkg) (by simpa [Info.withPath, Info.withTarget] using hd)
          fun p hp => hr p (by rw [hp])).mono fun s h => ?_
        cases s with
        | resolving i => exact ⟨by rw [h.1]; rfl, h.2⟩
        | success r => exact trivial
        | error e i => exact trivial

/-! ## Modules -/

theorem good_chain (hs : Safe c Y B L C) (n : Nat) {pkg : Option Pkg} (hp : Loaded L pkg) {info : Info}
    (hi : C info.request) :
    (modulePackageChain c n pkg info).Good Y B (StatsAre (fun i => C i.request) Any) := by
  unfold modulePackageChain
  refine (good_exports hs hp hi).bind fun s hs1 => ?_
  refine Prog.Good.bind (Q := StatsAre (fun i => C i.request) Any) ?_ fun s hs2 => ?_
  · cases s with
    | resolving i => exact good_imports hs n hp hs1
    | success r => exact trivial
    | error e i => exact trivial
  refine Prog.Good.bind (Q := StatsAre (fun i => C i.request) Any) ?_ fun s hs3 => ?_
  · cases s with
    | resolving i =>
      simp only [Stats.andThen]
      split
      · exact good_aliasField hs hp (hs.prefer _ hs2)
      · exact good_aliasField hs hp hs2
    | success r => exact trivial
    | error e i => exact trivial
  refine Prog.Good.bind (Q := StatsAre (fun i => C i.request) Any) ?_ fun s hs4 => ?_
  · cases s with
    | resolving i =>
      show StatsAre _ _ (resolveAsFile c i)
      rcases asFile_cases c i with ⟨r, h⟩ | h <;> rw [h]
      · exact trivial
      · exact hs3
    | success r => exact trivial
    | error e i => exact trivial
  · cases s with
    | resolving i =>
      refine (good_asDir hs n i).mono fun s h => ?_
      cases s with
      | resolving j => show C j.request; rw [h.1]; exact hs.empty _ hs4
      | success r => exact trivial
      | error e i => exact trivial
    | success r => exact trivial
    | error e i => exact trivial

theorem good_step (hs : Safe c Y B L C) (n : Nat) {info : Info} (hi : C info.request) :
    (moduleStep c n info).Good Y B fun sb =>
      StatsAre (fun i => C i.request ∧ sb.2 = false) Any sb.1 := by
  unfold moduleStep
  simp only
  split
  · exact ⟨hi, rfl⟩
  split
  · rename_i h
    exact hs.slice _ hi h
  · refine (hs.load _).bind fun r hr => ?_
    cases r with
    | error e => exact trivial
    | ok pkg =>
      have hp : Loaded L pkg := fun p hp => ⟨_, hr p (by rw [hp])⟩
      simp only
      split
      · split
        · exact trivial
        · exact ⟨hi, rfl⟩
      · refine (good_chain hs n hp (info := ⟨pjoin info.path MODULE, info.request⟩) hi).bind fun s h => ?_
        cases s with
        | resolving i => exact ⟨h, rfl⟩
        | success r => exact trivial
        | error e i =>
          simp only
          split
          · exact ⟨hi, rfl⟩
          · exact trivial

/-- Stages that do not go on. -/
def Never (_ : Info) : Prop := False

theorem good_modules (hs : Safe c Y B L C) (n : Nat) {info : Info} (hi : C info.request) :
    (resolveAsModules c n info).Good Y B (StatsAre Never Any) := by
  induction n generalizing info with
  | zero => exact hs.fuel
  | succ n ih =>
    unfold resolveAsModules
    refine (good_step hs n hi).bind fun sb h => ?_
    obtain ⟨s, b⟩ := sb
    cases b with
    | true =>
      cases s with
      | resolving i => exact (Bool.noConfusion h.2 : False).elim
      | success r => exact trivial
      | error e i => exact trivial
    | false =>
      simp only
      refine Prog.Good.bind (Q := StatsAre Any Any) ?_ fun s h => ?_
      · cases s with
        | resolving i =>
          simp only [Stats.andThen]
          split
          · rename_i parent _
            refine (ih (info := i.withPath parent) h.1).mono fun s h => ?_
            cases s <;> exact trivial
          · exact trivial
        | success r => exact trivial
        | error e i => exact trivial
      · cases s <;> exact trivial

/-! ## The whole of a resolution -/

variable {J : Info → Prop}

theorem good_aliasLoop (hj : SafeInfo c B L C J) {rec : Info → Prog Stats}
    (hr : ∀ i, J i → (rec i).Good Y B (StatsAre Never Any)) {info : Info} (hi : J info)
    {l : List (Str × AliasMap)} (hl : ∀ x ∈ l, x ∈ c.opts.alias) :
    (aliasLoop rec info l).Good Y B (StatsAre J Any) := by
  induction l with
  | nil => exact hi
  | cons x l ih =>
    obtain ⟨src, to⟩ := x
    have ih' := ih fun x hx => hl x (List.mem_cons_of_mem _ hx)
    unfold aliasLoop
    simp only
    split
    · rename_i hp
      cases to with
      | ignored => exact trivial
      | target to =>
        simp only
        split
        · exact ih'
        · refine (hr _ (hj.alias _ src to hi (hl _ (List.mem_cons_self ..))
            ((startsWith_iff _ _).1 hp))).bind fun s _ => ?_
          cases s with
          | success r => exact trivial
          | resolving i => exact ih'
          | error e i => exact ih'
    · exact ih'

theorem good_pkgStage (hs : Safe c Y B L C) (hj : SafeInfo c B L C J) (n : Nat) {info : Info} (hi : J info) :
    (pkgStage c n info).Good Y B (StatsAre J Any) := by
  unfold pkgStage
  simp only
  refine (hs.load _).bind fun r hr => ?_
  cases r with
  | error e => exact trivial
  | ok pkg =>
    have hp : Loaded L pkg := fun p hp => ⟨_, hr p (by rw [hp])⟩
    by_cases h : startsWith info.request.target cs!"#" = true ∨ c.opts.browserField = true
    · refine ((good_imports hs n hp (hj.req _ hi)).andThen (fun i hi => good_aliasField hs hp hi)
        fun _ h => h).mono fun s hs => ?_
      cases s with
      | resolving i => exact hj.mapped info i hi h hs
      | success r => exact trivial
      | error e i => exact trivial
    · rw [not_or, startsWith_iff] at h
      cases n with
      | zero => exact hs.fuel
      | succ n =>
        simp only
        rw [importsPlugin_pass h.1]
        simp only [Prog.ret_bind, Stats.andThen_resolving]
        rw [aliasFieldPlugin_off (by simpa using h.2)]
        exact hi

theorem good_last (hs : Safe c Y B L C) (hj : SafeInfo c B L C J) (n : Nat) {info : Info} (hi : J info) :
    (lastStage c n info).Good Y B (StatsAre (fun _ => B (.panic .resolveUnreachable)) Any) := by
  have hpath : info.request.kind ≠ .normal → info.request.kind ≠ .internal →
      ((resolveAsFile c info).andThen fun i => resolveAsDir c n i).Good Y B
        (StatsAre (fun _ => B (.panic .resolveUnreachable)) Any) := by
    intro h1 h2
    rcases asFile_cases c info with ⟨r, h⟩ | h <;> rw [h]
    · exact trivial
    · refine (good_asDir hs n info).mono fun s h => ?_
      cases s with
      | resolving i => exact hj.dir info hi h1 h2 h.2
      | success r => exact trivial
      | error e i => exact trivial
  have hmod : (resolveAsModules c n info).Good Y B
      (StatsAre (fun _ => B (.panic .resolveUnreachable)) Any) := by
    refine (good_modules hs n (hj.req _ hi)).mono fun s h => ?_
    cases s with
    | resolving i => exact h.elim
    | success r => exact trivial
    | error e i => exact trivial
  unfold lastStage
  split
  · rename_i h; exact hpath (by rw [h]; nofun) (by rw [h]; nofun)
  · rename_i h; exact hpath (by rw [h]; nofun) (by rw [h]; nofun)
  · rename_i h; exact hpath (by rw [h]; nofun) (by rw [h]; nofun)
  · exact hmod

theorem good_inner (hs : Safe c Y B L C) (hj : SafeInfo c B L C J) (n : Nat) {info : Info} (hi : J info) :
    (resolveInner c n info).Good Y B (StatsAre Never Any) := by
  induction n generalizing info with
  | zero => exact hs.fuel
  | succ n ih =>
    unfold resolveInner
    refine Prog.Good.bind (Q := StatsAre (fun _ => B (.panic .resolveUnreachable)) Any) ?_ fun s h => ?_
    · refine Prog.Good.bind (Q := StatsAre J Any) ?_ fun s h => ?_
      · unfold aliasPlugin
        split
        · exact hi
        · exact good_aliasLoop hj (fun i hi => ih hi) hi fun x hx => hx
      refine Prog.Good.bind (Q := StatsAre J Any) ?_ fun s h => ?_
      · cases s with
        | success r => exact trivial
        | error e i => exact trivial
        | resolving i =>
          simp only [Stats.andThen]
          unfold preferRelativePlugin
          split
          · exact h
          split
          · rename_i hpr
            refine (ih (hj.prefer _ h hpr)).bind fun s _ => ?_
            cases s with
            | success r => exact trivial
            | resolving i => exact h
            | error e i => exact h
          · exact h
      refine Prog.Good.bind (Q := StatsAre J Any) ?_ fun s h => ?_
      · cases s with
        | success r => exact trivial
        | error e i => exact trivial
        | resolving i => exact good_pkgStage hs hj n h
      · cases s with
        | success r => exact trivial
        | error e i => exact trivial
        | resolving i => exact good_last hs hj n h
    · cases s with
      | success r => exact trivial
      | error e i => exact trivial
      | resolving i => exact h

/-! ## tsconfig -/

/-- The demands on tsconfig files: `K` holds of their contents. -/
structure SafeTs (c : Ctx) (B : Crash → Prop) (J : Info → Prop) (K : Json → Prop) : Prop where
  empty : ∀ f doc, c.fs.read f = some doc → doc.jsonc = .ok none → B (.panic .tsEmpty)
  parent : ∀ f json, TsFile c.fs f json → pparent f = none → B (.panic .tsParent)
  base : ∀ f json s, TsFile c.fs f json → json.get cs!"extends" = some (.str s) →
    ∀ d, J ⟨d, parseRequest s⟩
  file : ∀ f json, TsFile c.fs f json → K json
  merge : ∀ a b, K a → K b → K (jmerge a b)
  shape : ∀ json, K json → tsInfoOf json = none → B (.panic .tsShape)
  none : ∀ p : Str, J (Info.mk p Request.empty)

theorem good_tsValue (hs : Safe c Y B L C) (hj : SafeInfo c B L C J) {K : Json → Prop} (ht : SafeTs c B J K) (n : Nat) (f : Str) :
    (tsValue c n f).Good Y B fun r => ∀ j, r = .ok j → K j ∧ ∃ j', TsFile c.fs f j' := by
  induction n generalizing f with
  | zero => exact hs.fuel
  | succ n ih =>
    unfold tsValue
    split
    · exact nofun
    rename_i doc hdoc
    split
    · exact nofun
    · rename_i h
      exact ht.empty f doc hdoc h
    rename_i json hjson
    have hf : TsFile c.fs f json := ⟨doc, hdoc, hjson⟩
    have hok : ∀ j, Except.ok (ε := Err) json = .ok j → K j ∧ ∃ j', TsFile c.fs f j' := by
      rintro j ⟨⟩
      exact ⟨ht.file f _ hf, _, hf⟩
    split
    · rename_i s he
      split
      · rename_i hp
        exact ht.parent f json hf hp
      · refine (good_inner hs hj n (ht.base f json s hf he _)).bind fun st _ => ?_
        cases st with
        | resolving i => exact hok
        | error e i => exact hok
        | success r =>
          cases r with
          | ignored => exact nofun
          | info i =>
            refine (ih i.getPath).bind fun r hr => ?_
            cases r with
            | error e => exact nofun
            | ok ext =>
              rintro j ⟨⟩
              exact ⟨ht.merge _ _ (ht.file f _ hf) (hr ext rfl).1, _, hf⟩
    · exact hok

theorem good_tsEntries {rec : Info → Prog Stats}
    (hr : ∀ i, J i → (rec i).Good Y B (StatsAre Never Any)) (he : ∀ p : Str, J (Info.mk p Request.empty)) {info : Info}
    (hi : J info) {l : List (Str × List Str)}
    (hl : ∀ x ∈ l, matchStar x.1 info.request.target = none → B (.panic .starSlice)) :
    (tsEntries rec info l).Good Y B (StatsAre Never Any) := by
  induction l with
  | nil => exact hr info hi
  | cons x l ih =>
    obtain ⟨pattern, paths⟩ := x
    have ih' := ih fun x hx => hl x (List.mem_cons_of_mem _ hx)
    unfold tsEntries
    simp only
    split
    · rename_i h
      split at h
      · cases h
      · exact hl _ (List.mem_cons_self ..) h
    · exact ih'
    · rename_i s h
      clear h hl ih
      induction paths with
      | nil => exact ih'
      | cons p ps ihp =>
        unfold tsPathsTry
        refine (hr ⟨_, Request.empty⟩ (he _)).bind fun st _ => ?_
        cases st with
        | success r => exact trivial
        | resolving i => exact ihp
        | error e i => exact ihp

theorem good_tsconfig (hs : Safe c Y B L C) (hj : SafeInfo c B L C J) {K : Json → Prop} (ht : SafeTs c B J K) (n : Nat)
    {info : Info} (hi : J info) (f : Str)
    (hstar : ∀ json ts entries, K json → tsInfoOf json = some ts → createMatchList f ts = some entries →
      ∀ x ∈ entries, matchStar x.1 info.request.target = none → B (.panic .starSlice)) :
    (resolveWithTsconfig c n info f).Good Y B (StatsAre Never Any) := by
  unfold resolveWithTsconfig
  refine (good_tsValue hs hj ht n f).bind fun r hr => ?_
  cases r with
  | error e => exact trivial
  | ok json =>
    obtain ⟨hK, j', hf⟩ := hr json rfl
    simp only
    split
    · rename_i h
      exact ht.shape json hK h
    · rename_i ts hts
      split
      · rename_i h
        refine ht.parent f j' hf ?_
        unfold createMatchList at h
        repeat' split at h
        all_goals first | assumption | cases h
      · rename_i entries he
        intro seed _
        refine good_tsEntries (J := J) (fun i hi => good_inner hs hj n hi) ht.none hi fun x hx => ?_
        exact hstar json ts entries hK hts he x (mem_permute hx)

theorem good_ctx (hs : Safe c Y B L C) (hj : SafeInfo c B L C J) {K : Json → Prop}
    (ht : c.opts.tsconfig ≠ none → SafeTs c B J K) (n : Nat) (path request : Str)
    (hd : c.debug = true → (resolveStats c n path request).All fun s =>
      ∀ i, s = .success (.info i) → i.request.target = [])
    (hi : J ⟨path, parseRequest request⟩)
    (hstar : ∀ f json ts entries, c.opts.tsconfig = some f → K json → tsInfoOf json = some ts →
      createMatchList f ts = some entries →
      ∀ x ∈ entries, matchStar x.1 (parseRequest request).target = none → B (.panic .starSlice)) :
    (resolveCtx c n path request).Good Y B fun _ => True := by
  unfold resolveCtx
  refine Prog.Good.bind (Q := fun s => StatsAre Never Any s ∧
    (c.debug = true → ∀ i, s = .success (.info i) → i.request.target = [])) ?_ fun s h => ?_
  · have : (resolveStats c n path request).Good Y B (StatsAre Never Any) := by
      unfold resolveStats
      simp only
      split
      · rename_i f hf
        exact good_tsconfig hs hj (ht (by rw [hf]; nofun)) n (info := ⟨path, parseRequest request⟩) hi f
          (hstar f · · · hf)
      · exact good_inner hs hj n (info := ⟨path, parseRequest request⟩) hi
    by_cases h : c.debug = true
    · exact (this.all (hd h)).mono fun s hs => ⟨hs.1, fun _ => hs.2⟩
    · exact this.mono fun s hs => ⟨hs, fun h' => (h h').elim⟩
  · obtain ⟨h, h'⟩ := h
    cases s with
    | resolving i => exact h.elim
    | error e i => exact trivial
    | success r =>
      simp only
      unfold normalizeResult
      cases r with
      | ignored => exact trivial
      | info i =>
        simp only
        split
        · rename_i h
          simp only [Bool.and_eq_true] at h
          rw [h' h.1 i rfl] at h
          exact absurd h.2 (by decide)
        · split <;> exact trivial

end

end Verif
