import Verif.Spec.Watched
import Verif.Proofs.Packages
/-!
# The files that have a say in the answer to a request by path: proofs
-/

namespace Verif

theorem Prog.bind_same {α β : Type} {p : Prog α} {f g : α → Prog β} (h : ∀ a, p.Returns a → f a = g a) :
    p.bind f = p.bind g := by
  induction p with
  | ret a => exact h a (.ret a)
  | crash c => rfl
  | op o k ih => exact congrArg (Prog.op o) (funext fun r => ih r fun a ha => h a (.op r ha))

section
variable {o : Opts} {fs fs' : Fs} {debug : Bool} {W : Str → Prop} (hw : SameAt W fs fs')
include hw

/-- The description file of a path. -/
theorem findPkg_above {q : Str} (ha : ∀ a ∈ upward (q.length + 1) q, W a)
    (hf : ∀ a ∈ upward (q.length + 1) q, ∀ desc, o.descriptionFile = some desc → W (pjoin a desc)) :
    findPkg fs' o.descriptionFile q = findPkg fs o.descriptionFile q := by
  unfold findPkg
  split
  · rfl
  · rename_i desc hdesc
    have hc : closest fs' desc q = closest fs desc q := by
      unfold closest
      have key : ∀ l : List Str, (∀ a ∈ l, a ∈ upward (q.length + 1) q) →
          (l.find? fun d => fs'.isDir d && fs'.isFile (pjoin d desc)) =
            l.find? fun d => fs.isDir d && fs.isFile (pjoin d desc) := by
        intro l hl
        induction l with
        | nil => rfl
        | cons a l ih =>
          rw [List.find?_cons, List.find?_cons, ih fun b hb => hl b (List.mem_cons_of_mem _ hb),
            hw.isDir _ (ha _ (hl a List.mem_cons_self)),
            hw.isFile _ (hf _ (hl a List.mem_cons_self) _ hdesc)]
      exact key _ fun _ => id
    rw [hc]
    cases hd : closest fs desc q with
    | none => rfl
    | some d =>
      have hm : d ∈ upward (q.length + 1) q := List.mem_of_find?_eq_some hd
      have hW := hf _ hm _ hdesc
      have : readPkg fs' d (pjoin d desc) = readPkg fs d (pjoin d desc) := by
        unfold readPkg
        rw [hw.read _ hW]
        have := hw.mtime _ hW
        cases h1 : fs.read (pjoin d desc) with
        | none => rfl
        | some doc =>
          cases h2 : fs.mtime (pjoin d desc) <;> cases h3 : fs'.mtime (pjoin d desc) <;> rw [h2, h3] at this <;>
            first | cases this | rfl
      dsimp only
      rw [this]

theorem findPkg_same {q : Str} (h : ∀ w, LookedAt o q w → W w) :
    findPkg fs' o.descriptionFile q = findPkg fs o.descriptionFile q :=
  findPkg_above hw (fun _ ha => h _ (.above ha)) fun _ ha _ hd => h _ (.description ha hd)

/-- What is not a success goes on with the same request; a success is one of the paths looked at. -/
def FileOr (W : Str → Prop) (info : Info) : Stats → Prop
  | .success (.info j) => W j.path
  | .success .ignored => True
  | .resolving i => i = info
  | .error _ _ => False

theorem resolveAsFile_same {info : Info}
    (h : ∀ w, w ∈ info.getPath :: o.extensions.map (info.getPath ++ ·) → W w) :
    resolveAsFile (pureCtx o fs' debug) info = resolveAsFile (pureCtx o fs debug) info ∧
      FileOr W info (resolveAsFile (pureCtx o fs debug) info) := by
  have hext : ∀ e ∈ o.extensions, W (info.getPath ++ e) := fun e he =>
    h _ (List.mem_cons_of_mem _ (List.mem_map.2 ⟨e, he, rfl⟩))
  have h1 : extensionsPlugin (pureCtx o fs' debug) info.getPath info =
      extensionsPlugin (pureCtx o fs debug) info.getPath info ∧
        FileOr W info (extensionsPlugin (pureCtx o fs debug) info.getPath info) := by
    unfold extensionsPlugin
    have key : ∀ l : List Str, (∀ a ∈ l, a ∈ o.extensions) →
        (l.find? fun e => fs'.isFile (appendExt info.getPath e)) =
          l.find? fun e => fs.isFile (appendExt info.getPath e) := by
      intro l hl
      induction l with
      | nil => rfl
      | cons a l ih =>
        rw [List.find?_cons, List.find?_cons, ih fun b hb => hl b (List.mem_cons_of_mem _ hb),
          show appendExt info.getPath a = info.getPath ++ a from rfl, hw.isFile _ (hext a (hl a List.mem_cons_self))]
    refine ⟨?_, ?_⟩
    · dsimp only [pureCtx]
      rw [key _ fun _ => id]
    · split
      · rename_i e he
        exact hext e (List.mem_of_find?_eq_some he)
      · rfl
  have e : ∀ fs, resolveAsFile (pureCtx o fs debug) info =
      if !(o.enforceExtension.getD false) && fs.isFile info.getPath then
        .success (.info ((info.withPath info.getPath).withTarget []))
      else extensionsPlugin (pureCtx o fs debug) info.getPath info := fun _ => rfl
  rw [e, e, hw.isFile _ (h _ List.mem_cons_self)]
  split
  · exact ⟨rfl, h _ List.mem_cons_self⟩
  · exact h1

theorem mainFileLoop_same (hb : o.browserField = false) {d : Str} (hd : ∀ w, LookedAt o d w → W w) (n : Nat)
    (pkg : Option Pkg) (info : Info) (l : List Str) (hl : ∀ m ∈ l, m ∈ o.mainFiles) (cur : Info)
    (hcur : cur.path = d) :
    mainFileLoop (pureCtx o fs' debug) n pkg info l cur = mainFileLoop (pureCtx o fs debug) n pkg info l cur ∧
      ∀ s, (mainFileLoop (pureCtx o fs debug) n pkg info l cur).Returns s → FileOr W info s := by
  induction l generalizing cur with
  | nil =>
    refine ⟨rfl, fun s hs => ?_⟩
    cases hs
    rfl
  | cons m l ih =>
    have hout : ∀ fs n, mainFileLoop (pureCtx o fs debug) n pkg info (m :: l) cur =
        ((importsPlugin (pureCtx o fs debug) n pkg (cur.withTarget (cs!"./" ++ m))).bind fun s =>
          (s.andThen fun i => aliasFieldPlugin (pureCtx o fs debug) n pkg i).bind fun s =>
          s.andThen fun i => .ret (resolveAsFile (pureCtx o fs debug) i)).bind fun
        | .success r => .ret (.success r)
        | .resolving i => mainFileLoop (pureCtx o fs debug) n pkg info l i
        | .error _ i => mainFileLoop (pureCtx o fs debug) n pkg info l i := by
      intro fs n
      conv => lhs; unfold mainFileLoop
      dsimp only
      have h0 : exportsPlugin (pureCtx o fs debug) pkg (cur.withTarget (cs!"./" ++ m)) =
          .ret (.resolving (cur.withTarget (cs!"./" ++ m))) := by
        unfold exportsPlugin
        cases pkg with
        | none => rfl
        | some pkg => dsimp only; rw [if_pos (by show PathKind.relative ≠ _; nofun)]
      rw [h0]
      rfl
    cases n with
    | zero =>
      rw [hout, hout]
      exact ⟨rfl, nofun⟩
    | succ n =>
    have step : ∀ fs, mainFileLoop (pureCtx o fs debug) (n + 1) pkg info (m :: l) cur =
        match resolveAsFile (pureCtx o fs debug) (cur.withTarget (cs!"./" ++ m)) with
        | .success r => .ret (.success r)
        | .resolving i => mainFileLoop (pureCtx o fs debug) (n + 1) pkg info l i
        | .error _ i => mainFileLoop (pureCtx o fs debug) (n + 1) pkg info l i := by
      intro fs
      rw [hout]
      have htarget : (cur.withTarget (cs!"./" ++ m)).request.target = cs!"./" ++ m := rfl
      generalize cur.withTarget (cs!"./" ++ m) = cur at htarget ⊢
      have h1 : importsPlugin (pureCtx o fs debug) (n + 1) pkg cur = .ret (.resolving cur) := by
        unfold importsPlugin
        cases pkg with
        | none => rfl
        | some pkg => dsimp only; rw [htarget]; rfl
      have h2 : aliasFieldPlugin (pureCtx o fs debug) (n + 1) pkg cur = .ret (.resolving cur) := by
        unfold aliasFieldPlugin
        rw [show (pureCtx o fs debug).opts.browserField = false from hb]
        rfl
      rw [h1]
      simp only [Prog.bind, Stats.andThen, h2]
    have hpath : (cur.withTarget (cs!"./" ++ m)).getPath = pjoin d (cs!"./" ++ m) := by
      rw [getPath_eq]
      show targetPath cur.path (cs!"./" ++ m) = _
      unfold targetPath
      rw [if_neg (by rintro (h | h) <;> cases h), hcur]
    obtain ⟨h1, h2⟩ := resolveAsFile_same (o := o) (debug := debug) hw (info := cur.withTarget (cs!"./" ++ m))
      fun w hw' => hd w (.mainFile (hl m List.mem_cons_self) (by rw [← hpath]; exact hw'))
    rw [step, step, h1]
    cases hr : resolveAsFile (pureCtx o fs debug) (cur.withTarget (cs!"./" ++ m)) with
    | success r =>
      rw [hr] at h2
      refine ⟨rfl, fun s hs => ?_⟩
      cases hs
      cases r <;> exact h2
    | resolving i =>
      rw [hr] at h2
      cases (h2 : i = _)
      exact ih (fun x hx => hl x (List.mem_cons_of_mem _ hx)) _ hcur
    | error e i => rw [hr] at h2; exact h2.elim

/-- What taking `i` as a directory comes to. -/
def DirOr (W : Str → Prop) (i : Info) : Stats → Prop
  | .success (.info j) => W j.path
  | .success .ignored => True
  | .resolving j => j = (i.withPath i.getPath).withTarget []
  | .error _ j => j = i

theorem mainFieldLoop_same (hb : o.browserField = false) {p0 : Str} (hd : ∀ w, Watched o fs p0 w → W w) {d : Str}
    (hlead : PathLeads o fs p0 d) {n : Nat} {asDir asDir' : Info → Prog Stats}
    (has : ∀ i, PathLeads o fs p0 i.getPath → asDir' i = asDir i ∧ ∀ s, (asDir i).Returns s → DirOr W i s)
    {pkg : Pkg} (hpkg : ∀ f m, pkg.raw.get f = some (.str m) → NamesMain o fs d f m)
    (info : Info) (l : List Str) (cur : Info) (hcur : MainsLead o fs d l cur.path) :
    mainFieldLoop (pureCtx o fs' debug) n asDir' pkg info l cur =
        mainFieldLoop (pureCtx o fs debug) n asDir pkg info l cur ∧
      ∀ s, (mainFieldLoop (pureCtx o fs debug) n asDir pkg info l cur).Returns s → FileOr W info s := by
  induction l generalizing cur with
  | nil =>
    refine ⟨rfl, fun s hs => ?_⟩
    cases hs
    rfl
  | cons f l ih =>
    unfold mainFieldLoop
    split
    · exact ih cur (.next hcur)
    · rename_i m hm
      have hname : NamesMain o fs d f m := by
        refine hpkg f m ?_
        cases hg : pkg.raw.get f with
        | none => rw [hg] at hm; cases hm
        | some v =>
          rw [hg] at hm
          cases v <;> cases hm <;> rfl
      split
      · refine ⟨rfl, fun s hs => ?_⟩
        cases hs
        rfl
      · have hc : (if startsWith m cs!"./" then cur.withTarget m else cur.withTarget (cs!"./" ++ m)) =
            cur.withTarget (mainTarget m) := by
          unfold mainTarget
          simp only [startsWith_iff]
          split <;> rfl
        rw [hc]
        dsimp only
        have hpath : (cur.withTarget (mainTarget m)).getPath = targetPath cur.path (mainTarget m) := getPath_eq _
        have hto : MainsLead o fs d l (cur.withTarget (mainTarget m)).getPath := by
          rw [hpath]; exact .main hcur hname
        have hto' : PathLeads o fs p0 (cur.withTarget (mainTarget m)).getPath := .mains hlead hto
        have hsame : (cur.withTarget (mainTarget m)).path = cur.path := rfl
        generalize cur.withTarget (mainTarget m) = i at hto hto' hsame ⊢
        have off : ∀ fs, aliasFieldPlugin (pureCtx o fs debug) n (some pkg) i = .ret (.resolving i) := by
          intro fs
          unfold aliasFieldPlugin
          rw [show (pureCtx o fs debug).opts.browserField = false from hb]
          rfl
        simp only [off, Prog.bind, Stats.andThen]
        obtain ⟨h1, h2⟩ := resolveAsFile_same (o := o) (debug := debug) hw (info := i)
          fun w hw' => hd w ⟨_, hto', .file hw'⟩
        rw [h1]
        cases hr : resolveAsFile (pureCtx o fs debug) i with
        | success r =>
          rw [hr] at h2
          refine ⟨rfl, fun s hs => ?_⟩
          cases hs
          cases r <;> exact h2
        | error e j => rw [hr] at h2; exact h2.elim
        | resolving j =>
          rw [hr] at h2
          cases (h2 : j = _)
          dsimp only
          obtain ⟨h3, h4⟩ := has i hto'
          rw [h3]
          have next : ∀ s, DirOr W i s →
              (match s with
              | .success r => Prog.ret (Stats.success r)
              | .resolving i => mainFieldLoop (pureCtx o fs' debug) n asDir' pkg info l i
              | .error _ i => mainFieldLoop (pureCtx o fs' debug) n asDir' pkg info l i) =
              (match s with
              | .success r => Prog.ret (Stats.success r)
              | .resolving i => mainFieldLoop (pureCtx o fs debug) n asDir pkg info l i
              | .error _ i => mainFieldLoop (pureCtx o fs debug) n asDir pkg info l i) ∧
              ∀ t, (match s with
              | .success r => Prog.ret (Stats.success r)
              | .resolving i => mainFieldLoop (pureCtx o fs debug) n asDir pkg info l i
              | .error _ i => mainFieldLoop (pureCtx o fs debug) n asDir pkg info l i).Returns t → FileOr W info t := by
            intro s hs
            cases s with
            | success r =>
              refine ⟨rfl, fun t ht => ?_⟩
              cases ht
              cases r <;> exact hs
            | resolving j => exact ih j (by rw [show j = _ from hs]; exact hto)
            | error e j =>
              cases (hs : j = i)
              exact ih i (by rw [hsame]; exact .next hcur)
          refine ⟨Prog.bind_same fun s hs => (next s (h4 s hs)).1, fun t ht => ?_⟩
          obtain ⟨s, hs, ht⟩ := Prog.returns_bind ht
          exact (next s (h4 s hs)).2 t ht

omit hw in
/-- The description file that is found at a directory is the one in it. -/
theorem findPkg_main {d : Str} (hdir : fs.isDir d = true) {pkg : Pkg}
    (hp : (findPkg fs o.descriptionFile d).Returns (.ok (some pkg))) (hpath : pathEq d pkg.absDir = true)
    {f m : Str} (hm : pkg.raw.get f = some (.str m)) : NamesMain o fs d f m := by
  cases hdesc : o.descriptionFile with
  | none => rw [hdesc] at hp; cases hp
  | some desc =>
    rw [hdesc] at hp
    cases hc : closest fs desc d with
    | none => rw [findPkg_none hc] at hp; cases hp
    | some d' =>
      rw [findPkg_here hc] at hp
      have hr : readPkg fs d' (pjoin d' desc) = .ret (.ok pkg) := by
        rcases readPkg_cases fs d' (pjoin d' desc) with ⟨a, hr⟩ | ⟨s, hr⟩
        · rw [hr] at hp ⊢
          cases a with
          | error err => cases hp
          | ok p' => cases hp; rfl
        · rw [hr] at hp; cases hp
      have hd : d' = d := by
        rcases closest_own hc with h | h
        · rw [readPkg_dir hr] at hpath
          rw [show comps d = comps d' by simpa [pathEq] using hpath] at h
          exact absurd h (Nat.lt_irrefl _)
        · exact h
      subst hd
      obtain ⟨doc, json, h1, h2, -, h3⟩ := readPkg_fields hr
      exact ⟨desc, doc, json, hdesc, hdir, h1, h2, by rw [← h3]; exact hm⟩

theorem resolveAsDir_same (hb : o.browserField = false) {p0 : Str} (hd : ∀ w, Watched o fs p0 w → W w) (n : Nat)
    (i : Info) (hi : PathLeads o fs p0 i.getPath) :
    resolveAsDir (pureCtx o fs' debug) n i = resolveAsDir (pureCtx o fs debug) n i ∧
      ∀ s, (resolveAsDir (pureCtx o fs debug) n i).Returns s → DirOr W i s := by
  induction n generalizing i with
  | zero => exact ⟨rfl, nofun⟩
  | succ n ih =>
    have hself : fs'.isDir i.getPath = fs.isDir i.getPath :=
      hw.isDir _ (hd _ ⟨_, hi, .above (by unfold upward; exact List.mem_cons_self)⟩)
    have e : ∀ fs, resolveAsDir (pureCtx o fs debug) (n + 1) i =
        if !fs.isDir i.getPath then .ret (.error .tag i)
        else (findPkg fs o.descriptionFile i.getPath).bind fun
          | .error err => .ret (.error err i)
          | .ok pkg =>
            (mainFieldPlugin (pureCtx o fs debug) n (resolveAsDir (pureCtx o fs debug) n) pkg
              ((i.withPath i.getPath).withTarget [])).bind fun s =>
            s.andThen fun i => mainFilePlugin (pureCtx o fs debug) n pkg i := fun _ => rfl
    rw [e, e, hself]
    split
    · refine ⟨rfl, fun s hs => ?_⟩
      cases hs
      rfl
    · rename_i hdir
      have hdir : fs.isDir i.getPath = true := by simpa using hdir
      rw [findPkg_same hw fun w hw' => hd w ⟨_, hi, hw'⟩]
      have key : ∀ pkg, (findPkg fs o.descriptionFile i.getPath).Returns (.ok pkg) →
          mainFieldPlugin (pureCtx o fs' debug) n (resolveAsDir (pureCtx o fs' debug) n) pkg
              ((i.withPath i.getPath).withTarget []) =
            mainFieldPlugin (pureCtx o fs debug) n (resolveAsDir (pureCtx o fs debug) n) pkg
              ((i.withPath i.getPath).withTarget []) ∧
          ∀ s, (mainFieldPlugin (pureCtx o fs debug) n (resolveAsDir (pureCtx o fs debug) n) pkg
              ((i.withPath i.getPath).withTarget [])).Returns s → FileOr W ((i.withPath i.getPath).withTarget []) s := by
        intro pkg hpkg
        unfold mainFieldPlugin
        cases pkg with
        | none =>
          refine ⟨rfl, fun s hs => ?_⟩
          cases hs
          rfl
        | some pkg =>
          dsimp only
          split
          · refine ⟨rfl, fun s hs => ?_⟩
            cases hs
            rfl
          · rename_i hp
            have hp : pathEq i.getPath pkg.absDir = true := by
              rw [Bool.not_eq_true, Bool.not_eq_false'] at hp
              exact hp
            exact mainFieldLoop_same hw hb hd hi (fun i hi => ih i hi)
              (fun f m hm => findPkg_main hdir hpkg hp hm) _ _ _ .here
      have step : ∀ a, (findPkg fs o.descriptionFile i.getPath).Returns a →
          (match a with
            | .error err => Prog.ret (Stats.error err i)
            | .ok pkg =>
              (mainFieldPlugin (pureCtx o fs' debug) n (resolveAsDir (pureCtx o fs' debug) n) pkg
                ((i.withPath i.getPath).withTarget [])).bind fun s =>
              s.andThen fun i => mainFilePlugin (pureCtx o fs' debug) n pkg i) =
          (match a with
            | .error err => Prog.ret (Stats.error err i)
            | .ok pkg =>
              (mainFieldPlugin (pureCtx o fs debug) n (resolveAsDir (pureCtx o fs debug) n) pkg
                ((i.withPath i.getPath).withTarget [])).bind fun s =>
              s.andThen fun i => mainFilePlugin (pureCtx o fs debug) n pkg i) ∧
          ∀ s, (match a with
            | .error err => Prog.ret (Stats.error err i)
            | .ok pkg =>
              (mainFieldPlugin (pureCtx o fs debug) n (resolveAsDir (pureCtx o fs debug) n) pkg
                ((i.withPath i.getPath).withTarget [])).bind fun s =>
              s.andThen fun i => mainFilePlugin (pureCtx o fs debug) n pkg i).Returns s → DirOr W i s := by
        intro a ha
        cases a with
        | error err =>
          refine ⟨rfl, fun s hs => ?_⟩
          cases hs
          rfl
        | ok pkg =>
          dsimp only
          obtain ⟨h1, h2⟩ := key pkg ha
          have next : ∀ s, FileOr W ((i.withPath i.getPath).withTarget []) s →
              (s.andThen fun i => mainFilePlugin (pureCtx o fs' debug) n pkg i) =
                (s.andThen fun i => mainFilePlugin (pureCtx o fs debug) n pkg i) ∧
              ∀ t, (s.andThen fun i => mainFilePlugin (pureCtx o fs debug) n pkg i).Returns t → DirOr W i t := by
            intro s hs
            cases s with
            | success r =>
              refine ⟨rfl, fun t ht => ?_⟩
              cases ht
              cases r <;> exact hs
            | error e j => exact hs.elim
            | resolving j =>
              cases (hs : j = _)
              obtain ⟨h3, h4⟩ := mainFileLoop_same hw (debug := debug) hb (fun w hw' => hd w ⟨_, hi, hw'⟩)
                n pkg ((i.withPath i.getPath).withTarget []) o.mainFiles (fun _ => id)
                ((i.withPath i.getPath).withTarget []) rfl
              refine ⟨h3, fun t ht => ?_⟩
              have := h4 t ht
              cases t with
              | success r => cases r <;> exact this
              | error e j => exact this.elim
              | resolving j => cases (this : j = _); rfl
          rw [h1]
          refine ⟨Prog.bind_same fun s hs => (next s (h2 s hs)).1, fun t ht => ?_⟩
          obtain ⟨s, hs, ht⟩ := Prog.returns_bind ht
          exact (next s (h2 s hs)).2 t ht
      refine ⟨Prog.bind_same fun a ha => (step a ha).1, fun t ht => ?_⟩
      obtain ⟨a, ha, ht⟩ := Prog.returns_bind ht
      exact (step a ha).2 t ht

/-- C88 without caches. -/
theorem resolveCtx_watched (hb : o.browserField = false) {path request : Str}
    (hp : Plain o path (parseRequest request).target) (hk : IsPath (parseRequest request).target)
    (hd : ∀ w, Watched o fs (targetPath path (parseRequest request).target) w → W w) (n : Nat) :
    resolveCtx (pureCtx o fs' debug) n path request = resolveCtx (pureCtx o fs debug) n path request := by
  have hkind : (parseRequest request).kind = getTargetKind (parseRequest request).target := rfl
  have hnk : (parseRequest request).kind ≠ .normal := by
    rw [hkind]
    rcases hk with h1 | h1 | h1 <;> rw [h1] <;> nofun
  have hget : (⟨path, parseRequest request⟩ : Info).getPath = targetPath path (parseRequest request).target :=
    getPath_eq _
  have hhere : ∀ w, LookedAt o (⟨path, parseRequest request⟩ : Info).getPath w → W w := fun w hw' =>
    hd w ⟨_, .here, by rw [← hget]; exact hw'⟩
  cases n with
  | zero =>
    unfold resolveCtx resolveStats
    rw [show (pureCtx o fs' debug).opts.tsconfig = none from hp.tsconfig,
      show (pureCtx o fs debug).opts.tsconfig = none from hp.tsconfig]
    rfl
  | succ n =>
  have halias : containsStr path MODULE = true ∨ ∀ kv ∈ o.alias, ¬ kv.1 <+: (parseRequest request).target :=
    hp.alias.imp (containsStr_iff _ _).2 id
  rw [resolveCtx_plain (pureCtx o fs' debug) n path request hp.tsconfig halias hp.prefer,
    resolveCtx_plain (pureCtx o fs debug) n path request hp.tsconfig halias hp.prefer]
  have hans : ∀ s, (∀ i, s = .success (.info i) → W i.path) →
      answer (pureCtx o fs' debug) ⟨path, parseRequest request⟩ s =
        answer (pureCtx o fs debug) ⟨path, parseRequest request⟩ s := by
    intro s hs
    cases s with
    | error e i => rfl
    | resolving i => rfl
    | success r =>
      cases r with
      | ignored => rfl
      | info i =>
        have h1 : normalizePath (pureCtx o fs' debug) i.path = normalizePath (pureCtx o fs debug) i.path := by
          unfold normalizePath
          rw [show (pureCtx o fs' debug).fs.canon i.path = (pureCtx o fs debug).fs.canon i.path from
            hw.canon _ (hs i rfl)]
          rfl
        simp only [answer, normalizeResult, h1]
        rfl
  have hstage : ∀ fs, pkgStage (pureCtx o fs debug) n ⟨path, parseRequest request⟩ =
      (findPkg fs o.descriptionFile (⟨path, parseRequest request⟩ : Info).getPath).bind fun
      | .error err => .ret (.error err ⟨path, parseRequest request⟩)
      | .ok pkg =>
        (importsPlugin (pureCtx o fs debug) n pkg ⟨path, parseRequest request⟩).bind fun s =>
        s.andThen fun i => aliasFieldPlugin (pureCtx o fs debug) n pkg i := by
    intro fs
    unfold pkgStage
    dsimp only
    rw [if_neg hnk]
    rfl
  have hal : ∀ fs pkg i, aliasFieldPlugin (pureCtx o fs debug) n pkg i = .ret (.resolving i) := by
    intro fs pkg i
    unfold aliasFieldPlugin
    rw [show (pureCtx o fs debug).opts.browserField = false from hb]
    rfl
  have hlast : ∀ fs, lastStage (pureCtx o fs debug) n ⟨path, parseRequest request⟩ =
      (resolveAsFile (pureCtx o fs debug) ⟨path, parseRequest request⟩).andThen fun i =>
        resolveAsDir (pureCtx o fs debug) n i := by
    intro fs
    unfold lastStage
    dsimp only
    rcases hk with h1 | h1 | h1 <;> rw [show (parseRequest request).kind = _ from hkind.trans h1] <;> rfl
  obtain ⟨h1, h2⟩ := resolveAsFile_same (o := o) (debug := debug) hw (info := ⟨path, parseRequest request⟩)
    fun w hw' => hhere w (.file hw')
  obtain ⟨h3, h4⟩ := resolveAsDir_same (debug := debug) hw hb hd n ⟨path, parseRequest request⟩
    (by rw [hget]; exact .here)
  have hfin : ((resolveAsFile (pureCtx o fs debug) ⟨path, parseRequest request⟩).andThen fun i =>
        resolveAsDir (pureCtx o fs' debug) n i).bind (answer (pureCtx o fs' debug) ⟨path, parseRequest request⟩) =
      ((resolveAsFile (pureCtx o fs debug) ⟨path, parseRequest request⟩).andThen fun i =>
        resolveAsDir (pureCtx o fs debug) n i).bind (answer (pureCtx o fs debug) ⟨path, parseRequest request⟩) := by
    cases hr : resolveAsFile (pureCtx o fs debug) ⟨path, parseRequest request⟩ with
    | success r =>
      rw [hr] at h2
      exact hans _ fun i hi => by cases hi; exact h2
    | error e i => rw [hr] at h2; exact h2.elim
    | resolving i =>
      rw [hr] at h2
      cases (h2 : i = _)
      show (resolveAsDir (pureCtx o fs' debug) n _).bind _ = (resolveAsDir (pureCtx o fs debug) n _).bind _
      rw [h3]
      exact Prog.bind_same fun s hs => hans s fun i hi => by
        have := h4 s hs
        rw [hi] at this
        exact this
  unfold plainStages
  rw [Prog.bind_assoc, Prog.bind_assoc, hstage, hstage, findPkg_same hw hhere, Prog.bind_assoc, Prog.bind_assoc]
  refine congrArg _ (funext fun a => ?_)
  cases a with
  | error e => rfl
  | ok pkg =>
    dsimp only
    cases n with
    | zero => rfl
    | succ n =>
      have himp : ∀ fs, importsPlugin (pureCtx o fs debug) (n + 1) pkg ⟨path, parseRequest request⟩ =
          .ret (.resolving ⟨path, parseRequest request⟩) := by
        intro fs
        unfold importsPlugin
        cases pkg with
        | none => rfl
        | some pkg =>
          dsimp only
          rw [if_pos (by rw [Bool.not_eq_true', ← Bool.not_eq_true, startsWith_iff]; exact not_hash_of_kind hk)]
      rw [himp, himp]
      show (aliasFieldPlugin (pureCtx o fs' debug) (n + 1) pkg _).bind _ =
        (aliasFieldPlugin (pureCtx o fs debug) (n + 1) pkg _).bind _
      rw [hal, hal]
      show (lastStage (pureCtx o fs' debug) (n + 1) _).bind _ = (lastStage (pureCtx o fs debug) (n + 1) _).bind _
      rw [hlast, hlast, h1]
      exact hfin

end
end Verif
