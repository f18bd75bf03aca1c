import Verif.Proofs.Options
import Verif.Proofs.Bytes
import Verif.Spec.Modules
/-!
# The search through `node_modules`
-/

namespace Verif

/-! ## The end of `resolve` -/

/-- What `resolve` does with the outcome of the stages of `_resolve`. -/
def answer (c : Ctx) (info : Info) : Stats → Prog (Except Err Result)
  | .success r => normalizeResult c r
  | .error err _ => .ret (.error (if err.isTag then failedMessage info else err))
  | .resolving _ => .panic .resolveUnreachable

theorem resolve_plain (e : Env) (n : Nat) (path request : Str) (ht : e.opts.tsconfig = none)
    (ha : containsStr path MODULE = true ∨
      ∀ kv ∈ e.opts.alias, ¬ kv.1 <+: (parseRequest request).target)
    (hp : e.opts.preferRelative = false ∨ cs!"./" <+: (parseRequest request).target ∨
      cs!"../" <+: (parseRequest request).target) :
    resolve e (n + 1) path request =
      (plainStages e.ctx n ⟨path, parseRequest request⟩).bind
        (answer e.ctx ⟨path, parseRequest request⟩) := by
  unfold resolve resolveCtx resolveStats
  simp only [show e.ctx.opts.tsconfig = none from ht]
  rw [resolveInner_plain n ha hp, Prog.bind_assoc]
  congr 1
  funext s
  cases s <;> rfl

/-! ## Names of packages -/

theorem slashes_at (a b : Str) (h : '/' ∉ a) (k : Nat) :
    (((a ++ '/' :: b).zipIdx k).filter fun ci => ci.1 = '/').map (·.2) =
      (k + a.length) :: (((b.zipIdx (k + a.length + 1)).filter fun ci => ci.1 = '/').map (·.2)) := by
  induction a generalizing k with
  | nil => simp
  | cons x a ih =>
    have hx : x ≠ '/' := fun hx => h (hx ▸ List.mem_cons_self ..)
    have ha : '/' ∉ a := fun hx => h (List.mem_cons_of_mem _ hx)
    simp only [List.cons_append, List.zipIdx_cons, List.filter_cons, hx, decide_false,
      Bool.false_eq_true, if_false, ih ha, List.length_cons]
    have : k + 1 + a.length = k + (a.length + 1) := by omega
    rw [this]

theorem slashes_none (a : Str) (h : '/' ∉ a) (k : Nat) :
    ((a.zipIdx k).filter fun ci => ci.1 = '/').map (·.2) = [] := by
  induction a generalizing k with
  | nil => rfl
  | cons x a ih =>
    have hx : x ≠ '/' := fun hx => h (hx ▸ List.mem_cons_self ..)
    have ha : '/' ∉ a := fun hx => h (List.mem_cons_of_mem _ hx)
    simp only [List.zipIdx_cons, List.filter_cons, hx, decide_false,
      Bool.false_eq_true, if_false, ih ha]

theorem moduleName_spec {target name : Str} (ha : AsciiStr name ∨ target = name)
    (h : PackageName target name) : moduleName target = some name := by
  unfold moduleName slashIndex
  cases h with
  | @plain name rest hat hn hr =>
    rw [if_neg (by rwa [startsWith_iff])]
    rcases hr with rfl | ⟨r, rfl⟩
    · rw [List.append_nil, slashes_none _ hn]; rfl
    · have ha : AsciiStr name := ha.resolve_right (by simp)
      rw [List.singleton_append, slashes_at _ _ hn, Nat.zero_add]
      simp only [List.getElem?_cons_zero]
      rw [← utf8Len_ascii ha, takeBytes_append]
  | @inScope a b rest hat hn hb hr =>
    rw [if_pos (by rw [startsWith_iff]; exact hat.trans (List.prefix_append ..)),
      slashes_at _ _ hn, Nat.zero_add]
    rcases hr with rfl | ⟨r, rfl⟩
    · rw [List.append_nil, slashes_none _ hb]; rfl
    · have ha : AsciiStr (a ++ '/' :: b) := ha.resolve_right (by simp)
      rw [List.singleton_append, slashes_at _ _ hb]
      simp only [List.getElem?_cons_succ, List.getElem?_cons_zero]
      have h1 : a ++ '/' :: (b ++ '/' :: r) = (a ++ '/' :: b) ++ '/' :: r := by simp
      have h2 : a.length + 1 + b.length = utf8Len (a ++ '/' :: b) := by
        rw [utf8Len_ascii ha]; simp; omega
      rw [h1]
      simpa [h2] using takeBytes_append (a ++ '/' :: b) ('/' :: r)
  | scope hat hn =>
    rw [if_pos (by rwa [startsWith_iff]), slashes_none _ hn]
    rfl

/-! ## First elements -/

theorem firstIn_append_left {α : Type} {P : α → Prop} {x : α} {l l' : List α}
    (h : FirstIn P l x) : FirstIn P (l ++ l') x := by
  obtain ⟨a, b, rfl, h1, h2⟩ := h
  exact ⟨a, b ++ l', by simp, h1, h2⟩

theorem firstIn_append_right {α : Type} {P : α → Prop} {x : α} {l l' : List α}
    (hl : ∀ y ∈ l, ¬ P y) : FirstIn P (l ++ l') x ↔ FirstIn P l' x := by
  induction l with
  | nil => rfl
  | cons y l ih =>
    rw [List.cons_append, firstIn_cons (hl y (List.mem_cons_self ..)),
      ih fun z hz => hl z (List.mem_cons_of_mem _ hz)]

theorem firstIn_or_none {α : Type} (P : α → Prop) (l : List α) :
    (∃ x, FirstIn P l x) ∨ ∀ y ∈ l, ¬ P y := by
  induction l with
  | nil => exact .inr nofun
  | cons y l ih =>
    by_cases hy : P y
    · exact .inl ⟨y, (firstIn_head hy).2 rfl⟩
    · rcases ih with ⟨x, h⟩ | h
      · exact .inl ⟨x, (firstIn_cons hy).2 h⟩
      · refine .inr fun z hz => ?_
        rcases List.mem_cons.1 hz with rfl | hz
        · exact hy
        · exact h z hz

theorem firstIn_unique {α : Type} {P : α → Prop} {x y : α} {l : List α}
    (h : FirstIn P l x) (h' : FirstIn P l y) : x = y := by
  induction l with
  | nil => obtain ⟨a, b, h, -⟩ := h; simp at h
  | cons z l ih =>
    by_cases hz : P z
    · rw [firstIn_head hz] at h h'
      rw [h, h']
    · rw [firstIn_cons hz] at h h'
      exact ih h h'

theorem firstIn_mem {α : Type} {P : α → Prop} {x : α} {l : List α} (h : FirstIn P l x) :
    x ∈ l ∧ P x := by
  obtain ⟨a, b, rfl, h1, -⟩ := h
  exact ⟨by simp, h1⟩

/-- The outcome of `resolve_as_file` in terms of the candidates. -/
theorem resolveAsFile_cases (c : Ctx) (info : Info) :
    (∃ p, FirstIn (fun p => c.fs.isFile p = true)
        (fileCandidates c.opts (targetPath info.path info.request.target)) p ∧
      resolveAsFile c info = .success (.info ((info.withPath p).withTarget []))) ∨
    ((∀ p ∈ fileCandidates c.opts (targetPath info.path info.request.target),
        c.fs.isFile p = false) ∧ resolveAsFile c info = .resolving info) := by
  rcases firstIn_or_none (fun p => c.fs.isFile p = true)
    (fileCandidates c.opts (targetPath info.path info.request.target)) with ⟨p, h⟩ | h
  · exact .inl ⟨p, h, resolveAsFile_first h⟩
  · refine .inr ⟨fun p hp => by simpa using h p hp, resolveAsFile_none fun p hp => by
      simpa using h p hp⟩

theorem targetPath_dotSlash (path t : Str) : targetPath path (cs!"./" ++ t) = pjoin path (cs!"./" ++ t) := by
  unfold targetPath
  rw [if_neg (by simp)]

theorem getTargetKind_dotSlash (t : Str) : getTargetKind (cs!"./" ++ t) = .relative := by
  rfl

/-- A bare target names no directory by itself. -/
theorem targetPath_bare {t : Str} (h : getTargetKind t = .normal) (d : Str) :
    targetPath d t = pjoin d t := by
  unfold targetPath
  rw [if_neg]
  rintro (rfl | rfl) <;> cases h

/-- A relative or absolute target is not internal. -/
theorem not_hash_of_kind {t : Str}
    (hk : getTargetKind t = .relative ∨ getTargetKind t = .absolutePosix ∨
      getTargetKind t = .absoluteWin) : ¬ cs!"#" <+: t := by
  intro h
  have h1 : getTargetKind t = .internal := by
    obtain ⟨r, rfl⟩ := h
    rfl
  rw [h1] at hk
  simp at hk

/-! ## Main files -/

theorem exportsPlugin_kind {c : Ctx} {pkg : Option Pkg} {info : Info}
    (h : info.request.kind ≠ .normal) : exportsPlugin c pkg info = .ret (.resolving info) := by
  unfold exportsPlugin
  cases pkg with
  | none => rfl
  | some pkg => simp only [h, ne_eq, not_false_eq_true, if_true]

theorem importsPlugin_pass {c : Ctx} {n : Nat} {pkg : Option Pkg} {info : Info}
    (h : ¬ cs!"#" <+: info.request.target) :
    importsPlugin c (n + 1) pkg info = .ret (.resolving info) := by
  unfold importsPlugin
  rw [← startsWith_iff] at h
  cases pkg with
  | none => rfl
  | some pkg => simp [h]

theorem importsPlugin_returns {c : Ctx} {n : Nat} {pkg : Option Pkg} {info : Info} {s : Stats}
    (h : ¬ cs!"#" <+: info.request.target) (hs : (importsPlugin c n pkg info).Returns s) :
    s = .resolving info := by
  cases n with
  | zero => cases hs
  | succ n =>
    rw [importsPlugin_pass h, Prog.returns_ret] at hs
    exact hs

theorem aliasFieldPlugin_off {c : Ctx} {n : Nat} {pkg : Option Pkg} {info : Info}
    (h : c.opts.browserField = false) :
    aliasFieldPlugin c n pkg info = .ret (.resolving info) := by
  unfold aliasFieldPlugin
  rw [h]; rfl

theorem aliasFieldPlugin_none {c : Ctx} {n : Nat} {info : Info} :
    aliasFieldPlugin c n none info = .ret (.resolving info) := by
  unfold aliasFieldPlugin
  cases c.opts.browserField <;> rfl

/-- The main files of a directory are tried in order, if the browser field does not interfere. -/
theorem mainFileLoop_spec (c : Ctx) (n : Nat) (pkg : Option Pkg) (info cur : Info) (l : List Str)
    (hb : c.opts.browserField = false ∨ pkg = none) :
    (∀ p, FirstIn (fun p => c.fs.isFile p = true)
        (l.flatMap fun m => fileCandidates c.opts (pjoin cur.path (cs!"./" ++ m))) p →
      mainFileLoop c (n + 1) pkg info l cur =
        .ret (.success (.info ((cur.withPath p).withTarget [])))) ∧
    ((∀ p ∈ l.flatMap fun m => fileCandidates c.opts (pjoin cur.path (cs!"./" ++ m)),
        c.fs.isFile p = false) →
      mainFileLoop c (n + 1) pkg info l cur = .ret (.resolving info)) := by
  induction l generalizing cur with
  | nil => exact ⟨(by rintro p ⟨a, b, h, -⟩; simp at h), fun _ => rfl⟩
  | cons m l ih =>
    have halias : ∀ i, aliasFieldPlugin c (n + 1) pkg i = .ret (.resolving i) := by
      intro i
      rcases hb with hb | rfl
      · exact aliasFieldPlugin_off hb
      · exact aliasFieldPlugin_none
    have hk : (cur.withTarget (cs!"./" ++ m)).request.kind ≠ .normal := by
      show getTargetKind (cs!"./" ++ m) ≠ .normal
      rw [getTargetKind_dotSlash]
      nofun
    have ht : ¬ cs!"#" <+: (cur.withTarget (cs!"./" ++ m)).request.target := by
      simp [Info.withTarget, Request.withTarget]
    have hcur : targetPath (cur.withTarget (cs!"./" ++ m)).path
        (cur.withTarget (cs!"./" ++ m)).request.target = pjoin cur.path (cs!"./" ++ m) := by
      simp only [Info.withTarget, Request.withTarget]
      exact targetPath_dotSlash ..
    unfold mainFileLoop
    simp only [exportsPlugin_kind hk, Prog.ret_bind, Stats.andThen_resolving,
      importsPlugin_pass ht, halias, List.flatMap_cons]
    rcases resolveAsFile_cases c (cur.withTarget (cs!"./" ++ m)) with ⟨p, hp, hs⟩ | ⟨hp, hs⟩
    · rw [hs]
      rw [hcur] at hp
      refine ⟨fun q hq => ?_, fun hall => ?_⟩
      · have := firstIn_unique hq (firstIn_append_left hp)
        subst this
        rfl
      · have := hall p (List.mem_append_left _ (firstIn_mem hp).1)
        have h' := (firstIn_mem hp).2
        rw [this] at h'
        cases h'
    · rw [hs]
      rw [hcur] at hp
      simp only
      have ih' := ih (cur.withTarget (cs!"./" ++ m))
      refine ⟨fun q hq => ?_, fun hall => ?_⟩
      · rw [firstIn_append_right (by simpa using hp)] at hq
        exact ih'.1 q hq
      · exact ih'.2 fun p hp => hall p (List.mem_append_right _ hp)

/-! ## Modules without description files -/

/-- Without a description file a directory resolves to its first main file. -/
theorem resolveAsDir_nopkg {c : Ctx} (hload : ∀ p, c.load p = .ret (.ok none)) (n : Nat)
    (info : Info) (dir : Str) (hdir : targetPath info.path info.request.target = dir) :
    (c.fs.isDir dir = false → resolveAsDir c (n + 2) info = .ret (.error .tag info)) ∧
    (c.fs.isDir dir = true →
      (∀ p, FirstIn (fun p => c.fs.isFile p = true) (mainCandidates c.opts dir) p →
        resolveAsDir c (n + 2) info = .ret (.success (.info ((info.withPath p).withTarget [])))) ∧
      ((∀ p ∈ mainCandidates c.opts dir, c.fs.isFile p = false) →
        resolveAsDir c (n + 2) info =
          .ret (.resolving ((info.withPath dir).withTarget [])))) := by
  unfold resolveAsDir
  simp only [getPath_eq, hdir, hload, Prog.ret_bind, mainFieldPlugin, Stats.andThen_resolving,
    mainFilePlugin]
  refine ⟨fun h => by rw [h]; rfl, fun h => ?_⟩
  have := mainFileLoop_spec c n none ((info.withPath dir).withTarget [])
    ((info.withPath dir).withTarget []) c.opts.mainFiles (.inr rfl)
  simp only [h, Bool.not_true, Bool.false_eq_true, if_false]
  exact this

theorem exportsPlugin_none {c : Ctx} {info : Info} :
    exportsPlugin c none info = .ret (.resolving info) := rfl

theorem importsPlugin_none {c : Ctx} {n : Nat} {info : Info} :
    importsPlugin c (n + 1) none info = .ret (.resolving info) := rfl

/-- The lookup in one `node_modules` directory without description files. -/
theorem moduleStep_nopkg {c : Ctx} (hload : ∀ p, c.load p = .ret (.ok none)) (n : Nat)
    (info : Info) (name : Str) (hk : info.request.kind = .normal)
    (ht : targetPath (pjoin info.path MODULE) info.request.target =
      pjoin (pjoin info.path MODULE) info.request.target)
    (hname : moduleName info.request.target = some name) :
    (∀ p, FirstIn (fun p => c.fs.isFile p = true)
        (moduleCandidates c.opts c.fs name info.request.target info.path) p →
      moduleStep c (n + 2) info =
        .ret (.success (.info ((info.withPath p).withTarget [])), false)) ∧
    ((∀ p ∈ moduleCandidates c.opts c.fs name info.request.target info.path,
        c.fs.isFile p = false) →
      NoDeadDir c.opts c.fs name info.request.target info.path →
      moduleStep c (n + 2) info = .ret (.resolving info, false)) := by
  unfold NoDeadDir moduleStep moduleCandidates
  simp only [hname, hload, Prog.ret_bind, selfOf, Bool.not_false, Bool.and_true]
  rw [show cs!"node_modules" = MODULE from rfl]
  cases hroot : c.fs.isDir (pjoin info.path MODULE) with
  | false =>
    simp only [Bool.not_false, if_true]
    refine ⟨?_, fun _ _ => by simp⟩
    rintro p ⟨a, b, h, -⟩
    simp at h
  | true =>
    simp only [Bool.not_true, Bool.false_eq_true, if_false, if_true, forall_const]
    cases hpkg : c.fs.isDir (pjoin (pjoin info.path MODULE) name) with
    | false =>
      simp only [Bool.not_false, if_true, Bool.false_eq_true, if_false]
      rcases resolveAsFile_cases c ⟨pjoin info.path MODULE, info.request⟩ with ⟨p, hp, hs⟩ | ⟨hp, hs⟩
      · rw [hs]
        simp only [ht] at hp ⊢
        refine ⟨fun q hq => ?_, fun hall => ?_⟩
        · have := firstIn_unique hq hp
          subst this
          rfl
        · have := hall p (firstIn_mem hp).1
          have h' := (firstIn_mem hp).2
          rw [this] at h'
          cases h'
      · rw [hs]
        simp only [ht] at hp ⊢
        refine ⟨fun q hq => ?_, fun _ _ => trivial⟩
        have := hp q (firstIn_mem hq).1
        have h' := (firstIn_mem hq).2
        rw [this] at h'
        cases h'
    | true =>
      simp only [Bool.not_true, Bool.false_eq_true, if_false, if_true, forall_const]
      unfold modulePackageChain
      simp only [exportsPlugin_none, Prog.ret_bind, Stats.andThen_resolving, importsPlugin_none,
        hk, if_true, aliasFieldPlugin_none]
      rw [show Info.withTarget ⟨pjoin info.path MODULE, info.request⟩
          (cs!"./" ++ info.request.target) = ⟨pjoin info.path MODULE,
          info.request.withTarget (cs!"./" ++ info.request.target)⟩ from rfl]
      have htp : targetPath (pjoin info.path MODULE)
          (info.request.withTarget (cs!"./" ++ info.request.target)).target =
          pjoin (pjoin info.path MODULE) (cs!"./" ++ info.request.target) :=
        targetPath_dotSlash ..
      rcases resolveAsFile_cases c ⟨pjoin info.path MODULE,
          info.request.withTarget (cs!"./" ++ info.request.target)⟩ with ⟨p, hp, hs⟩ | ⟨hp, hs⟩
      · rw [hs]
        simp only [htp] at hp ⊢
        refine ⟨fun q hq => ?_, fun hall => ?_⟩
        · have := firstIn_unique hq (firstIn_append_left hp)
          subst this
          rfl
        · have := hall p (List.mem_append_left _ (firstIn_mem hp).1)
          have h' := (firstIn_mem hp).2
          rw [this] at h'
          cases h'
      · rw [hs]
        simp only [htp] at hp ⊢
        have hdir := resolveAsDir_nopkg hload n ⟨pjoin info.path MODULE,
          info.request.withTarget (cs!"./" ++ info.request.target)⟩ _ htp
        cases hd : c.fs.isDir (pjoin (pjoin info.path MODULE) (cs!"./" ++ info.request.target)) with
        | false =>
          simp only [Prog.ret_bind, Stats.andThen_resolving, hdir.1 hd]
          refine ⟨fun q hq => ?_, fun _ _ => by simp [Err.isTag]⟩
          simp only [Bool.false_eq_true, if_false, List.append_nil] at hq
          have := hp q (firstIn_mem hq).1
          have h' := (firstIn_mem hq).2
          rw [this] at h'
          cases h'
        | true =>
          refine ⟨fun q hq => ?_, fun hall hdead => ?_⟩
          · rw [firstIn_append_right (by simpa using hp), if_pos rfl] at hq
            simp only [Prog.ret_bind, Stats.andThen_resolving, (hdir.2 hd).1 q hq]
            rfl
          · obtain ⟨p, hp1, hp2⟩ := hdead rfl
            rw [if_pos rfl] at hp1
            have := hall p (by rw [if_pos rfl]; exact hp1)
            rw [this] at hp2
            cases hp2

/-- The search through all ancestors without description files. -/
theorem resolveAsModules_nopkg {c : Ctx} (hload : ∀ p, c.load p = .ret (.ok none))
    (req : Request) (name : Str) (hk : req.kind = .normal)
    (ht : ∀ d, targetPath d req.target = pjoin d req.target)
    (hname : moduleName req.target = some name) {path : Str} {dirs : List Str}
    (hdirs : Ancestors path dirs) (n : Nat) (hn : dirs.length + 2 ≤ n)
    (hdead : ∀ a d b, dirs = a ++ d :: b →
      (∀ x ∈ a, ∀ p ∈ moduleCandidates c.opts c.fs name req.target x, c.fs.isFile p = false) →
      NoDeadDir c.opts c.fs name req.target d) :
    (∀ p, FirstIn (fun p => c.fs.isFile p = true)
        (dirs.flatMap (moduleCandidates c.opts c.fs name req.target)) p →
      resolveAsModules c n ⟨path, req⟩ =
        .ret (.success (.info ⟨p, req.withTarget []⟩))) ∧
    ((∀ p ∈ dirs.flatMap (moduleCandidates c.opts c.fs name req.target),
        c.fs.isFile p = false) →
      ∃ i, resolveAsModules c n ⟨path, req⟩ = .ret (.error .tag i)) := by
  induction hdirs generalizing n with
  | @top d hp =>
    obtain ⟨m, rfl⟩ : ∃ m, n = m + 3 := ⟨n - 3, by simp at hn; omega⟩
    have hstep := moduleStep_nopkg hload m ⟨d, req⟩ name hk (ht _) hname
    simp only [List.flatMap_cons, List.flatMap_nil, List.append_nil]
    unfold resolveAsModules
    refine ⟨fun p hf => ?_, fun hall => ?_⟩
    · simp only [hstep.1 p hf, Prog.ret_bind, Stats.andThen_success]
      rfl
    · simp only [hstep.2 hall (hdead [] d _ rfl nofun), Prog.ret_bind,
        Stats.andThen_resolving, hp]
      exact ⟨_, rfl⟩
  | @up d d' l hp hl ih =>
    obtain ⟨m, rfl⟩ : ∃ m, n = m + 3 := ⟨n - 3, by simp at hn; omega⟩
    have hstep := moduleStep_nopkg hload m ⟨d, req⟩ name hk (ht _) hname
    simp only [List.flatMap_cons]
    unfold resolveAsModules
    rcases firstIn_or_none (fun p => c.fs.isFile p = true)
      (moduleCandidates c.opts c.fs name req.target d) with ⟨q, hq⟩ | hnone
    · have hs := hstep.1 q hq
      simp only [hs, Prog.ret_bind, Stats.andThen_success]
      refine ⟨fun p hf => ?_, fun hall => ?_⟩
      · have := firstIn_unique hf (firstIn_append_left hq)
        subst this
        rfl
      · have := hall q (List.mem_append_left _ (firstIn_mem hq).1)
        have h' := (firstIn_mem hq).2
        rw [this] at h'
        cases h'
    · have hs := hstep.2 (by simpa using hnone) (hdead [] d _ rfl nofun)
      have ih' := ih (m + 2) (by simp at hn; omega) fun a x b hx ha =>
        hdead (d :: a) x b (by rw [hx]; rfl) fun y hy => by
          rcases List.mem_cons.1 hy with rfl | hy
          · simpa using hnone
          · exact ha y hy
      simp only [hs, Prog.ret_bind, Stats.andThen_resolving, hp]
      rw [show Info.withPath ⟨d, req⟩ d' = ⟨d', req⟩ from rfl]
      refine ⟨fun p hf => ?_, fun hall => ?_⟩
      · rw [firstIn_append_right hnone] at hf
        rw [ih'.1 p hf]
        rfl
      · obtain ⟨i, hi⟩ := ih'.2 fun p hp => hall p (List.mem_append_right _ hp)
        rw [hi]
        exact ⟨_, rfl⟩

end Verif
