import Verif.Proofs.Modules
import Verif.Proofs.Parse
import Verif.Spec.Examples
/-!
# Properties about options: C10, C15, C16, C17, C18, C48, C50
-/

namespace Verif

/-- `Ignored`, on fresh caches, for examples. -/
def Prog.freshIgnored (p : Prog (Except Err Result)) : Bool :=
  match p.fresh with
  | some (.ok .ignored) => true
  | _ => false

/-! ## C10 -/

/-- C10: a relative or absolute request, no alias or browser redirect. If some candidate is a
file, the result is the first one that is (or the error of loading a description file). -/
theorem C10_file_order (e : Env) (n : Nat) (path request p : Str)
    (hk : getTargetKind (parseRequest request).target = .relative ∨
      getTargetKind (parseRequest request).target = .absolutePosix ∨
      getTargetKind (parseRequest request).target = .absoluteWin)
    (ha : ∀ kv ∈ e.opts.alias, ¬ kv.1 <+: (parseRequest request).target)
    (hp : e.opts.preferRelative = false ∨ cs!"./" <+: (parseRequest request).target ∨
      cs!"../" <+: (parseRequest request).target)
    (hb : e.opts.browserField = false) (ht : e.opts.tsconfig = none)
    (hs : e.opts.symlinks = false)
    (hf : FirstIn (fun p => e.fs.isFile p = true)
      (fileCandidates e.opts (targetPath path (parseRequest request).target)) p)
    (a : Except Err Result) (h : (resolve e n path request).Returns a) :
    a = .ok (.info ⟨normalizeLex p,
      ⟨[], (parseRequest request).query, (parseRequest request).fragment, .relative⟩⟩) ∨
    ∃ d err err', (loadPkg e d).Returns (.error err) ∧ a = .error err' := by
  unfold resolve resolveCtx resolveStats at h
  simp only [show e.ctx.opts.tsconfig = none from ht] at h
  cases n with
  | zero => cases h
  | succ n =>
    rw [resolveInner_plain n (.inr ha) hp] at h
    obtain ⟨s, h1, h2⟩ := Prog.returns_bind h
    obtain ⟨s', h3, h4⟩ := Prog.returns_bind h1
    obtain ⟨s'', h5, h6⟩ := Prog.returns_bind h3
    rcases pkgStage_pass hb (not_hash_of_kind hk) h5 with rfl | ⟨d, err, hl, rfl⟩
    · left
      have hlast : lastStage e.ctx n ⟨path, parseRequest request⟩ =
          .ret (.success (.info (((⟨path, parseRequest request⟩ : Info).withPath p).withTarget []))) := by
        unfold lastStage
        have hk' : (parseRequest request).kind = getTargetKind (parseRequest request).target := rfl
        simp only [hk']
        rcases hk with h | h | h <;>
        · rw [h]
          simp only
          rw [resolveAsFile_first (c := e.ctx) (info := ⟨path, parseRequest request⟩) hf]
          rfl
      simp only [Stats.andThen_resolving] at h6
      rw [hlast, Prog.returns_ret] at h6
      subst h6
      simp only [finish, Prog.returns_ret] at h4
      subst h4
      simp only [normalizeResult, Info.withTarget, Request.withTarget, normalizePath,
        show e.ctx.opts.symlinks = false from hs] at h2
      simpa [Info.withPath, getTargetKind] using h2
    · right
      simp only [Stats.andThen_error, Prog.returns_ret] at h6
      subst h6
      simp only [finish, Prog.returns_ret] at h4
      subst h4
      simp only [Prog.returns_ret] at h2
      exact ⟨d, err, _, hl, h2⟩

/-- C10: if no candidate is a file (and there is no directory to look into), the request is not
resolved. -/
theorem C10_no_file (e : Env) (n : Nat) (path request : Str)
    (hk : getTargetKind (parseRequest request).target = .relative ∨
      getTargetKind (parseRequest request).target = .absolutePosix ∨
      getTargetKind (parseRequest request).target = .absoluteWin)
    (ha : ∀ kv ∈ e.opts.alias, ¬ kv.1 <+: (parseRequest request).target)
    (hp : e.opts.preferRelative = false ∨ cs!"./" <+: (parseRequest request).target ∨
      cs!"../" <+: (parseRequest request).target)
    (hb : e.opts.browserField = false) (ht : e.opts.tsconfig = none)
    (hf : ∀ p ∈ fileCandidates e.opts (targetPath path (parseRequest request).target),
      e.fs.isFile p = false)
    (hd : e.fs.isDir (targetPath path (parseRequest request).target) = false)
    (a : Except Err Result) (h : (resolve e n path request).Returns a) :
    a = .error (.failed request path) ∨
    ∃ d err, (loadPkg e d).Returns (.error err) ∧ a = .error err := by
  have hdisp : (parseRequest request).display = request := (parse_isSplit request).concat.symm
  unfold resolve resolveCtx resolveStats at h
  simp only [show e.ctx.opts.tsconfig = none from ht] at h
  cases n with
  | zero => cases h
  | succ n =>
    rw [resolveInner_plain n (.inr ha) hp] at h
    obtain ⟨s, h1, h2⟩ := Prog.returns_bind h
    obtain ⟨s', h3, h4⟩ := Prog.returns_bind h1
    obtain ⟨s'', h5, h6⟩ := Prog.returns_bind h3
    rcases pkgStage_pass hb (not_hash_of_kind hk) h5 with rfl | ⟨d, err, hl, rfl⟩
    · left
      have hlast : ∀ s, (lastStage e.ctx n ⟨path, parseRequest request⟩).Returns s →
          s = (.error .tag ⟨path, parseRequest request⟩) := by
        intro s hs
        have hdir : ∀ s, (resolveAsDir e.ctx n ⟨path, parseRequest request⟩).Returns s →
            s = (.error .tag ⟨path, parseRequest request⟩) := by
          intro s hs
          cases n with
          | zero => cases hs
          | succ n =>
            unfold resolveAsDir at hs
            simp only at hs
            rw [getPath_eq, show e.ctx.fs.isDir _ = false from hd] at hs
            simpa using hs
        unfold lastStage at hs
        have hk' : (parseRequest request).kind = getTargetKind (parseRequest request).target := rfl
        simp only [hk'] at hs
        rcases hk with h | h | h <;>
        · rw [h] at hs
          simp only at hs
          rw [resolveAsFile_none (c := e.ctx) (info := ⟨path, parseRequest request⟩) hf] at hs
          exact hdir s hs
      have := hlast _ h6
      subst this
      simp only [finish, Prog.returns_ret] at h4
      subst h4
      simp only [Prog.returns_ret] at h2
      rw [h2]
      simp [Err.isTag, failedMessage, hdisp]
    · simp only [Stats.andThen_error, Prog.returns_ret] at h6
      subst h6
      simp only [finish, Prog.returns_ret] at h4
      subst h4
      simp only [Prog.returns_ret] at h2
      cases hn : err.isTag with
      | true =>
        left
        rw [h2, hn]
        simp [failedMessage, hdisp]
      | false =>
        right
        exact ⟨d, err, hl, by rw [h2, hn]; rfl⟩

/-- `/p/a`, `/p/a.js`, `/p/a.json`, `/p/b.node`. -/
def treeExt : Tree :=
  .dir [(cs!"p", .dir [(cs!"a", textFile), (cs!"a.js", textFile), (cs!"a.json", textFile),
    (cs!"b.node", textFile)])]

-- the hypotheses are met, with and without enforced extensions, and the call returns
example : (resolve (treeEnv optsA treeExt) 9 cs!"/p" cs!"./a").freshInfo =
    some ⟨cs!"/p/a", Request.empty⟩ := by decide +kernel
example : FirstIn (fun p => (treeEnv optsA treeExt).fs.isFile p = true)
    (fileCandidates (treeEnv optsA treeExt).opts (targetPath cs!"/p" cs!"./a")) cs!"/p/./a" :=
  ⟨[], _, rfl, by decide +kernel, nofun⟩
example : FirstIn (fun p => (treeEnv optsA treeExt).fs.isFile p = true)
    (fileCandidates (treeEnv optsA treeExt).opts (targetPath cs!"/p" cs!"./b")) cs!"/p/./b.node" :=
  ⟨[cs!"/p/./b", cs!"/p/./b.js", cs!"/p/./b.json"], [], rfl, by decide +kernel, by decide +kernel⟩
example : (resolve (treeEnv optsA treeExt) 9 cs!"/p" cs!"./c").fresh.isSome = true := by
  decide +kernel

/-! ## C15 -/

/-- C15: the first alias entry whose key is a prefix of the target is `Ignored`. Missing: resolvers with
a tsconfig (`C15_tsconfig_partial`, `C15_tsconfig_violated`). -/
theorem C15_ignored_partial (e : Env) (n : Nat) (path request : Str) (ht : e.opts.tsconfig = none)
    (hm : containsStr path MODULE = false) (key : Str)
    (hf : FirstIn (fun kv : Str × AliasMap => kv.1 <+: (parseRequest request).target)
      e.opts.alias (key, .ignored)) :
    resolve e (n + 1) path request = .ret (.ok .ignored) := by
  have hloop : ∀ (rec : Info → Prog Stats) (l : List (Str × AliasMap)),
      FirstIn (fun kv : Str × AliasMap => kv.1 <+: (parseRequest request).target) l
        (key, .ignored) →
      aliasLoop rec ⟨path, parseRequest request⟩ l = .ret (.success .ignored) := by
    rintro rec l ⟨a, b, rfl, h1, h2⟩
    induction a with
    | nil =>
      unfold aliasLoop
      simp only [List.nil_append]
      rw [if_pos (by rwa [startsWith_iff])]
    | cons x a ih =>
      obtain ⟨k, to⟩ := x
      unfold aliasLoop
      simp only [List.cons_append]
      rw [if_neg (by rw [startsWith_iff]; exact h2 _ (List.mem_cons_self ..))]
      exact ih fun y hy => h2 y (List.mem_cons_of_mem _ hy)
  unfold resolve resolveCtx resolveStats
  simp only [show e.ctx.opts.tsconfig = none from ht]
  rw [resolveInner_succ, aliasPlugin]
  simp only [hm, Bool.false_eq_true, if_false]
  rw [show e.ctx.opts.alias = e.opts.alias from rfl, hloop _ _ hf]
  rfl

/-- Aliases: `b` to `./a`, `x` ignored, and a replacement that does not exist for `c`. -/
def optsAlias : Opts := { optsA with alias :=
  [(cs!"b", .target cs!"./a"), (cs!"xy", .target cs!"./a"), (cs!"x", .ignored),
   (cs!"c", .target cs!"./nope"), (cs!"c", .target cs!"./a.json")] }

example : FirstIn (fun kv : Str × AliasMap => kv.1 <+: cs!"x/z") optsAlias.alias
    (cs!"x", .ignored) := ⟨[_, _], _, rfl, by decide, by decide⟩
example : (resolve (treeEnv optsAlias treeExt) 9 cs!"/p" cs!"x/z").freshIgnored = true := by
  decide +kernel

/-! ## C16 -/

/-- A prefer_relative resolver whose alias key starts with `./`. -/
def optsDotAlias : Opts :=
  { optsA with preferRelative := true, alias := [(cs!"./a", .ignored)] }

/-- C16 fails as stated with prefer_relative: the key `./a` is no prefix of the request `a`, yet
the request is ignored, because `./a` is what prefer_relative asks for. -/
theorem C16_unrelated_violated :
    (∀ kv ∈ (treeEnv optsDotAlias treeExt).opts.alias, ¬ kv.1 <+: (parseRequest cs!"a").target) ∧
    (resolve (treeEnv optsDotAlias treeExt) 9 cs!"/p" cs!"a").freshIgnored = true ∧
    (resolve ((treeEnv optsDotAlias treeExt).withOpts (treeEnv optsDotAlias treeExt).opts.noAlias)
      9 cs!"/p" cs!"a").freshInfo = some ⟨cs!"/p/a", Request.empty⟩ := by
  decide +kernel

/-- No alias applies to a request from `path` with the target `target`, nor to what prefer_relative makes
of it. -/
def Apart (o : Opts) (path target : Str) : Prop :=
  containsStr path MODULE = true ∨ (∀ kv ∈ o.alias, ¬ kv.1 <+: target) ∧
    (o.preferRelative = true → ∀ kv ∈ o.alias, ¬ kv.1 <+: cs!"./" ++ target)

theorem resolveInner_apart (e : Env) (n : Nat) {i : Info} (h : Apart e.opts i.path i.request.target) :
    resolveInner e.ctx n i = resolveInner (e.withOpts e.opts.noAlias).ctx n i := by
  have hag := e.agree_noAlias
  unfold Apart at h
  -- targets that prefer_relative leaves alone
  have h1 : ∀ n (i : Info), (containsStr i.path MODULE = true ∨
      ∀ kv ∈ e.opts.alias, ¬ kv.1 <+: i.request.target) →
      (e.opts.preferRelative = false ∨ cs!"./" <+: i.request.target ∨
        cs!"../" <+: i.request.target) →
      resolveInner e.ctx n i = resolveInner (e.withOpts e.opts.noAlias).ctx n i := by
    intro n i ha hp
    cases n with
    | zero => rfl
    | succ n =>
      rw [resolveInner_plain n ha hp, resolveInner_plain n (.inr fun _ h => (List.not_mem_nil h).elim) hp, hag.plain]
  by_cases hp : e.opts.preferRelative = false ∨ cs!"./" <+: i.request.target ∨ cs!"../" <+: i.request.target
  · exact h1 n _ (h.imp_right And.left) hp
  · simp only [not_or, Bool.not_eq_false] at hp
    cases n with
    | zero => rfl
    | succ n =>
      rw [resolveInner_succ, resolveInner_succ, aliasPlugin_pass (h.imp_right And.left),
        aliasPlugin_pass (.inr fun _ h => (List.not_mem_nil h).elim), hag.plain]
      simp only [Prog.ret_bind, Stats.andThen_resolving, preferRelativePlugin]
      rw [h1 n ⟨i.path, i.request.withTarget (cs!"./" ++ i.request.target)⟩ (h.imp_right fun h => h.2 hp.1)
        (.inr (.inl (List.prefix_append ..)))]
      rfl

/-- C16: aliases that do not apply change nothing: the calls are the same. With a tsconfig, they must not
apply to the empty target, which `paths` ask for, and to what files extend. Missing: with prefer_relative
the keys must not apply to `./` and the target either (`C16_unrelated_violated`). -/
theorem C16_unrelated_partial (e : Env) (n : Nat) (path request : Str)
    (ht : ∀ location, e.opts.tsconfig = some location → (∀ p, Apart e.opts p []) ∧
      ∀ file doc json s dir, e.fs.read file = some doc → doc.jsonc = .ok (some json) →
        json.get cs!"extends" = some (.str s) → pparent file = some dir →
        Apart e.opts dir (parseRequest s).target)
    (h : Apart e.opts path (parseRequest request).target) :
    resolve e n path request = resolve (e.withOpts e.opts.noAlias) n path request := by
  have h2 : ∀ n, resolveInner e.ctx n ⟨path, parseRequest request⟩ =
      resolveInner (e.withOpts e.opts.noAlias).ctx n ⟨path, parseRequest request⟩ :=
    fun n => resolveInner_apart e n h
  unfold resolve resolveCtx resolveStats
  cases hts : e.opts.tsconfig with
  | none =>
    simp only [show e.ctx.opts.tsconfig = none from hts,
      show (e.withOpts e.opts.noAlias).ctx.opts.tsconfig = none from hts, h2]
    rfl
  | some location =>
    obtain ⟨ht1, ht2⟩ := ht location hts
    simp only [show e.ctx.opts.tsconfig = some location from hts,
      show (e.withOpts e.opts.noAlias).ctx.opts.tsconfig = some location from hts]
    have h3 : ∀ n location, tsValue e.ctx n location = tsValue (e.withOpts e.opts.noAlias).ctx n location := by
      intro n
      induction n with
      | zero => exact fun _ => rfl
      | succ n ih =>
        intro location
        rw [tsValue, tsValue, show (e.withOpts e.opts.noAlias).ctx.fs = e.ctx.fs from rfl]
        split
        · rfl
        · rename_i doc hr
          split
          · rfl
          · rfl
          · rename_i json hj
            split
            · rename_i s hs
              split
              · rfl
              · rename_i dir hdir
                rw [resolveInner_apart e n (i := ⟨dir, parseRequest s⟩) (ht2 _ _ _ _ _ hr hj hs hdir)]
                congr 1
                funext st
                split
                · rw [ih]
                · rfl
                · rfl
            · rfl
    have h4 : ∀ (star : Str) (next next' : Prog Stats) (l : List Str), next = next' →
        tsPathsTry (resolveInner e.ctx n) star next l =
          tsPathsTry (resolveInner (e.withOpts e.opts.noAlias).ctx n) star next' l := by
      intro star next next' l hn
      induction l with
      | nil => exact hn
      | cons p l ih => rw [tsPathsTry, tsPathsTry, resolveInner_apart e n (ht1 _), ih]
    have h5 : ∀ l, tsEntries (resolveInner e.ctx n) ⟨path, parseRequest request⟩ l =
        tsEntries (resolveInner (e.withOpts e.opts.noAlias).ctx n) ⟨path, parseRequest request⟩ l := by
      intro l
      induction l with
      | nil => exact h2 n
      | cons kp l ih =>
        obtain ⟨pattern, paths⟩ := kp
        rw [tsEntries, tsEntries, ih]
        dsimp only
        split
        · rfl
        · rfl
        · exact h4 _ _ _ _ rfl
    unfold resolveWithTsconfig
    rw [h3]
    simp only [h5]
    rfl

-- the hypotheses are met by a non-empty alias list
example : ∀ kv ∈ (treeEnv optsAlias treeExt).opts.alias, ¬ kv.1 <+: (parseRequest cs!"./a?q").target := by
  decide
example : containsStr cs!"/p/node_modules/m" MODULE = true := by decide

/-! ## C17 -/

/-- C17 fails as stated with prefer_relative: no alias applies to `a`, yet the result is not that
of the resolver without aliases. -/
theorem C17_in_order_violated :
    Tried (fun _ _ => False) (parseRequest cs!"a").target (treeEnv optsDotAlias treeExt).opts.alias
      none ∧
    (resolve (treeEnv optsDotAlias treeExt) 9 cs!"/p" cs!"a").freshIgnored = true ∧
    (resolve ((treeEnv optsDotAlias treeExt).withOpts (treeEnv optsDotAlias treeExt).opts.noAlias)
      9 cs!"/p" cs!"a").freshInfo = some ⟨cs!"/p/a", Request.empty⟩ :=
  ⟨.other (by decide) .nil, by decide +kernel, by decide +kernel⟩

/-- C17: aliases are tried in order, and the request is resolved without aliases if none
decides. Missing: prefer_relative (`C17_in_order_violated`); for resolvers with a tsconfig see
`C17_tsconfig_partial`. -/
theorem C17_in_order_partial (e : Env) (n : Nat) (path request : Str)
    (ht : e.opts.tsconfig = none) (hp : e.opts.preferRelative = false)
    (hm : containsStr path MODULE = false) (a : Except Err Result) :
    (resolve e (n + 1) path request).Returns a ↔
      (∃ r, Tried (fun t s => (resolveInner e.ctx n
          ⟨path, (parseRequest request).withTarget t⟩).Returns s)
          (parseRequest request).target e.opts.alias (some r) ∧
        (normalizeResult e.ctx r).Returns a) ∨
      (Tried (fun t s => (resolveInner e.ctx n
          ⟨path, (parseRequest request).withTarget t⟩).Returns s)
          (parseRequest request).target e.opts.alias none ∧
        (resolve (e.withOpts e.opts.noAlias) (n + 1) path request).Returns a) := by
  have hag := e.agree_noAlias
  unfold resolve resolveCtx resolveStats
  simp only [show e.ctx.opts.tsconfig = none from ht,
    show (e.withOpts e.opts.noAlias).ctx.opts.tsconfig = none from ht]
  rw [resolveInner_plain (c := (e.withOpts e.opts.noAlias).ctx) n (.inr fun _ h => (List.not_mem_nil h).elim) (.inl hp),
    ← hag.plain, resolveInner_succ, aliasPlugin]
  simp only [hm, Bool.false_eq_true, if_false, Prog.bind_assoc]
  rw [Prog.returns_bind_iff]
  have hnorm : normalizeResult (e.withOpts e.opts.noAlias).ctx = normalizeResult e.ctx := rfl
  constructor
  · rintro ⟨s, h1, h2⟩
    rcases aliasLoop_returns.1 h1 with ⟨r, h3, rfl⟩ | ⟨h3, rfl⟩
    · exact .inl ⟨r, h3, h2⟩
    · refine .inr ⟨h3, ?_⟩
      simp only [Stats.andThen_resolving] at h2
      rw [preferRelativePlugin_pass (.inl hp)] at h2
      rw [hnorm]
      exact h2
  · rintro (⟨r, h3, h2⟩ | ⟨h3, h2⟩)
    · exact ⟨_, aliasLoop_returns.2 (.inl ⟨r, h3, rfl⟩), h2⟩
    · refine ⟨_, aliasLoop_returns.2 (.inr ⟨h3, rfl⟩), ?_⟩
      simp only [Stats.andThen_resolving]
      rw [preferRelativePlugin_pass (.inl hp)]
      rw [hnorm] at h2
      exact h2

-- a hit after an entry that does not apply, a hit after a miss, and a fallback
example : (resolve (treeEnv optsAlias treeExt) 9 cs!"/p" cs!"b.js").freshInfo =
    some ⟨cs!"/p/a.js", Request.empty⟩ := by decide +kernel
example : (resolve (treeEnv optsAlias treeExt) 9 cs!"/p" cs!"c").freshInfo =
    some ⟨cs!"/p/a.json", Request.empty⟩ := by decide +kernel
example : (resolve (treeEnv { optsA with alias := [(cs!"m", .target cs!"./nope")] } treeA) 20
    cs!"/p" cs!"m").freshInfo = some ⟨cs!"/p/node_modules/m/index.js", Request.empty⟩ := by
  decide +kernel

/-! ## C18 -/

/-- C18 fails as stated with aliases: `./a` resolves, but the alias for `a` comes first. -/
theorem C18_prefer_violated :
    (resolve (treeEnv { optsA with preferRelative := true, alias := [(cs!"a", .ignored)] } treeExt)
      9 cs!"/p" cs!"./a").freshInfo = some ⟨cs!"/p/a", Request.empty⟩ ∧
    (resolve (treeEnv { optsA with preferRelative := true, alias := [(cs!"a", .ignored)] } treeExt)
      9 cs!"/p" cs!"a").freshIgnored = true := by
  decide +kernel

/-- An answer of `resolve` for a request that was found: a result, or the failure to
canonicalise its path. -/
def Found (a : Except Err Result) : Prop := (∃ r, a = .ok r) ∨ a = .error .normalizeFailed

/-- No stage before normalisation fails with the normalisation error. -/
theorem not_normalizeFailed {e : Env} {n : Nat} {path request : Str} {i : Info}
    (ht : e.opts.tsconfig = none)
    (h : (resolveStats e.ctx n path request).Returns (.error .normalizeFailed i)) : False := by
  have h0 : Inv e.ctx (fun _ => True) (fun _ _ => True) (fun _ => True) (fun _ => True)
      (fun _ => True) (fun _ => True) (fun er => er ≠ .normalizeFailed) True :=
    { anyInv e (fun p => Prog.all_true (loadPkg e p)) with
      load := fun p _ => (loadPkg_all e p).mono fun r hr =>
        ⟨fun _ _ => trivial, fun err he hn => by have := hr err he; subst hn; cases this⟩
      file := fun i _ => by
        cases h : resolveAsFile e.ctx i with
        | success r => cases r <;> trivial
        | resolving j => trivial
        | error er j =>
          unfold resolveAsFile extensionsPlugin at h
          simp only at h
          split at h
          · cases h
          · split at h <;> cases h
      errTag := nofun
      errPkg := fun pkg _ => ⟨fun _ => nofun,
        fun root t er _ h hn => (by have := fieldProcess_err h; rw [hn] at this; cases this),
        fun root t er _ h hn => (by have := fieldProcess_err h; rw [hn] at this; cases this)⟩ }
  have h1 := resolveStats_sat h0 n path request trivial fun l hl => by
    rw [show e.ctx.opts.tsconfig = none from ht] at hl; cases hl
  rcases Prog.all_iff_returns.1 h1 _ h with h2 | h2
  · cases h2
  · exact h2.1 rfl

/-- Reading a request in front of which `./` was put. -/
theorem parse_dot (request : Str) (hh : request.head? ≠ some '#') :
    parseRequest (cs!"./" ++ request) =
      (parseRequest request).withTarget (cs!"./" ++ (parseRequest request).target) := by
  have hs := parse_isSplit request
  have hs' : IsSplit (cs!"./" ++ request) (cs!"./" ++ (parseIdentifier request).1)
      (parseIdentifier request).2.1 (parseIdentifier request).2.2 :=
    { concat := by
        have := hs.concat
        simp only [List.append_assoc] at this ⊢
        rw [← this]
      target_no_query := by simpa using hs.target_no_query
      target_hash := by
        intro hm
        have hm : '#' ∈ (parseIdentifier request).1 := by simpa using hm
        cases ht : (parseIdentifier request).1 with
        | nil => rw [ht] at hm; cases hm
        | cons c t =>
          rw [ht] at hm
          rcases List.mem_cons.1 hm with h | h
          · have := hs.concat
            rw [ht, ← h] at this
            rw [this] at hh
            exact hh rfl
          · have := hs.target_hash
            rw [ht] at this
            exact this h
      query_start := hs.query_start
      query_no_hash := hs.query_no_hash
      fragment_start := hs.fragment_start
      leading_hash := by simp }
  have := parse_of_isSplit hs'
  unfold parseRequest Request.withTarget
  rw [this]

/-- C18: with prefer_relative, without aliases. If the relative reading is found, that is the
result, otherwise the result is that of the resolver without prefer_relative. For a request
with target already starting with `./` or `../` the calls are the same. Missing: aliases
(`C18_prefer_violated`), and requests starting with `#`, where `./` in front of the request is read as
target `./` with a fragment (`C18_hash_violated`); for resolvers with a tsconfig see `C18_tsconfig_partial`. -/
theorem C18_prefer_partial (e : Env) (n : Nat) (path request : Str)
    (ht : e.opts.tsconfig = none) (ha : e.opts.alias = []) (hp : e.opts.preferRelative = true) :
    ((cs!"./" <+: (parseRequest request).target ∨ cs!"../" <+: (parseRequest request).target) →
      resolve e n path request = resolve (e.withOpts e.opts.noPrefer) n path request) ∧
    (¬ (cs!"./" <+: (parseRequest request).target ∨ cs!"../" <+: (parseRequest request).target) →
      request.head? ≠ some '#' → ∀ a,
      ((resolve e (n + 1) path request).Returns a ↔
        ((resolve (e.withOpts e.opts.noPrefer) n path (cs!"./" ++ request)).Returns a ∧ Found a) ∨
        (∃ b, (resolve (e.withOpts e.opts.noPrefer) n path (cs!"./" ++ request)).Returns b ∧
          ¬ Found b) ∧
          (resolve (e.withOpts e.opts.noPrefer) (n + 1) path request).Returns a)) := by
  have hag := e.agree_noPrefer
  have ha1 : ∀ (i : Info), ∀ kv ∈ e.ctx.opts.alias, ¬ kv.1 <+: i.request.target := by
    intro i kv hkv
    rw [show e.ctx.opts.alias = [] from ha] at hkv
    cases hkv
  have ha2 : ∀ (i : Info), ∀ kv ∈ (e.withOpts e.opts.noPrefer).ctx.opts.alias,
      ¬ kv.1 <+: i.request.target := ha1
  have hpl : ∀ n (i : Info), (cs!"./" <+: i.request.target ∨ cs!"../" <+: i.request.target) →
      resolveInner e.ctx n i = resolveInner (e.withOpts e.opts.noPrefer).ctx n i := by
    intro n i h
    cases n with
    | zero => rfl
    | succ n =>
      rw [resolveInner_plain n (.inr (ha1 i)) (.inr h), resolveInner_plain n (.inr (ha2 i)) (.inl rfl),
        hag.plain]
  have hnorm : normalizeResult (e.withOpts e.opts.noPrefer).ctx = normalizeResult e.ctx := rfl
  have hts' : (e.withOpts e.opts.noPrefer).opts.tsconfig = none := ht
  constructor
  · intro h
    unfold resolve resolveCtx resolveStats
    simp only [show e.ctx.opts.tsconfig = none from ht,
      show (e.withOpts e.opts.noPrefer).ctx.opts.tsconfig = none from ht]
    rw [hpl n _ h, hnorm]
  · intro h hh a
    -- the relative reading
    have hrel : ∀ b, (resolve (e.withOpts e.opts.noPrefer) n path (cs!"./" ++ request)).Returns b ↔
        ∃ s, (resolveInner e.ctx n ⟨path, (parseRequest request).withTarget
          (cs!"./" ++ (parseRequest request).target)⟩).Returns s ∧
          (match s with
            | .success r => (normalizeResult e.ctx r).Returns b
            | .error err _ => b = .error err ∧ err ≠ .normalizeFailed
            | .resolving _ => False) := by
      intro b
      have hnf := @not_normalizeFailed (e.withOpts e.opts.noPrefer) n path (cs!"./" ++ request)
      unfold resolveStats at hnf
      unfold resolve resolveCtx resolveStats
      simp only [show (e.withOpts e.opts.noPrefer).ctx.opts.tsconfig = none from ht] at hnf ⊢
      rw [parse_dot request hh] at hnf ⊢
      rw [← hpl n _ (.inl (List.prefix_append ..))] at hnf ⊢
      rw [Prog.returns_bind_iff, hnorm]
      constructor
      · rintro ⟨s, h1, h2⟩
        refine ⟨s, h1, ?_⟩
        cases s with
        | success r => exact h2
        | resolving i => cases h2
        | error err i =>
          simp only [Prog.returns_ret] at h2
          exact ⟨h2, fun h => hnf hts' (h ▸ h1)⟩
      · rintro ⟨s, h1, h2⟩
        refine ⟨s, h1, ?_⟩
        cases s with
        | success r => exact h2
        | resolving i => cases h2
        | error err i => simpa using h2.1
    have hfound : ∀ r b, (normalizeResult e.ctx r).Returns b → Found b := by
      intro r b hb
      cases r with
      | ignored =>
        simp only [normalizeResult, Prog.returns_ret] at hb
        exact .inl ⟨_, hb⟩
      | info i =>
        simp only [normalizeResult] at hb
        split at hb
        · cases hb
        · split at hb
          · rename_i er her
            simp only [Prog.returns_ret] at hb
            right
            unfold normalizePath at her
            split at her
            · split at her
              · cases her
              · cases her; exact hb
            · cases her
          · simp only [Prog.returns_ret] at hb
            exact .inl ⟨_, hb⟩
    have hoff : resolve (e.withOpts e.opts.noPrefer) (n + 1) path request =
        ((plainStages e.ctx n ⟨path, parseRequest request⟩).bind
          (finish ⟨path, parseRequest request⟩)).bind fun
          | .success r => normalizeResult e.ctx r
          | .error err _ => .ret (.error err)
          | .resolving _ => .panic .apiUnreachable := by
      unfold resolve resolveCtx resolveStats
      simp only [show (e.withOpts e.opts.noPrefer).ctx.opts.tsconfig = none from ht]
      rw [resolveInner_plain n (.inr (ha2 _)) (.inl rfl), ← hag.plain]
      rfl
    have hon : (resolve e (n + 1) path request).Returns a ↔
        ∃ s, (resolveInner e.ctx n ⟨path, (parseRequest request).withTarget
          (cs!"./" ++ (parseRequest request).target)⟩).Returns s ∧
          (match s with
            | .success r => (normalizeResult e.ctx r).Returns a
            | _ => (resolve (e.withOpts e.opts.noPrefer) (n + 1) path request).Returns a) := by
      rw [hoff]
      unfold resolve resolveCtx resolveStats
      simp only [show e.ctx.opts.tsconfig = none from ht]
      rw [resolveInner_succ, aliasPlugin_pass (.inr (ha1 _))]
      simp only [Prog.ret_bind, Stats.andThen_resolving, preferRelativePlugin]
      rw [if_neg (by simpa [startsWith_iff, or_comm] using h),
        if_pos (show e.ctx.opts.preferRelative = true from hp)]
      rw [Prog.bind_assoc, Prog.bind_assoc, Prog.bind_assoc, Prog.returns_bind_iff]
      refine exists_congr fun s => and_congr_right fun _ => ?_
      cases s <;> simp only [Prog.bind_assoc, Prog.ret_bind, Stats.andThen_resolving] <;> rfl
    rw [hon]
    constructor
    · rintro ⟨s, h1, h2⟩
      cases s with
      | success r => exact .inl ⟨(hrel a).2 ⟨_, h1, h2⟩, hfound r a h2⟩
      | resolving i =>
        have := Prog.all_iff_returns.1 (resolveInner_sat
          (anyInv e (fun p => Prog.all_true (loadPkg e p))) n (info := ⟨path,
            (parseRequest request).withTarget (cs!"./" ++ (parseRequest request).target)⟩)
          trivial) _ h1
        exact this.elim
      | error err i =>
        have hne : err ≠ .normalizeFailed := by
          intro hn
          have hnf := @not_normalizeFailed e n path (cs!"./" ++ request) i ht
          unfold resolveStats at hnf
          simp only [show e.ctx.opts.tsconfig = none from ht] at hnf
          rw [parse_dot request hh] at hnf
          exact hnf (hn ▸ h1)
        refine .inr ⟨⟨.error err, (hrel _).2 ⟨_, h1, rfl, hne⟩, ?_⟩, h2⟩
        rintro (⟨r, hr⟩ | hr)
        · cases hr
        · cases hr; exact hne rfl
    · rintro (⟨h1, h2⟩ | ⟨⟨b, h1, h2⟩, h3⟩)
      · obtain ⟨s, h4, h5⟩ := (hrel a).1 h1
        refine ⟨s, h4, ?_⟩
        cases s with
        | success r => exact h5
        | resolving i => exact h5.elim
        | error err i =>
          obtain ⟨rfl, h6⟩ := h5
          rcases h2 with ⟨r, hr⟩ | hr
          · cases hr
          · cases hr; exact (h6 rfl).elim
      · obtain ⟨s, h4, h5⟩ := (hrel b).1 h1
        refine ⟨s, h4, ?_⟩
        cases s with
        | success r => exact (h2 (hfound r b h5)).elim
        | resolving i => exact h3
        | error err i => exact h3

-- both alternatives occur
example : (resolve (treeEnv { optsA with preferRelative := true } treeExt) 9 cs!"/p"
    cs!"a.js").freshInfo = some ⟨cs!"/p/a.js", Request.empty⟩ := by decide +kernel
example : (resolve (treeEnv { optsA with preferRelative := true } treeA) 20 cs!"/p"
    cs!"m").freshInfo = some ⟨cs!"/p/node_modules/m/index.js", Request.empty⟩ := by decide +kernel

/-- C17 and C18 together: what a resolver with aliases and prefer_relative does. Missing: this is what the
code does instead of C17 and C18, which do not hold with both options (`C17_in_order_violated`,
`C18_prefer_violated`). -/
theorem C17_prefer_partial (e : Env) (n : Nat) (path request : Str)
    (ht : e.opts.tsconfig = none) (hp : e.opts.preferRelative = true)
    (hm : containsStr path MODULE = false) (a : Except Err Result) :
    (resolve e (n + 1) path request).Returns a ↔
      (∃ r, Course (fun t s => (resolveInner e.ctx n ⟨path, (parseRequest request).withTarget t⟩).Returns s)
          e.opts.alias (parseRequest request).target (some r) ∧ (normalizeResult e.ctx r).Returns a) ∨
      (Course (fun t s => (resolveInner e.ctx n ⟨path, (parseRequest request).withTarget t⟩).Returns s)
          e.opts.alias (parseRequest request).target none ∧
        (resolve (e.withOpts e.opts.noAlias.noPrefer) (n + 1) path request).Returns a) := by
  have hag : e.ctx.Agree (e.withOpts e.opts.noAlias.noPrefer).ctx :=
    e.agree_withOpts _ rfl rfl rfl rfl rfl rfl fun _ => rfl
  have hoff : resolve (e.withOpts e.opts.noAlias.noPrefer) (n + 1) path request =
      ((plainStages e.ctx n ⟨path, parseRequest request⟩).bind
        (finish ⟨path, parseRequest request⟩)).bind fun
        | .success r => normalizeResult e.ctx r
        | .error err _ => .ret (.error err)
        | .resolving _ => .panic .apiUnreachable := by
    unfold resolve resolveCtx resolveStats
    simp only [show (e.withOpts e.opts.noAlias.noPrefer).ctx.opts.tsconfig = none from ht]
    rw [resolveInner_plain (c := (e.withOpts e.opts.noAlias.noPrefer).ctx) n
      (.inr fun _ h => (List.not_mem_nil h).elim) (.inl rfl), ← hag.plain]
    rfl
  have hon : (resolve e (n + 1) path request).Returns a ↔
      (∃ r, Tried (fun t s => (resolveInner e.ctx n ⟨path, (parseRequest request).withTarget t⟩).Returns s)
          (parseRequest request).target e.opts.alias (some r) ∧ (normalizeResult e.ctx r).Returns a) ∨
      (Tried (fun t s => (resolveInner e.ctx n ⟨path, (parseRequest request).withTarget t⟩).Returns s)
          (parseRequest request).target e.opts.alias none ∧
        ((((preferRelativePlugin e.ctx (resolveInner e.ctx n) ⟨path, parseRequest request⟩).bind fun s =>
          s.andThen fun i => plainStages e.ctx n i).bind (finish ⟨path, parseRequest request⟩)).bind fun
          | .success r => normalizeResult e.ctx r
          | .error err _ => .ret (.error err)
          | .resolving _ => .panic .apiUnreachable).Returns a) := by
    unfold resolve resolveCtx resolveStats
    simp only [show e.ctx.opts.tsconfig = none from ht]
    rw [resolveInner_succ, aliasPlugin]
    simp only [hm, Bool.false_eq_true, if_false, Prog.bind_assoc]
    rw [Prog.returns_bind_iff]
    constructor
    · rintro ⟨s, h1, h2⟩
      rcases aliasLoop_returns.1 h1 with ⟨r, h3, rfl⟩ | ⟨h3, rfl⟩
      · exact .inl ⟨r, h3, h2⟩
      · exact .inr ⟨h3, by simp only [Stats.andThen_resolving] at h2; exact h2⟩
    · rintro (⟨r, h3, h2⟩ | ⟨h3, h2⟩)
      · exact ⟨_, aliasLoop_returns.2 (.inl ⟨r, h3, rfl⟩), h2⟩
      · exact ⟨_, aliasLoop_returns.2 (.inr ⟨h3, rfl⟩), by simp only [Stats.andThen_resolving]; exact h2⟩
  rw [hon]
  by_cases h : cs!"./" <+: (parseRequest request).target ∨ cs!"../" <+: (parseRequest request).target
  · rw [preferRelativePlugin_pass (.inr h)]
    simp only [Prog.ret_bind, Stats.andThen_resolving]
    rw [hoff]
    constructor
    · rintro (⟨r, h1, h2⟩ | ⟨h1, h2⟩)
      · exact .inl ⟨r, .alias h1, h2⟩
      · exact .inr ⟨.already h1 h, h2⟩
    · rintro (⟨r, h1, h2⟩ | ⟨h1, h2⟩)
      · cases h1 with
        | alias h1 => exact .inl ⟨r, h1, h2⟩
        | relative h1 ha hb => exact absurd h (by simp only [ha, hb]; simp)
      · cases h1 with
        | neither h1 ha hb => exact absurd h (by simp only [ha, hb]; simp)
        | already h1 => exact .inr ⟨h1, h2⟩
  · have hrel : ((((preferRelativePlugin e.ctx (resolveInner e.ctx n) ⟨path, parseRequest request⟩).bind fun s =>
          s.andThen fun i => plainStages e.ctx n i).bind (finish ⟨path, parseRequest request⟩)).bind fun
          | .success r => normalizeResult e.ctx r
          | .error err _ => .ret (.error err)
          | .resolving _ => .panic .apiUnreachable).Returns a ↔
        ∃ s, (resolveInner e.ctx n ⟨path, (parseRequest request).withTarget
          (cs!"./" ++ (parseRequest request).target)⟩).Returns s ∧
          (match s with
            | .success r => (normalizeResult e.ctx r).Returns a
            | _ => (resolve (e.withOpts e.opts.noAlias.noPrefer) (n + 1) path request).Returns a) := by
      rw [hoff]
      simp only [preferRelativePlugin]
      rw [if_neg (by simpa [startsWith_iff, or_comm] using h),
        if_pos (show e.ctx.opts.preferRelative = true from hp)]
      rw [Prog.bind_assoc, Prog.bind_assoc, Prog.bind_assoc, Prog.returns_bind_iff]
      refine exists_congr fun s => and_congr_right fun _ => ?_
      cases s <;> simp only [Prog.bind_assoc, Prog.ret_bind, Stats.andThen_resolving] <;> rfl
    rw [hrel]
    have ha : ¬ cs!"./" <+: (parseRequest request).target := fun h' => h (.inl h')
    have hb : ¬ cs!"../" <+: (parseRequest request).target := fun h' => h (.inr h')
    constructor
    · rintro (⟨r, h1, h2⟩ | ⟨h1, s, h3, h4⟩)
      · exact .inl ⟨r, .alias h1, h2⟩
      · cases s with
        | success r => exact .inl ⟨r, .relative h1 ha hb h3, h4⟩
        | resolving i => exact .inr ⟨.neither h1 ha hb h3 (fun _ h => by cases h), h4⟩
        | error er i => exact .inr ⟨.neither h1 ha hb h3 (fun _ h => by cases h), h4⟩
    · rintro (⟨r, h1, h2⟩ | ⟨h1, h2⟩)
      · cases h1 with
        | alias h1 => exact .inl ⟨r, h1, h2⟩
        | relative h1 _ _ h3 => exact .inr ⟨h1, _, h3, h2⟩
      · cases h1 with
        | @neither s h1 _ _ h3 h4 =>
          refine .inr ⟨h1, s, h3, ?_⟩
          cases s with
          | success r => exact absurd rfl (h4 r)
          | resolving i => exact h2
          | error er i => exact h2
        | already _ h' => exact absurd h' h

-- the alias decides; the relative reading, through an alias of its own; neither
example : let o := { optsA with preferRelative := true, alias := [(cs!"m", .target cs!"./a.js"), (cs!"./b", .target cs!"./a")] }
    (resolve (treeEnv o treeExt) 9 cs!"/p" cs!"m").freshInfo = some ⟨cs!"/p/a.js", Request.empty⟩ ∧
    (resolve (treeEnv o treeExt) 9 cs!"/p" cs!"b.js").freshInfo = some ⟨cs!"/p/a.js", Request.empty⟩ ∧
    (resolve (treeEnv o treeExt) 9 cs!"/p" cs!"c").freshInfo = none := by decide +kernel

/-! ## C48 -/

/-- C48: run from the same state, the resolvers without and with symlinks end in the same state,
and with outcomes that differ in the form of the path only. -/
theorem C48_symlinks (e : Env) (n : Nat) (path request : Str) (w : World) :
    ((resolve (e.withOpts (e.opts.withSymlinks false)) n path request).run w).2 =
      ((resolve (e.withOpts (e.opts.withSymlinks true)) n path request).run w).2 ∧
    FormOnly e.fs ((resolve (e.withOpts (e.opts.withSymlinks false)) n path request).run w).1
      ((resolve (e.withOpts (e.opts.withSymlinks true)) n path request).run w).1 := by
  have hst : ∀ b, resolveStats (e.withOpts (e.opts.withSymlinks b)).ctx = resolveStats e.ctx :=
    fun b => ((e.agree_symlinks b).stats rfl rfl rfl fun _ _ => rfl).symm
  unfold resolve resolveCtx
  rw [hst, hst, Prog.run_bind, Prog.run_bind]
  have hok := Prog.all_iff_returns.1 (resolveStats_fileOk e n path request)
  cases hr : (resolveStats e.ctx n path request).run w with
  | mk o w' =>
    cases o with
    | crashed c => exact ⟨rfl, .crash c⟩
    | done s =>
      have hs := hok s (Prog.returns_of_run hr)
      cases s with
      | resolving i => exact hs.elim
      | error err i => exact ⟨rfl, .error err⟩
      | success r =>
        cases r with
        | ignored => exact ⟨rfl, .ignored⟩
        | info i =>
          have hf : FileOk e.opts e.fs i := hs
          simp only [normalizeResult, hf.target, normalizePath]
          simp only [ne_eq, not_true_eq_false, decide_false, Bool.and_false, Bool.false_eq_true,
            if_false]
          have h1 : (e.withOpts (e.opts.withSymlinks true)).ctx.opts.symlinks = true := rfl
          have h2 : (e.withOpts (e.opts.withSymlinks false)).ctx.opts.symlinks = false := rfl
          have h3 : ∀ b, (e.withOpts (e.opts.withSymlinks b)).ctx.fs = e.fs := fun _ => rfl
          rw [h1, h2, h3 true]
          simp only [if_true, Bool.false_eq_true, if_false]
          cases hc : e.fs.canon i.path with
          | none => exact ⟨rfl, .fail _ _ hf.file hc⟩
          | some q => exact ⟨rfl, .info _ _ _ hf.file hc⟩

-- with a link: `/p/a.js` is `/p/real/x.js`
example : (((resolve { (treeEnv Opts.default treeA) with
      fs := { (treeFs treeA []) with canon := fun _ => some cs!"/p/real/x.js" } } 20 cs!"/p"
      cs!"./a").run (World.init fun _ => 0)).1 matches
    .done (.ok (.info ⟨['/', 'p', '/', 'r', 'e', 'a', 'l', '/', 'x', '.', 'j', 's'], _⟩))) := by
  decide +kernel

/-! ## C50 -/

/-- Two file systems that differ in the contents of files as package descriptions (and in their
modification times) only. -/
structure SameButJson (fs fs' : Fs) : Prop where
  isFile : fs.isFile = fs'.isFile
  isDir : fs.isDir = fs'.isDir
  pathExists : fs.pathExists = fs'.pathExists
  canon : fs.canon = fs'.canon
  jsonc : ∀ p, (fs.read p).map Doc.jsonc = (fs'.read p).map Doc.jsonc

/-- C50: with `description_file` none, no package.json influences a result: on two file systems
that differ there only, the calls are the same. (What tsconfig files say is in `Doc.jsonc`.) -/
theorem C50_no_influence (e : Env) (fs : Fs) (hd : e.opts.descriptionFile = none)
    (hfs : SameButJson e.fs fs) (n : Nat) (path request : Str) :
    resolve e n path request = resolve { e with fs := fs } n path request := by
  have hag : e.ctx.Agree ({ e with fs := fs } : Env).ctx :=
    { isFile := hfs.isFile, isDir := hfs.isDir, pathExists := hfs.pathExists
      load := by
        funext p
        show loadPkg e p = loadPkg { e with fs := fs } p
        rw [loadPkg_none _ hd, loadPkg_none { e with fs := fs } hd]
      extensions := rfl, enforce := rfl, mainFiles := rfl, mainFields := rfl, browser := rfl
      conditions := fun _ => rfl }
  unfold resolve resolveCtx
  rw [hag.stats rfl rfl rfl fun _ => hfs.jsonc]
  have hnorm : normalizeResult ({ e with fs := fs } : Env).ctx = normalizeResult e.ctx := by
    funext r
    unfold normalizeResult normalizePath
    rw [show e.ctx.fs.canon = ({ e with fs := fs } : Env).ctx.fs.canon from hfs.canon]
    rfl
  rw [hnorm]

/-- C50: with `description_file` none, `resolve` leaves every cache as it is and reads none: the
result and the crash, if any, are the same from any two states with the same source of
randomness. -/
theorem C50_no_cache (e : Env) (hd : e.opts.descriptionFile = none) (n : Nat)
    (path request : Str) (w : World) :
    (∃ seeds, ((resolve e n path request).run w).2 = { w with seeds := seeds }) ∧
    ∀ w', w'.seeds = w.seeds →
      ((resolve e n path request).run w').1 = ((resolve e n path request).run w).1 := by
  have h := resolve_any e (G := fun o => o = .seed) (R := fun _ _ => True) rfl
    (fun p => by rw [loadPkg_none _ hd]; trivial) n path request
  generalize resolve e n path request = p at h
  induction p generalizing w with
  | ret a => exact ⟨⟨w.seeds, rfl⟩, fun _ _ => rfl⟩
  | crash c => exact ⟨⟨w.seeds, rfl⟩, fun _ _ => rfl⟩
  | op o k ih =>
    obtain ⟨rfl, h2⟩ := h
    let w1 : World := { w with seeds := fun n => w.seeds (n + 1) }
    obtain ⟨⟨seeds, h3⟩, h4⟩ := ih (w.seeds 0) w1 (h2 _ trivial)
    refine ⟨⟨seeds, h3⟩, fun w' hw => ?_⟩
    have h5 := h4 { w' with seeds := fun n => w'.seeds (n + 1) } (by simp only [hw, w1])
    have h6 : w'.seeds 0 = w.seeds 0 := by rw [hw]
    show ((k (w'.seeds 0)).run _).1 = ((k (w.seeds 0)).run _).1
    rw [h6]
    exact h5

-- a package.json that would redirect has no effect; with description files it has
example : (resolve (treeEnv { optsA with descriptionFile := none } (.dir [(cs!"p", .dir [
      (cs!"package.json", jsonFile (.obj [(cs!"main", .str cs!"./x.js")])),
      (cs!"x.js", textFile), (cs!"index.js", textFile)])])) 9 cs!"/" cs!"./p").freshInfo =
    some ⟨cs!"/p/index.js", Request.empty⟩ := by decide +kernel
example : (resolve (treeEnv optsA (.dir [(cs!"p", .dir [
      (cs!"package.json", jsonFile (.obj [(cs!"main", .str cs!"./x.js")])),
      (cs!"x.js", textFile), (cs!"index.js", textFile)])])) 9 cs!"/" cs!"./p").freshInfo =
    some ⟨cs!"/p/x.js", Request.empty⟩ := by decide +kernel

end Verif
