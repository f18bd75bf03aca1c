import Verif.Proofs.Congr
import Verif.Proofs.Success
import Verif.Proofs.Query
import Verif.Proofs.Kind
import Verif.Spec.Options
/-!
# Lemmas for the option properties
-/

namespace Verif

theorem Prog.returns_bind_iff {α β : Type} {p : Prog α} {f : α → Prog β} {b : β} :
    (p.bind f).Returns b ↔ ∃ a, p.Returns a ∧ (f a).Returns b := by
  refine ⟨Prog.returns_bind, ?_⟩
  rintro ⟨a, h1, h2⟩
  induction h1 with
  | ret a => exact h2
  | op r _ ih => exact .op r (ih h2)

@[simp] theorem Prog.returns_ret {α : Type} {a b : α} : (Prog.ret a).Returns b ↔ b = a :=
  ⟨fun h => by cases h; rfl, fun h => h ▸ .ret a⟩

@[simp] theorem Prog.returns_crash {α : Type} {c : Crash} {b : α} :
    (Prog.crash c : Prog α).Returns b ↔ False := ⟨nofun, False.elim⟩

@[simp] theorem Prog.returns_panic {α : Type} {c : Site} {b : α} :
    (Prog.panic c : Prog α).Returns b ↔ False := ⟨nofun, False.elim⟩

@[simp] theorem Prog.ret_bind {α β : Type} (a : α) (f : α → Prog β) :
    (Prog.ret a).bind f = f a := rfl

@[simp] theorem Prog.crash_bind {α β : Type} (c : Crash) (f : α → Prog β) :
    (Prog.crash c).bind f = .crash c := rfl

@[simp] theorem Prog.panic_bind {α β : Type} (c : Site) (f : α → Prog β) :
    (Prog.panic c).bind f = .panic c := rfl

theorem Prog.bind_assoc {α β γ : Type} (p : Prog α) (f : α → Prog β) (g : β → Prog γ) :
    (p.bind f).bind g = p.bind fun a => (f a).bind g := by
  induction p with
  | ret a => rfl
  | crash c => rfl
  | op o k ih => simp only [Prog.bind, ih]

@[simp] theorem Prog.bind_ret {α : Type} (p : Prog α) : p.bind .ret = p := by
  induction p with
  | ret a => rfl
  | crash c => rfl
  | op o k ih => simp only [Prog.bind, ih]

@[simp] theorem Stats.andThen_resolving (i : Info) (f : Info → Prog Stats) :
    (Stats.resolving i).andThen f = f i := rfl
@[simp] theorem Stats.andThen_success (r : Result) (f : Info → Prog Stats) :
    (Stats.success r).andThen f = .ret (.success r) := rfl
@[simp] theorem Stats.andThen_error (e : Err) (i : Info) (f : Info → Prog Stats) :
    (Stats.error e i).andThen f = .ret (.error e i) := rfl

theorem Prog.run_bind {α β : Type} (p : Prog α) (f : α → Prog β) (w : World) :
    (p.bind f).run w = match p.run w with
      | (.done a, w') => (f a).run w'
      | (.crashed c, w') => (.crashed c, w') := by
  induction p generalizing w with
  | ret a => rfl
  | crash c => rfl
  | op o k ih => simp only [Prog.bind, Prog.run, ih]

/-! ## The end of `_resolve` -/

/-- The last match of `_resolve` (src/lib.rs:244-256). -/
def finish (info : Info) : Stats → Prog Stats
  | .success r => .ret (.success r)
  | .error err i => .ret (.error (if err.isTag then failedMessage info else err) i)
  | .resolving _ => .panic .resolveUnreachable

/-- The stages after aliases and prefer_relative. -/
def plainStages (c : Ctx) (n : Nat) (info : Info) : Prog Stats :=
  (pkgStage c n info).bind fun s => s.andThen fun i => lastStage c n i

theorem resolveInner_succ (c : Ctx) (n : Nat) (info : Info) :
    resolveInner c (n + 1) info =
      ((aliasPlugin c (resolveInner c n) info).bind fun s =>
        (s.andThen fun i => preferRelativePlugin c (resolveInner c n) i).bind fun s =>
        s.andThen fun i => plainStages c n i).bind (finish info) := by
  have key : ∀ s : Stats, ((s.andThen fun i => pkgStage c n i).bind fun s =>
      s.andThen fun i => lastStage c n i) = s.andThen fun i => plainStages c n i := by
    intro s
    cases s <;> rfl
  simp only [resolveInner, key]
  rfl

theorem aliasPlugin_pass {c : Ctx} {rec : Info → Prog Stats} {info : Info}
    (h : containsStr info.path MODULE = true ∨
      ∀ kv ∈ c.opts.alias, ¬ kv.1 <+: info.request.target) :
    aliasPlugin c rec info = .ret (.resolving info) := by
  unfold aliasPlugin
  split
  · rfl
  · rename_i hm
    rcases h with h | h
    · exact (hm h).elim
    · generalize c.opts.alias = l at h
      induction l with
      | nil => rfl
      | cons x l ih =>
        obtain ⟨k, to⟩ := x
        unfold aliasLoop
        have h1 := h (k, to) (List.mem_cons_self ..)
        rw [← startsWith_iff] at h1
        simp only [h1, Bool.false_eq_true, if_false]
        exact ih fun kv hkv => h kv (List.mem_cons_of_mem _ hkv)

theorem preferRelativePlugin_pass {c : Ctx} {rec : Info → Prog Stats} {info : Info}
    (h : c.opts.preferRelative = false ∨ cs!"./" <+: info.request.target ∨
      cs!"../" <+: info.request.target) :
    preferRelativePlugin c rec info = .ret (.resolving info) := by
  unfold preferRelativePlugin
  split
  · rfl
  · rename_i hs
    simp only [Bool.or_eq_true, startsWith_iff, not_or] at hs
    rcases h with h | h | h
    · rw [h]; rfl
    · exact (hs.2 h).elim
    · exact (hs.1 h).elim

theorem resolveInner_plain {c : Ctx} (n : Nat) {info : Info}
    (ha : containsStr info.path MODULE = true ∨
      ∀ kv ∈ c.opts.alias, ¬ kv.1 <+: info.request.target)
    (hp : c.opts.preferRelative = false ∨ cs!"./" <+: info.request.target ∨
      cs!"../" <+: info.request.target) :
    resolveInner c (n + 1) info = (plainStages c n info).bind (finish info) := by
  rw [resolveInner_succ, aliasPlugin_pass ha]
  simp only [Prog.ret_bind, Stats.andThen_resolving, preferRelativePlugin_pass hp]

theorem Ctx.Agree.plain {c c' : Ctx} (h : c.Agree c') : plainStages c = plainStages c' := by
  funext n i
  simp only [plainStages, h.pkgStage, h.lastStage]

/-- Changing options other than those used by the later stages. -/
theorem Env.agree_withOpts (e : Env) (o : Opts) (h1 : o.descriptionFile = e.opts.descriptionFile)
    (h2 : o.extensions = e.opts.extensions)
    (h3 : o.enforceExtension.getD false = e.opts.enforceExtension.getD false)
    (h4 : o.mainFiles = e.opts.mainFiles) (h5 : o.mainFields = e.opts.mainFields)
    (h6 : o.browserField = e.opts.browserField)
    (h7 : ∀ k, o.conditionNames.contains k = e.opts.conditionNames.contains k) :
    e.ctx.Agree (e.withOpts o).ctx where
  isFile := rfl
  isDir := rfl
  pathExists := rfl
  load := (loadPkg_opts e o h1).symm
  extensions := h2.symm
  enforce := h3.symm
  mainFiles := h4.symm
  mainFields := h5.symm
  browser := h6.symm
  conditions := fun k => (h7 k).symm

theorem Env.agree_noAlias (e : Env) : e.ctx.Agree (e.withOpts e.opts.noAlias).ctx :=
  e.agree_withOpts _ rfl rfl rfl rfl rfl rfl fun _ => rfl

theorem Env.agree_noPrefer (e : Env) : e.ctx.Agree (e.withOpts e.opts.noPrefer).ctx :=
  e.agree_withOpts _ rfl rfl rfl rfl rfl rfl fun _ => rfl

theorem Env.agree_symlinks (e : Env) (b : Bool) :
    e.ctx.Agree (e.withOpts (e.opts.withSymlinks b)).ctx :=
  e.agree_withOpts _ rfl rfl rfl rfl rfl rfl fun _ => rfl

theorem replaceFirst_prefix (a b to : Str) : replaceFirst (a ++ b) a to = to ++ b := by
  cases h : a ++ b with
  | nil =>
    obtain ⟨rfl, rfl⟩ := List.append_eq_nil_iff.1 h
    simp [replaceFirst]
  | cons c s =>
    unfold replaceFirst
    rw [if_pos (by rw [← h, List.isPrefixOf_iff_prefix]; exact List.prefix_append ..), ← h,
      List.drop_left]

/-- What the loop over the alias entries may give. -/
theorem aliasLoop_returns {rec : Info → Prog Stats} {info : Info} {l : List (Str × AliasMap)}
    {s : Stats} :
    (aliasLoop rec info l).Returns s ↔
      (∃ r, Tried (fun t s => (rec ⟨info.path, info.request.withTarget t⟩).Returns s)
        info.request.target l (some r) ∧ s = .success r) ∨
      (Tried (fun t s => (rec ⟨info.path, info.request.withTarget t⟩).Returns s)
        info.request.target l none ∧ s = .resolving info) := by
  induction l with
  | nil =>
    unfold aliasLoop
    rw [Prog.returns_ret]
    constructor
    · exact fun h => .inr ⟨.nil, h⟩
    · rintro (⟨r, h, -⟩ | ⟨-, h⟩)
      · cases h
      · exact h
  | cons x l ih =>
    obtain ⟨key, to⟩ := x
    unfold aliasLoop
    simp only
    by_cases hk : key <+: info.request.target
    · rw [if_pos (by rwa [startsWith_iff])]
      cases to with
      | ignored =>
        simp only
        rw [Prog.returns_ret]
        constructor
        · exact fun h => .inl ⟨_, .ignored hk, h⟩
        · rintro (⟨r, h, hs⟩ | ⟨h, -⟩)
          · cases h with
            | other h _ => exact (h hk).elim
            | ignored _ => exact hs
          · cases h with
            | other h _ => exact (h hk).elim
      | target to =>
        simp only
        by_cases ht : to <+: info.request.target
        · rw [if_pos (by simp [startsWith_iff, ht]), ih]
          constructor
          · rintro (⟨r, h, hs⟩ | ⟨h, hs⟩)
            · exact .inl ⟨r, .already hk ht h, hs⟩
            · exact .inr ⟨.already hk ht h, hs⟩
          · rintro (⟨r, h, hs⟩ | ⟨h, hs⟩)
            · cases h with
              | other h _ => exact (h hk).elim
              | already _ _ h => exact .inl ⟨r, h, hs⟩
              | hit _ h _ => exact (h ht).elim
              | miss _ h _ _ _ => exact (h ht).elim
            · cases h with
              | other h _ => exact (h hk).elim
              | already _ _ h => exact .inr ⟨h, hs⟩
              | miss _ h _ _ _ => exact (h ht).elim
        · have hne : ¬ info.request.target = to := fun h => ht (h ▸ List.prefix_refl _)
          rw [if_neg (by simp [startsWith_iff, ht, hne])]
          obtain ⟨rest, hrest⟩ := hk
          have hrep : replaceFirst info.request.target key to = to ++ rest := by
            rw [← hrest, replaceFirst_prefix]
          rw [hrep, Prog.returns_bind_iff]
          constructor
          · rintro ⟨a, h1, h2⟩
            cases a with
            | success r =>
              simp only [Prog.returns_ret] at h2
              exact .inl ⟨r, .hit hrest.symm ht h1, h2⟩
            | resolving i =>
              simp only at h2
              rcases ih.1 h2 with ⟨r, h, hs⟩ | ⟨h, hs⟩
              · exact .inl ⟨r, .miss hrest.symm ht h1 (fun _ => nofun) h, hs⟩
              · exact .inr ⟨.miss hrest.symm ht h1 (fun _ => nofun) h, hs⟩
            | error er i =>
              simp only at h2
              rcases ih.1 h2 with ⟨r, h, hs⟩ | ⟨h, hs⟩
              · exact .inl ⟨r, .miss hrest.symm ht h1 (fun _ => nofun) h, hs⟩
              · exact .inr ⟨.miss hrest.symm ht h1 (fun _ => nofun) h, hs⟩
          · rintro (⟨r, h, hs⟩ | ⟨h, hs⟩)
            · cases h with
              | other h _ => exact (h ⟨rest, hrest⟩).elim
              | already _ h _ => exact (ht h).elim
              | hit h _ h1 =>
                have : _ = _ := List.append_cancel_left (hrest.trans h)
                subst this
                exact ⟨_, h1, by simpa using hs⟩
              | @miss _ _ _ _ s' _ h _ h1 h2 h3 =>
                have : _ = _ := List.append_cancel_left (hrest.trans h)
                subst this
                refine ⟨_, h1, ?_⟩
                have := ih.2 (.inl ⟨r, h3, hs⟩)
                cases s' with
                | success r => exact (h2 r rfl).elim
                | resolving i => exact this
                | error er i => exact this
            · cases h with
              | other h _ => exact (h ⟨rest, hrest⟩).elim
              | already _ h _ => exact (ht h).elim
              | @miss _ _ _ _ s' _ h _ h1 h2 h3 =>
                have : _ = _ := List.append_cancel_left (hrest.trans h)
                subst this
                refine ⟨_, h1, ?_⟩
                have := ih.2 (.inr ⟨h3, hs⟩)
                cases s' with
                | success r => exact (h2 r rfl).elim
                | resolving i => exact this
                | error er i => exact this
    · rw [if_neg (by rwa [startsWith_iff]), ih]
      constructor
      · rintro (⟨r, h, hs⟩ | ⟨h, hs⟩)
        · exact .inl ⟨r, .other hk h, hs⟩
        · exact .inr ⟨.other hk h, hs⟩
      · rintro (⟨r, h, hs⟩ | ⟨h, hs⟩)
        · cases h with
          | other _ h => exact .inl ⟨r, h, hs⟩
          | already h _ _ => exact (hk h).elim
          | ignored h => exact (hk h).elim
          | hit h _ _ => exact (hk ⟨_, h.symm⟩).elim
          | miss h _ _ _ _ => exact (hk ⟨_, h.symm⟩).elim
        · cases h with
          | other _ h => exact .inr ⟨h, hs⟩
          | already h _ _ => exact (hk h).elim
          | miss h _ _ _ _ => exact (hk ⟨_, h.symm⟩).elim

/-! ## Files -/

theorem firstIn_cons {α : Type} {P : α → Prop} {x y : α} {l : List α} (h : ¬ P y) :
    FirstIn P (y :: l) x ↔ FirstIn P l x := by
  constructor
  · rintro ⟨a, b, h1, h2, h3⟩
    cases a with
    | nil =>
      cases h1
      exact (h h2).elim
    | cons z a =>
      rw [List.cons_append, List.cons.injEq] at h1
      exact ⟨a, b, h1.2, h2, fun y hy => h3 y (List.mem_cons_of_mem _ hy)⟩
  · rintro ⟨a, b, rfl, h2, h3⟩
    refine ⟨y :: a, b, rfl, h2, fun z hz => ?_⟩
    rcases List.mem_cons.1 hz with rfl | hz
    · exact h
    · exact h3 z hz

theorem firstIn_head {α : Type} {P : α → Prop} {x y : α} {l : List α} (h : P y) :
    FirstIn P (y :: l) x ↔ x = y := by
  constructor
  · rintro ⟨a, b, h1, h2, h3⟩
    cases a with
    | nil => cases h1; rfl
    | cons z a =>
      obtain ⟨rfl, -⟩ := List.cons.inj h1
      exact (h3 _ (List.mem_cons_self ..) h).elim
  · rintro rfl
    exact ⟨[], l, rfl, h, nofun⟩

theorem getPath_eq (i : Info) : i.getPath = targetPath i.path i.request.target := by
  unfold Info.getPath targetPath
  simp only [Bool.or_eq_true, decide_eq_true_eq]

theorem extensionsPlugin_spec (c : Ctx) (path : Str) (info : Info) :
    (∀ p, FirstIn (fun p => c.fs.isFile p = true) (c.opts.extensions.map (path ++ ·)) p →
      extensionsPlugin c path info = .success (.info ((info.withPath p).withTarget []))) ∧
    ((∀ p ∈ c.opts.extensions.map (path ++ ·), c.fs.isFile p = false) →
      extensionsPlugin c path info = .resolving info) := by
  unfold extensionsPlugin
  generalize c.opts.extensions = l
  induction l with
  | nil => exact ⟨(by rintro p ⟨a, b, h, -⟩; simp at h), fun _ => rfl⟩
  | cons x l ih =>
    simp only [List.map_cons, List.find?_cons]
    cases h : c.fs.isFile (appendExt path x) with
    | true =>
      refine ⟨fun p hp => ?_, fun hall => ?_⟩
      · rw [firstIn_head (by exact h)] at hp
        subst hp
        rfl
      · have := hall (path ++ x) (List.mem_cons_self ..)
        rw [show path ++ x = appendExt path x from rfl, h] at this
        cases this
    | false =>
      refine ⟨fun p hp => ?_, fun hall => ?_⟩
      · rw [firstIn_cons (by simpa [appendExt] using h)] at hp
        exact ih.1 p hp
      · exact ih.2 fun p hp => hall p (List.mem_cons_of_mem _ hp)

theorem resolveAsFile_first {c : Ctx} {info : Info} {p : Str}
    (h : FirstIn (fun p => c.fs.isFile p = true)
      (fileCandidates c.opts (targetPath info.path info.request.target)) p) :
    resolveAsFile c info = .success (.info ((info.withPath p).withTarget [])) := by
  unfold resolveAsFile
  simp only
  rw [getPath_eq]
  unfold fileCandidates at h
  split at h
  · rename_i he
    rw [he]
    exact (extensionsPlugin_spec c _ info).1 p h
  · rename_i he
    have he' : c.opts.enforceExtension.getD false = false := by
      cases h : c.opts.enforceExtension with
      | none => rfl
      | some b => cases b with
        | false => rfl
        | true => exact (he h).elim
    rw [he']
    simp only [List.singleton_append] at h
    cases hf : c.fs.isFile (targetPath info.path info.request.target) with
    | true =>
      rw [firstIn_head (P := fun p => c.fs.isFile p = true) hf] at h
      subst h
      rfl
    | false =>
      rw [firstIn_cons (by simp [hf])] at h
      exact (extensionsPlugin_spec c _ info).1 p h

theorem resolveAsFile_none {c : Ctx} {info : Info}
    (h : ∀ p ∈ fileCandidates c.opts (targetPath info.path info.request.target),
      c.fs.isFile p = false) :
    resolveAsFile c info = .resolving info := by
  unfold resolveAsFile
  simp only
  rw [getPath_eq]
  have h2 := (extensionsPlugin_spec c (targetPath info.path info.request.target) info).2
    fun p hp => h p (List.mem_append_right _ hp)
  unfold fileCandidates at h
  split at h
  · rename_i he
    rw [he]
    exact h2
  · rw [h (targetPath info.path info.request.target) (by simp), Bool.and_false]
    exact h2

/-- With a target that names a path, no browser field and no redirects before, the description
file stage lets the request pass, unless a description file cannot be loaded. -/
theorem pkgStage_pass {c : Ctx} {n : Nat} {info : Info} {s : Stats}
    (hb : c.opts.browserField = false) (hk : ¬ cs!"#" <+: info.request.target)
    (h : (pkgStage c n info).Returns s) :
    s = .resolving info ∨ ∃ p err, (c.load p).Returns (.error err) ∧ s = .error err info := by
  unfold pkgStage at h
  obtain ⟨r, h1, h2⟩ := Prog.returns_bind h
  cases r with
  | error err =>
    simp only [Prog.returns_ret] at h2
    exact .inr ⟨_, err, h1, h2⟩
  | ok pkg =>
    left
    simp only at h2
    obtain ⟨s', h3, h4⟩ := Prog.returns_bind h2
    have : s' = .resolving info := by
      cases n with
      | zero => cases h3
      | succ n =>
        unfold importsPlugin at h3
        cases pkg with
        | none => simpa using h3
        | some pkg =>
          simp only at h3
          rw [if_pos (by
            cases hh : startsWith info.request.target ['#'] with
            | false => rfl
            | true => exact (hk ((startsWith_iff _ _).1 hh)).elim)] at h3
          simpa using h3
    subst this
    simp only [Stats.andThen_resolving] at h4
    unfold aliasFieldPlugin at h4
    rw [hb] at h4
    simpa using h4

end Verif
