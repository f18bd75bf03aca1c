import Verif.Spec.Base
import Verif.Proofs.Options
import Verif.Proofs.Transparent
/-!
# Absolute requests from different directories
-/

namespace Verif

/-- Programs that make the same operations and end with related values. -/
inductive Prog.Twin {α β : Type} (Q : α → β → Prop) : Prog α → Prog β → Prop where
  | ret {a : α} {b : β} : Q a b → Twin Q (.ret a) (.ret b)
  | crash (c : Crash) : Twin Q (.crash c) (.crash c)
  | op (o : Op) {k : o.Ret → Prog α} {k' : o.Ret → Prog β} : (∀ r, Twin Q (k r) (k' r)) →
      Twin Q (.op o k) (.op o k')

variable {α β γ δ : Type}

theorem Prog.Twin.bind {Q : α → β → Prop} {Q' : γ → δ → Prop} {p : Prog α} {q : Prog β}
    {f : α → Prog γ} {g : β → Prog δ} (h : p.Twin Q q) (hfg : ∀ a b, Q a b → (f a).Twin Q' (g b)) :
    (p.bind f).Twin Q' (q.bind g) := by
  induction h with
  | ret h => exact hfg _ _ h
  | crash c => exact .crash c
  | op o _ ih => exact .op o ih

theorem Prog.Twin.refl {Q : α → α → Prop} (hQ : ∀ a, Q a a) (p : Prog α) : p.Twin Q p := by
  induction p with
  | ret a => exact .ret (hQ a)
  | crash c => exact .crash c
  | op o k ih => exact .op o ih

theorem Prog.Twin.run {Q : α → β → Prop} {p : Prog α} {q : Prog β} (h : p.Twin Q q) (w : World) :
    (p.run w).1.Like Q (q.run w).1 ∧ (p.run w).2 = (q.run w).2 := by
  induction h generalizing w with
  | ret h => exact ⟨h, rfl⟩
  | crash c => exact ⟨rfl, rfl⟩
  | op o _ ih => exact ih _ _

theorem Prog.Twin.ends {Q : α → β → Prop} {p : Prog α} {q : Prog β} (h : p.Twin Q q) {x : Outcome α}
    (hx : p.Ends x) : ∃ y, q.Ends y ∧ x.Like Q y := by
  induction h generalizing x with
  | ret h => cases hx; exact ⟨_, .ret _, h⟩
  | crash c => cases hx; exact ⟨_, .crash c, rfl⟩
  | op o _ ih =>
    cases hx with
    | op r hx =>
      obtain ⟨y, h1, h2⟩ := ih r hx
      exact ⟨y, .op r h1, h2⟩

/-- An absolute request. -/
def AbsReq (r : Request) : Prop := isAbs r.target = true ∧ r.kind = .absolutePosix

/-- A request for a path. -/
def PathReq (r : Request) : Prop :=
  (r.kind = .absolutePosix ∨ r.kind = .absoluteWin ∨ r.kind = .relative) ∧
    startsWith r.target cs!"#" = false

theorem AbsReq.pathReq {r : Request} (h : AbsReq r) : PathReq r := by
  refine ⟨.inl h.2, ?_⟩
  obtain ⟨t, ht⟩ := (isAbs_iff _).1 h.1
  rw [ht]
  rfl

theorem PathReq.kind {r : Request} (h : PathReq r) : r.kind ≠ .normal := by
  rcases h.1 with h | h | h <;> rw [h] <;> decide

/-- Information that names the same path. -/
structure SamePlace (i j : Info) : Prop where
  path : i.getPath = j.getPath
  query : i.request.query = j.request.query
  fragment : i.request.fragment = j.request.fragment
  left : PathReq i.request
  right : PathReq j.request

theorem SamePlace.withTarget {i j : Info} (h : SamePlace i j) (p t : Str) :
    (i.withPath p).withTarget t = (j.withPath p).withTarget t := by
  simp only [Info.withPath, Info.withTarget, Request.withTarget, h.query, h.fragment]

/-- Information that is the same, or names the same path. -/
def TI (i j : Info) : Prop := i = j ∨ SamePlace i j

/-- States that are the same but for a path that does not matter. -/
def TS : Stats → Stats → Prop
  | .success a, .success b => a = b
  | .resolving i, .resolving j => TI i j
  | .error e _, .error e' _ => e = e'
  | _, _ => False

theorem TS.refl (s : Stats) : TS s s := by
  cases s with
  | success r => exact rfl
  | resolving i => exact .inl rfl
  | error e i => exact rfl

theorem TS.andThen {s t : Stats} (h : TS s t) {f : Info → Prog Stats}
    (hf : ∀ i j, TI i j → (f i).Twin TS (f j)) : (s.andThen f).Twin TS (t.andThen f) := by
  cases s <;> cases t <;> first
    | exact (h : False).elim
    | exact hf _ _ h
    | exact .ret h

theorem AbsReq.getPath {i : Info} (h : AbsReq i.request) : i.getPath = i.request.target := by
  obtain ⟨r, hr⟩ := (isAbs_iff _).1 h.1
  unfold Info.getPath
  rw [if_neg (by rw [hr]; simp), pjoin_abs h.1]

theorem AbsReq.samePlace {p q : Str} {r : Request} (h : AbsReq r) : SamePlace ⟨p, r⟩ ⟨q, r⟩ :=
  ⟨by rw [AbsReq.getPath (i := ⟨p, r⟩) h, AbsReq.getPath (i := ⟨q, r⟩) h], rfl, rfl, h.pathReq, h.pathReq⟩

theorem resolveAsFile_twin (c : Ctx) {i j : Info} (h : TI i j) :
    TS (resolveAsFile c i) (resolveAsFile c j) := by
  rcases h with rfl | h
  · exact .refl _
  · unfold resolveAsFile extensionsPlugin
    simp only [h.path, h.withTarget]
    split
    · exact rfl
    · split
      · exact rfl
      · exact .inr h

theorem resolveAsDir_twin (c : Ctx) (n : Nat) {i j : Info} (h : TI i j) :
    (resolveAsDir c n i).Twin TS (resolveAsDir c n j) := by
  rcases h with rfl | h
  · exact .refl TS.refl _
  · cases n with
    | zero => exact .crash _
    | succ n =>
      unfold resolveAsDir
      simp only [h.path, h.withTarget]
      split
      · exact .ret rfl
      · refine (Prog.Twin.refl (Q := Eq) (fun _ => rfl) _).bind fun a b hab => ?_
        subst hab
        cases a with
        | error err => exact .ret rfl
        | ok pkg => exact .refl TS.refl _

theorem PathReq.imports {i : Info} (h : PathReq i.request) (c : Ctx) (n : Nat) (pkg : Option Pkg) :
    importsPlugin c (n + 1) pkg i = .ret (.resolving i) := by
  unfold importsPlugin
  cases pkg with
  | none => rfl
  | some pkg =>
    simp only [h.2]
    rfl

theorem importsPlugin_twin (c : Ctx) (n : Nat) (pkg : Option Pkg) {i j : Info} (h : TI i j) :
    (importsPlugin c n pkg i).Twin TS (importsPlugin c n pkg j) := by
  rcases h with rfl | h
  · exact .refl TS.refl _
  · cases n with
    | zero => exact .crash _
    | succ n =>
      rw [h.left.imports, h.right.imports]
      exact .ret (.inr h)

theorem aliasFieldPlugin_twin (c : Ctx) (n : Nat) (pkg : Option Pkg) {i j : Info} (h : TI i j) :
    (aliasFieldPlugin c n pkg i).Twin TS (aliasFieldPlugin c n pkg j) := by
  rcases h with rfl | h
  · exact .refl TS.refl _
  · unfold aliasFieldPlugin
    split
    · exact .ret (.inr h)
    · cases pkg with
      | none => exact .ret (.inr h)
      | some pkg =>
        have e : ∀ key, aliasMatches c pkg i key = aliasMatches c pkg j key := by
          intro key
          unfold aliasMatches aliasPathMatches
          rw [if_neg h.left.kind, if_neg h.right.kind, h.path]
        simp only [e, h.withTarget]
        split
        · exact .ret (.inr h)
        · split
          · exact .crash _
          · exact .ret (.inl rfl)
          · exact .ret rfl

theorem pkgStage_twin (c : Ctx) (n : Nat) {i j : Info} (h : TI i j) :
    (pkgStage c n i).Twin TS (pkgStage c n j) := by
  rcases h with rfl | h
  · exact .refl TS.refl _
  · unfold pkgStage
    simp only [if_neg h.left.kind, if_neg h.right.kind, h.path]
    refine (Prog.Twin.refl (Q := Eq) (fun _ => rfl) _).bind fun a b hab => ?_
    subst hab
    cases a with
    | error err => exact .ret rfl
    | ok pkg =>
      exact (importsPlugin_twin c n pkg (.inr h)).bind fun s t hs =>
        hs.andThen fun i j hi => aliasFieldPlugin_twin c n pkg hi

theorem PathReq.last {i : Info} (h : PathReq i.request) (c : Ctx) (n : Nat) :
    lastStage c n i = (resolveAsFile c i).andThen fun i => resolveAsDir c n i := by
  unfold lastStage
  rcases h.1 with h | h | h <;> rw [h]

theorem lastStage_twin (c : Ctx) (n : Nat) {i j : Info} (h : TI i j) :
    (lastStage c n i).Twin TS (lastStage c n j) := by
  rcases h with rfl | h
  · exact .refl TS.refl _
  · rw [h.left.last, h.right.last]
    exact (resolveAsFile_twin c (.inr h)).andThen fun i j hi => resolveAsDir_twin c n hi

/-- As `TS`, but for the message. -/
def TF (a b : Info) : Stats → Stats → Prop
  | .success a, .success b => a = b
  | .error e _, .error e' _ => e = e' ∨ e = failedMessage a ∧ e' = failedMessage b
  | .resolving _, .resolving _ => True
  | _, _ => False

/-- No alias applies to the request, and it is not first read as a relative one. -/
structure Unaliased (o : Opts) (i : Info) : Prop where
  alias : containsStr i.path MODULE = true ∨ ∀ kv ∈ o.alias, startsWith i.request.target kv.1 = false
  prefer : o.preferRelative = false ∨ startsWith i.request.target cs!"../" = true ∨
    startsWith i.request.target cs!"./" = true

theorem Unaliased.aliasPlugin {c : Ctx} {i : Info} (h : Unaliased c.opts i) (rec : Info → Prog Stats) :
    aliasPlugin c rec i = .ret (.resolving i) := by
  unfold Verif.aliasPlugin
  rcases h.alias with h | h
  · rw [if_pos h]
  · split
    · rfl
    · have : ∀ l : List (Str × AliasMap), (∀ kv ∈ l, startsWith i.request.target kv.1 = false) →
          aliasLoop rec i l = .ret (.resolving i) := by
        intro l
        induction l with
        | nil => intro _; rfl
        | cons kv l ih =>
          intro h
          obtain ⟨k, v⟩ := kv
          unfold aliasLoop
          simp only [h (k, v) (List.mem_cons_self ..), Bool.false_eq_true, if_false]
          exact ih fun kv hkv => h kv (List.mem_cons_of_mem _ hkv)
      exact this _ h

theorem Unaliased.preferRelativePlugin {c : Ctx} {i : Info} (h : Unaliased c.opts i)
    (rec : Info → Prog Stats) : preferRelativePlugin c rec i = .ret (.resolving i) := by
  unfold Verif.preferRelativePlugin
  split
  · rfl
  · rename_i hn
    rcases h.prefer with h | h | h
    · rw [h]; rfl
    · rw [h] at hn; exact (hn rfl).elim
    · rw [h, Bool.or_true] at hn; exact (hn rfl).elim

/-- What remains of `_resolve`. -/
def afterAlias (c : Ctx) (n : Nat) (i : Info) : Prog Stats :=
  (pkgStage c n i).bind fun s => s.andThen fun i => lastStage c n i

/-- How `_resolve` ends. -/
def lastWord (info : Info) : Stats → Prog Stats
  | .success r => .ret (.success r)
  | .error err i => .ret (.error (if err.isTag then failedMessage info else err) i)
  | .resolving _ => .panic .resolveUnreachable

theorem Unaliased.resolveInner {c : Ctx} {i : Info} (h : Unaliased c.opts i) (n : Nat) :
    resolveInner c (n + 1) i = (afterAlias c n i).bind (lastWord i) := by
  unfold Verif.resolveInner
  rw [h.aliasPlugin]
  simp only [Prog.bind, Stats.andThen, h.preferRelativePlugin]
  rfl

theorem afterAlias_twin (c : Ctx) (n : Nat) {i j : Info} (h : TI i j) :
    (afterAlias c n i).Twin TS (afterAlias c n j) :=
  (pkgStage_twin c n h).bind fun _ _ hs => hs.andThen fun _ _ hi => lastStage_twin c n hi

theorem resolveInner_twin (c : Ctx) (n : Nat) {i j : Info} (h : SamePlace i j) (hi : Unaliased c.opts i)
    (hj : Unaliased c.opts j) : (resolveInner c n i).Twin (TF i j) (resolveInner c n j) := by
  cases n with
  | zero => exact .crash _
  | succ n =>
    rw [hi.resolveInner, hj.resolveInner]
    refine (afterAlias_twin c n (.inr h)).bind fun s t hs => ?_
    cases s <;> cases t <;> first
      | exact (hs : False).elim
      | skip
    · exact .ret hs
    · exact .crash _
    · have hs : _ = _ := hs
      subst hs
      refine .ret ?_
      simp only [TF]
      split
      · exact .inr ⟨rfl, rfl⟩
      · exact .inl rfl

theorem resolveStats_twin (c : Ctx) (n : Nat) {p q request : Str} (ha : AbsReq (parseRequest request))
    (hal : ∀ kv ∈ c.opts.alias, startsWith (parseRequest request).target kv.1 = false)
    (hp : c.opts.preferRelative = false) :
    (resolveStats c n p request).Twin (TF ⟨p, parseRequest request⟩ ⟨q, parseRequest request⟩)
      (resolveStats c n q request) := by
  have hin := resolveInner_twin c n (ha.samePlace (p := p) (q := q)) ⟨.inr hal, .inl hp⟩ ⟨.inr hal, .inl hp⟩
  unfold resolveStats
  simp only
  split
  · unfold resolveWithTsconfig
    refine (Prog.Twin.refl (Q := Eq) (fun _ => rfl) _).bind fun a b hab => ?_
    subst hab
    cases a with
    | error err => exact .ret (.inl rfl)
    | ok json =>
      simp only
      split
      · exact .crash _
      · split
        · exact .crash _
        · refine .op _ fun seed => ?_
          generalize permute (seed : Nat) (α := Str × List Str) _ = l
          induction l with
          | nil => exact hin
          | cons kp l ih =>
            obtain ⟨k, paths⟩ := kp
            unfold tsEntries
            simp only
            split
            · exact .crash _
            · exact ih
            · induction paths with
              | nil => exact ih
              | cons x paths ih' =>
                unfold tsPathsTry
                refine (Prog.Twin.refl (Q := Eq) (fun _ => rfl) _).bind fun a b hab => ?_
                subst hab
                cases a with
                | success r => exact .ret rfl
                | resolving i => exact ih'
                | error e i => exact ih'
  · exact hin

/-- The directory from which an absolute request is made shows only in the message. -/
theorem resolve_twin (e : Env) (n : Nat) {p q request : Str} (ha : AbsReq (parseRequest request))
    (hal : ∀ kv ∈ e.opts.alias, startsWith (parseRequest request).target kv.1 = false)
    (hp : e.opts.preferRelative = false) :
    (resolve e n p request).Twin (fun a b => a = b ∨
      a = .error (failedMessage ⟨p, parseRequest request⟩) ∧
        b = .error (failedMessage ⟨q, parseRequest request⟩)) (resolve e n q request) := by
  unfold resolve resolveCtx
  refine (resolveStats_twin e.ctx n ha hal hp).bind fun s t hs => ?_
  cases s <;> cases t <;> first
    | exact (hs : False).elim
    | skip
  · have hs : _ = _ := hs
    subst hs
    exact .refl (fun _ => .inl rfl) _
  · exact .crash _
  · refine .ret ?_
    rcases hs with rfl | ⟨rfl, rfl⟩
    · exact .inl rfl
    · exact .inr ⟨rfl, rfl⟩

/-- Requests that name the same path. -/
theorem resolve_place (e : Env) (n : Nat) {p q request request' : Str} (hts : e.opts.tsconfig = none)
    (h : SamePlace ⟨p, parseRequest request⟩ ⟨q, parseRequest request'⟩)
    (hi : Unaliased e.opts ⟨p, parseRequest request⟩) (hj : Unaliased e.opts ⟨q, parseRequest request'⟩) :
    (resolve e n p request).Twin (fun a b => a = b ∨
      a = .error (failedMessage ⟨p, parseRequest request⟩) ∧
        b = .error (failedMessage ⟨q, parseRequest request'⟩)) (resolve e n q request') := by
  unfold resolve resolveCtx resolveStats
  have hts : e.ctx.opts.tsconfig = none := hts
  simp only [hts]
  refine (resolveInner_twin e.ctx n h hi hj).bind fun s t hs => ?_
  cases s <;> cases t <;> first
    | exact (hs : False).elim
    | skip
  · have hs : _ = _ := hs
    subst hs
    exact .refl (fun _ => .inl rfl) _
  · exact .crash _
  · refine .ret ?_
    rcases hs with rfl | ⟨rfl, rfl⟩
    · exact .inl rfl
    · exact .inr ⟨rfl, rfl⟩

end Verif
