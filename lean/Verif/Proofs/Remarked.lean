import Verif.Spec.Remarked
import Verif.Proofs.CostPath
import Verif.Proofs.LiveHistory
import Verif.Proofs.Parse
/-!
# Requests that differ in the query and the fragment

`p.Alike A R Q q`: the calls make the same looks and operations, if all answers are as in `A` and `R`, and end in the
same way, with values related by `Q`.
-/

namespace Verif.Live

/-- See the file comment. -/
inductive Alike {α β : Type} (A : (q : Query) → q.Ret → Prop) (R : (o : Op) → o.Ret → Prop) (Q : α → β → Prop) :
    Live α → Live β → Prop where
  | ret {a : α} {b : β} : Q a b → Alike A R Q (.ret a) (.ret b)
  | crash (c : Crash) : Alike A R Q (.crash c) (.crash c)
  | ask (q : Query) {k : q.Ret → Live α} {k' : q.Ret → Live β} : (∀ r, A q r → Alike A R Q (k r) (k' r)) →
      Alike A R Q (.ask q k) (.ask q k')
  | op (o : Op) {k : o.Ret → Live α} {k' : o.Ret → Live β} : (∀ r, R o r → Alike A R Q (k r) (k' r)) →
      Alike A R Q (.op o k) (.op o k')

section
variable {α β γ δ : Type} {A : (q : Query) → q.Ret → Prop} {R : (o : Op) → o.Ret → Prop}

theorem Alike.bind {Q : α → β → Prop} {Q' : γ → δ → Prop} {p : Live α} {q : Live β} {f : α → Live γ} {g : β → Live δ}
    (h : p.Alike A R Q q) (hf : ∀ a b, Q a b → (f a).Alike A R Q' (g b)) : (p.bind f).Alike A R Q' (q.bind g) := by
  induction h with
  | ret h => exact hf _ _ h
  | crash c => exact .crash c
  | ask q _ ih => exact .ask q ih
  | op o _ ih => exact .op o ih

theorem Alike.refl {Q : α → α → Prop} (hQ : ∀ a, Q a a) (p : Live α) : p.Alike A R Q p := by
  induction p with
  | ret a => exact .ret (hQ a)
  | crash c => exact .crash c
  | ask q k ih => exact .ask q fun r _ => ih r
  | op o k ih => exact .op o fun r _ => ih r

theorem Alike.mono {Q Q' : α → β → Prop} {p : Live α} {q : Live β} (h : p.Alike A R Q q)
    (hQ : ∀ a b, Q a b → Q' a b) : p.Alike A R Q' q := by
  induction h with
  | ret h => exact .ret (hQ _ _ h)
  | crash c => exact .crash c
  | ask q _ ih => exact .ask q ih
  | op o _ ih => exact .op o ih

theorem Sat.alike {G : Op → Prop} {C : Crash → Prop} {P : α → Prop} {p : Live α} (h : p.Sat A G R C P) :
    p.Alike A R (fun a b => a = b ∧ P a) p := by
  induction p with
  | ret a => exact .ret ⟨rfl, h⟩
  | crash c => exact .crash c
  | ask q k ih => exact .ask q fun r hr => ih r (h r hr)
  | op o k ih => exact .op o fun r hr => ih r (h.2 r hr)

theorem alike_isFile {Q : γ → δ → Prop} {p : Str} {f : Bool → Live γ} {g : Bool → Live δ}
    (h : ∀ b, (f b).Alike A R Q (g b)) : ((isFile p).bind f).Alike A R Q ((isFile p).bind g) := .ask _ fun b _ => h b

theorem alike_isDir {Q : γ → δ → Prop} {p : Str} {f : Bool → Live γ} {g : Bool → Live δ}
    (h : ∀ b, (f b).Alike A R Q (g b)) : ((isDir p).bind f).Alike A R Q ((isDir p).bind g) := .ask _ fun b _ => h b

end

/-- The same place, with marks `m` and `m'` (query and fragment), or with the same marks. -/
structure MI (m m' : Str × Str) (i j : Info) : Prop where
  path : j.path = i.path
  target : j.request.target = i.request.target
  kind : j.request.kind = i.request.kind
  marks : (i.request.query, i.request.fragment) = m ∧ (j.request.query, j.request.fragment) = m' ∨
    i.request.query = j.request.query ∧ i.request.fragment = j.request.fragment

/-- `MI` for the outcome of a stage. -/
def MS (m m' : Str × Str) : Stats → Stats → Prop
  | .success (.info i), .success (.info j) => MI m m' i j
  | .success .ignored, .success .ignored => True
  | .resolving i, .resolving j => MI m m' i j
  | .error e i, .error e' j => e = e' ∧ MI m m' i j
  | _, _ => False

/-- `MI` for the outcome of `_resolve` on `a` and `b`. -/
def ME (m m' : Str × Str) (a b : Info) : Stats → Stats → Prop
  | .success (.info i), .success (.info j) => MI m m' i j
  | .success .ignored, .success .ignored => True
  | .error e _, .error e' _ => e = e' ∨ e = failedMessage a ∧ e' = failedMessage b
  | _, _ => False

variable {m m' : Str × Str}

theorem MI.refl (i : Info) : MI m m' i i := ⟨rfl, rfl, rfl, .inr ⟨rfl, rfl⟩⟩

theorem MS.refl (s : Stats) : MS m m' s s := by
  rcases s with (i | _) | i | ⟨e, i⟩
  · exact MI.refl i
  · trivial
  · exact MI.refl i
  · exact ⟨rfl, MI.refl i⟩

theorem MI.getPath {i j : Info} (h : MI m m' i j) : j.getPath = i.getPath := by
  simp only [Info.getPath, h.path, h.target]

theorem MI.withPath {i j : Info} (h : MI m m' i j) (p : Str) : MI m m' (i.withPath p) (j.withPath p) :=
  ⟨rfl, h.target, h.kind, h.marks⟩

theorem MI.withTarget {i j : Info} (h : MI m m' i j) (t : Str) : MI m m' (i.withTarget t) (j.withTarget t) :=
  ⟨h.path, rfl, rfl, h.marks⟩

section
variable {A : (q : Query) → q.Ret → Prop} {R : (o : Op) → o.Ret → Prop} {h : Host}

theorem MS.andThen {s t : Stats} (hs : MS m m' s t) {f g : Info → Live Stats}
    (hfg : ∀ i j, MI m m' i j → (f i).Alike A R (MS m m') (g j)) :
    (andThen s f).Alike A R (MS m m') (andThen t g) := by
  rcases s with (i | _) | i | ⟨e, i⟩ <;> rcases t with (j | _) | j | ⟨e', j⟩ <;>
    first
    | exact hs.elim
    | exact hfg i j hs
    | exact .ret hs

theorem extensionsLoop_alike {i j : Info} (hi : MI m m' i j) (path : Str) (l : List Str) :
    (extensionsLoop path i l).Alike A R (MS m m') (extensionsLoop path j l) := by
  induction l with
  | nil => exact .ret hi
  | cons ext l ih =>
    refine alike_isFile fun b => ?_
    cases b with
    | true => exact .ret ((hi.withPath _).withTarget [])
    | false => exact ih

theorem resolveAsFile_alike {i j : Info} (hi : MI m m' i j) :
    (resolveAsFile h i).Alike A R (MS m m') (resolveAsFile h j) := by
  unfold resolveAsFile
  dsimp only
  rw [hi.getPath]
  split
  · exact extensionsLoop_alike hi _ _
  · refine alike_isFile fun b => ?_
    cases b with
    | true => exact .ret ((hi.withPath _).withTarget [])
    | false => exact extensionsLoop_alike hi _ _

/-- The package has no exports. -/
def Bare (pkg : Option Pkg) : Prop := ∀ p, pkg = some p → p.exportsTree = none

theorem exportsPlugin_bare {pkg : Option Pkg} (hp : Bare pkg) (i : Info) : exportsPlugin h pkg i = .ret (.resolving i) := by
  unfold exportsPlugin
  cases pkg with
  | none => rfl
  | some p =>
    dsimp only
    rw [hp p rfl]
    split
    · rfl
    · split <;> rfl

theorem exportsPlugin_path {pkg : Option Pkg} {i : Info} (hi : i.request.kind ≠ .normal) :
    exportsPlugin h pkg i = .ret (.resolving i) := by
  unfold exportsPlugin
  cases pkg with
  | none => rfl
  | some p =>
    dsimp only
    rw [if_pos hi]

theorem aliasMatches_alike {c : Ctx} {pkg : Pkg} {i j : Info} (hi : MI m m' i j) (k : Str) :
    aliasMatches c pkg j k = aliasMatches c pkg i k := by
  unfold aliasMatches aliasPathMatches
  rw [hi.kind, hi.target, hi.getPath]

theorem aliasFieldPlugin_alike (n : Nat) (pkg : Option Pkg) {i j : Info} (hi : MI m m' i j) :
    (aliasFieldPlugin h n pkg i).Alike A R (MS m m') (aliasFieldPlugin h n pkg j) := by
  unfold aliasFieldPlugin Verif.aliasFieldPlugin
  split
  · exact .ret hi
  · cases pkg with
    | none => exact .ret hi
    | some pkg =>
      dsimp only
      simp only [aliasMatches_alike hi]
      split
      · exact .ret hi
      · split
        · exact .crash _
        · exact .ret ((hi.withPath _).withTarget _)
        · exact .ret (by trivial)

theorem importsPlugin_alike (n : Nat) (pkg : Option Pkg) {i j : Info} (hi : MI m m' i j) :
    (importsPlugin h n pkg i).Alike A R (MS m m') (importsPlugin h n pkg j) := by
  cases n with
  | zero => exact .crash _
  | succ n =>
    unfold importsPlugin
    cases pkg with
    | none => exact .ret hi
    | some pkg =>
      dsimp only
      rw [hi.target]
      split
      · exact .ret hi
      · split
        · exact .ret hi
        · split
          · exact .crash _
          · exact .ret ⟨rfl, hi⟩
          · exact .ret ⟨rfl, hi⟩
          · exact Alike.refl MS.refl _

/-- The answers of the loader. Under `E` no package has exports. -/
def LoadOk (E : Prop) (a b : Except Err (Option Pkg)) : Prop := a = b ∧ (E → ∀ pkg, a = .ok pkg → Bare pkg)

variable {E : Prop} (hE : E) (hload : ∀ p, (loadPkg h p).Alike A R (LoadOk E) (loadPkg h p))

theorem mainFileLoop_alike (n : Nat) (pkg : Option Pkg) (l : List Str) {i j i' j' : Info}
    (hi : MI m m' i j) (hi' : MI m m' i' j') :
    (mainFileLoop h n pkg i l i').Alike A R (MS m m') (mainFileLoop h n pkg j l j') := by
  induction l generalizing i' j' with
  | nil => exact .ret hi
  | cons f l ih =>
    unfold mainFileLoop
    dsimp only
    rw [exportsPlugin_path (by simp [Info.withTarget, Request.withTarget, getTargetKind, startsWith]), exportsPlugin_path (by simp [Info.withTarget, Request.withTarget, getTargetKind, startsWith])]
    refine Alike.bind (Alike.bind (.ret (show MS m m' (.resolving _) (.resolving _) from hi'.withTarget _)) fun s t hs =>
      Alike.bind (hs.andThen fun i j hi => importsPlugin_alike n pkg hi) fun s t hs =>
      Alike.bind (hs.andThen fun i j hi => aliasFieldPlugin_alike n pkg hi) fun s t hs =>
      hs.andThen fun i j hi => resolveAsFile_alike hi) fun s t hs => ?_
    rcases s with (a | _) | a | ⟨e, a⟩ <;> rcases t with (b | _) | b | ⟨e', b⟩ <;>
      first
      | exact hs.elim
      | exact .ret hs
      | exact ih hs
      | exact ih hs.2

theorem mainFieldLoop_alike (n : Nat) {f g : Info → Live Stats}
    (hfg : ∀ i j, MI m m' i j → (f i).Alike A R (MS m m') (g j)) (pkg : Pkg) (l : List Str) {i j i' j' : Info}
    (hi : MI m m' i j) (hi' : MI m m' i' j') :
    (mainFieldLoop h n f pkg i l i').Alike A R (MS m m') (mainFieldLoop h n g pkg j l j') := by
  induction l generalizing i' j' with
  | nil => exact .ret hi
  | cons k l ih =>
    unfold mainFieldLoop
    split
    · exact ih hi'
    · rename_i mainField _
      split
      · exact .ret hi
      · dsimp only
        have hcur : MI m m'
            (if startsWith mainField cs!"./" then i'.withTarget mainField else i'.withTarget (cs!"./" ++ mainField))
            (if startsWith mainField cs!"./" then j'.withTarget mainField else j'.withTarget (cs!"./" ++ mainField)) := by
          split <;> exact hi'.withTarget _
        refine Alike.bind (Alike.bind (aliasFieldPlugin_alike n _ hcur) fun s t hs =>
          Alike.bind (hs.andThen fun i j hi => resolveAsFile_alike hi) fun s t hs => hs.andThen hfg) fun s t hs => ?_
        rcases s with (a | _) | a | ⟨e, a⟩ <;> rcases t with (b | _) | b | ⟨e', b⟩ <;>
          first
          | exact hs.elim
          | exact .ret hs
          | exact ih hs
          | exact ih hs.2

include hload

theorem resolveAsDir_alike (n : Nat) {i j : Info} (hi : MI m m' i j) :
    (resolveAsDir h n i).Alike A R (MS m m') (resolveAsDir h n j) := by
  induction n generalizing i j with
  | zero => exact .crash _
  | succ n ih =>
    unfold resolveAsDir
    dsimp only
    rw [hi.getPath]
    refine alike_isDir fun b => ?_
    cases b with
    | false => exact .ret ⟨rfl, hi⟩
    | true =>
      refine Alike.bind (hload _) fun a b hab => ?_
      obtain ⟨rfl, -⟩ := hab
      cases a with
      | error e => exact .ret ⟨rfl, hi⟩
      | ok pkg =>
        have hi' := (hi.withPath i.getPath).withTarget []
        refine Alike.bind (Q := MS m m') ?_ fun s t hs => hs.andThen fun i j hi => mainFileLoop_alike n _ _ hi hi
        unfold mainFieldPlugin
        cases pkg with
        | none => exact .ret hi'
        | some pkg =>
          dsimp only
          have : ((j.withPath i.getPath).withTarget []).path = ((i.withPath i.getPath).withTarget []).path := rfl
          rw [this]
          split
          · exact .ret hi'
          · exact mainFieldLoop_alike n (fun i j hi => ih hi) pkg _ hi' hi'

theorem chain_alike (n : Nat) {pkg : Option Pkg} (hp : Bare pkg) {i j : Info} (hi : MI m m' i j) :
    (modulePackageChain h n pkg i).Alike A R (MS m m') (modulePackageChain h n pkg j) := by
  unfold modulePackageChain
  rw [exportsPlugin_bare hp, exportsPlugin_bare hp]
  refine Alike.bind (.ret (show MS m m' (.resolving _) (.resolving _) from hi)) fun s t hs =>
    Alike.bind (hs.andThen fun i j hi => importsPlugin_alike n pkg hi) fun s t hs =>
    Alike.bind (hs.andThen fun i j hi => ?_) fun s t hs =>
    Alike.bind (hs.andThen fun i j hi => resolveAsFile_alike hi) fun s t hs =>
    hs.andThen fun i j hi => resolveAsDir_alike hload n hi
  dsimp only
  rw [hi.kind, hi.target]
  split
  · exact aliasFieldPlugin_alike n pkg (hi.withTarget _)
  · exact aliasFieldPlugin_alike n pkg hi

include hE

theorem moduleStep_alike (n : Nat) {i j : Info} (hi : MI m m' i j) :
    (moduleStep h n i).Alike A R (fun a b => MS m m' a.1 b.1 ∧ a.2 = b.2) (moduleStep h n j) := by
  unfold moduleStep
  dsimp only
  rw [hi.path, hi.target]
  refine alike_isDir fun b => ?_
  cases b with
  | false => exact .ret ⟨hi, rfl⟩
  | true =>
    simp only [Bool.not_true, Bool.false_eq_true, if_false]
    cases moduleName i.request.target with
    | none => exact .crash _
    | some name =>
      refine Alike.bind (hload _) fun a b hab => ?_
      obtain ⟨rfl, hb⟩ := hab
      cases a with
      | error e => exact .ret ⟨⟨rfl, hi⟩, rfl⟩
      | ok pkg =>
        dsimp only
        refine alike_isDir fun b => ?_
        have hm : MI m m' ⟨pjoin i.path MODULE, i.request⟩ ⟨pjoin i.path MODULE, j.request⟩ :=
          ⟨rfl, hi.target, hi.kind, hi.marks⟩
        have hself : selfOf pkg ⟨pjoin i.path MODULE, j.request⟩ = selfOf pkg ⟨pjoin i.path MODULE, i.request⟩ := by
          unfold selfOf isResolveSelf
          dsimp only
          rw [hi.target]
        rw [hself]
        split
        · refine Alike.bind (resolveAsFile_alike hm) fun s t hs => ?_
          rcases s with (a | _) | a | ⟨e, a⟩ <;> rcases t with (b | _) | b | ⟨e', b⟩ <;>
            first
            | exact hs.elim
            | exact .ret ⟨hs, rfl⟩
            | exact .ret ⟨hi, rfl⟩
        · refine Alike.bind (chain_alike hload n (hb hE _ rfl) hm) fun s t hs => ?_
          rcases s with (a | _) | a | ⟨e, a⟩ <;> rcases t with (b | _) | b | ⟨e', b⟩ <;>
            first
            | exact hs.elim
            | exact .ret ⟨hs, rfl⟩
            | skip
          obtain ⟨rfl, hs⟩ := hs
          dsimp only
          split
          · exact .ret ⟨hi, rfl⟩
          · exact .ret ⟨⟨rfl, hs⟩, rfl⟩

theorem modules_alike (n : Nat) {i j : Info} (hi : MI m m' i j) :
    (resolveAsModules h n i).Alike A R (MS m m') (resolveAsModules h n j) := by
  induction n generalizing i j with
  | zero => exact .crash _
  | succ n ih =>
    unfold resolveAsModules
    refine Alike.bind (moduleStep_alike hE hload n hi) fun a b hab => ?_
    obtain ⟨s, x⟩ := a
    obtain ⟨t, y⟩ := b
    obtain ⟨hs, hxy⟩ := hab
    dsimp only at hs hxy
    subst hxy
    cases x with
    | true => exact .ret hs
    | false =>
      dsimp only
      rw [hi.path]
      refine Alike.bind (hs.andThen fun a b hab => ?_) fun s t hs => ?_
      · split
        · exact ih (hab.withPath _)
        · exact .ret hab
      · rcases s with (a | _) | a | ⟨e, a⟩ <;> rcases t with (b | _) | b | ⟨e', b⟩ <;>
          first
          | exact hs.elim
          | exact .ret hs
          | exact .ret ⟨rfl, hs⟩

omit hE hload in
theorem aliasLoop_alike {f g : Info → Live Stats}
    (hfg : ∀ i j, MI m m' i j → (f i).Alike A R (ME m m' i j) (g j)) {i j : Info} (hi : MI m m' i j)
    (l : List (Str × AliasMap)) : (aliasLoop f i l).Alike A R (MS m m') (aliasLoop g j l) := by
  induction l with
  | nil => exact .ret hi
  | cons kv l ih =>
    obtain ⟨k, to⟩ := kv
    unfold aliasLoop
    dsimp only
    rw [hi.target, hi.path]
    split
    · cases to with
      | ignored => exact .ret (by trivial)
      | target to =>
        dsimp only
        split
        · exact ih
        · refine Alike.bind (hfg _ _ ⟨rfl, rfl, rfl, hi.marks⟩) fun s t hs => ?_
          rcases s with (a | _) | a | ⟨e, a⟩ <;> rcases t with (b | _) | b | ⟨e', b⟩ <;>
            first
            | exact hs.elim
            | exact .ret hs
            | exact ih
    · exact ih

theorem inner_alike (n : Nat) {i j : Info} (hi : MI m m' i j) :
    (resolveInner h n i).Alike A R (ME m m' i j) (resolveInner h n j) := by
  induction n generalizing i j with
  | zero => exact .crash _
  | succ n ih =>
    unfold resolveInner
    refine Alike.bind (Q := MS m m') (Alike.bind (Q := MS m m') ?_ fun s t hs =>
      Alike.bind (Q := MS m m') (hs.andThen fun i j hi => ?_) fun s t hs =>
      Alike.bind (Q := MS m m') (hs.andThen fun i j hi => ?_) fun s t hs =>
      hs.andThen fun i j hi => ?_) fun s t hs => ?_
    · unfold aliasPlugin
      rw [hi.path]
      split
      · exact .ret hi
      · exact aliasLoop_alike (fun i j hi => ih hi) hi _
    · unfold preferRelativePlugin
      rw [hi.target, hi.path]
      split
      · exact .ret hi
      · split
        · refine Alike.bind (ih ⟨rfl, rfl, rfl, hi.marks⟩) fun s t hs => ?_
          rcases s with (a | _) | a | ⟨e, a⟩ <;> rcases t with (b | _) | b | ⟨e', b⟩ <;>
            first
            | exact hs.elim
            | exact .ret hs
            | exact .ret hi
        · exact .ret hi
    · unfold pkgStage
      dsimp only
      rw [hi.kind, hi.target, hi.path, hi.getPath]
      refine Alike.bind (hload _) fun a b hab => ?_
      obtain ⟨rfl, -⟩ := hab
      cases a with
      | error e => exact .ret ⟨rfl, hi⟩
      | ok pkg =>
        exact Alike.bind (importsPlugin_alike n pkg hi) fun s t hs =>
          hs.andThen fun i j hi => aliasFieldPlugin_alike n pkg hi
    · unfold lastStage
      rw [hi.kind]
      split
      all_goals first
        | exact Alike.bind (resolveAsFile_alike hi) fun s t hs => hs.andThen fun i j hi => resolveAsDir_alike hload n hi
        | exact modules_alike hE hload n hi
    · rcases s with (a | _) | a | ⟨e, a⟩ <;> rcases t with (b | _) | b | ⟨e', b⟩ <;>
        first
        | exact hs.elim
        | exact .ret hs
        | exact .crash _
        | skip
      obtain ⟨rfl, hs⟩ := hs
      refine .ret ?_
      show _ = _ ∨ _
      split
      · exact .inr ⟨rfl, rfl⟩
      · exact .inl rfl

/-- The kinds of requests by path. -/
def PathLike (k : PathKind) : Prop := k = .relative ∨ k = .absolutePosix ∨ k = .absoluteWin

omit hE in
/-- Requests by path do not depend on exports. -/
theorem path_alike (n : Nat) {i j : Info} (hi : MI m m' i j)
    (hal : cs!"node_modules" <:+: i.path ∨ ∀ kv ∈ h.opts.alias, ¬ kv.1 <+: i.request.target)
    (hpr : h.opts.preferRelative = false ∨ cs!"./" <+: i.request.target ∨ cs!"../" <+: i.request.target)
    (hb : h.opts.browserField = false) (hk : PathLike i.request.kind) (hh : startsWith i.request.target cs!"#" = false) :
    (resolveInner h n i).Alike A R (ME m m' i j) (resolveInner h n j) := by
  cases n with
  | zero => exact .crash _
  | succ n =>
    have alias_none : ∀ k : Info, k.path = i.path → k.request.target = i.request.target →
        aliasPlugin h (resolveInner h n) k = .ret (.resolving k) := by
      intro k h1 h2
      unfold aliasPlugin
      split
      · rfl
      · rename_i hc
        rcases hal with h3 | h3
        · exact absurd ((containsStr_iff _ _).2 (h1 ▸ h3)) hc
        · exact aliasLoop_none _ _ (by rw [h2]; exact h3)
    have prefer_none : ∀ k : Info, k.request.target = i.request.target →
        preferRelativePlugin h (resolveInner h n) k = .ret (.resolving k) := by
      intro k h2
      unfold preferRelativePlugin
      split
      · rfl
      · rename_i hc
        rw [Bool.or_eq_true, startsWith_iff, startsWith_iff, h2] at hc
        rcases hpr with h1 | h1 | h1
        · rw [if_neg (by rw [h1]; decide)]
        · exact absurd (.inr h1) hc
        · exact absurd (.inl h1) hc
    unfold resolveInner
    rw [alias_none i rfl rfl, alias_none j hi.path hi.target]
    simp only [Live.bind, andThen]
    rw [prefer_none i rfl, prefer_none j hi.target]
    simp only [Live.bind, andThen]
    refine Alike.bind (Q := MS m m') (Alike.bind (Q := fun s t => MS m m' s t ∧
      ∀ k, s = .resolving k → PathLike k.request.kind) ?_ fun s t hs => ?_) fun s t hs => ?_
    · unfold pkgStage
      dsimp only
      rw [hi.kind, hi.target, hi.path, hi.getPath]
      refine Alike.bind (hload _) fun a b hab => ?_
      obtain ⟨rfl, -⟩ := hab
      cases a with
      | error e => exact .ret ⟨⟨rfl, hi⟩, nofun⟩
      | ok pkg =>
        dsimp only
        refine Alike.bind (Q := fun s t => MS m m' s t ∧ ∀ k, s = .resolving k → PathLike k.request.kind) ?_
          fun s t hs => ?_
        · cases n with
          | zero => exact .crash _
          | succ n =>
            unfold importsPlugin
            cases pkg with
            | none => exact .ret ⟨hi, fun k hk' => by cases hk'; exact hk⟩
            | some pkg =>
              dsimp only
              rw [hi.target, hh]
              exact .ret ⟨hi, fun k hk' => by cases hk'; exact hk⟩
        · obtain ⟨hs, hk'⟩ := hs
          rcases s with (a | _) | a | ⟨e, a⟩ <;> rcases t with (b | _) | b | ⟨e', b⟩ <;>
            first
            | exact hs.elim
            | exact .ret ⟨hs, nofun⟩
            | skip
          simp only [andThen]
          unfold aliasFieldPlugin Verif.aliasFieldPlugin
          rw [hb]
          exact .ret ⟨hs, hk'⟩
    · obtain ⟨hs, hk'⟩ := hs
      rcases s with (a | _) | a | ⟨e, a⟩ <;> rcases t with (b | _) | b | ⟨e', b⟩ <;>
        first
        | exact hs.elim
        | exact .ret hs
        | skip
      have hs : MI m m' a b := hs
      simp only [andThen]
      unfold lastStage
      rw [hs.kind]
      split
      all_goals first
        | exact Alike.bind (resolveAsFile_alike hs) fun s t hs => hs.andThen fun i j hi => resolveAsDir_alike hload n hi
        | exact absurd (hk' a rfl) (by unfold PathLike; grind)
    · rcases s with (a | _) | a | ⟨e, a⟩ <;> rcases t with (b | _) | b | ⟨e', b⟩ <;>
        first
        | exact hs.elim
        | exact .ret hs
        | exact .crash _
        | skip
      obtain ⟨rfl, hs⟩ := hs
      refine .ret ?_
      show _ = _ ∨ _
      split
      · exact .inr ⟨rfl, rfl⟩
      · exact .inl rfl

theorem tsPathsTry_alike (n : Nat) {i j : Info} (star : Str) {p q : Live Stats} (hpq : p.Alike A R (ME m m' i j) q)
    (l : List Str) : (tsPathsTry (resolveInner h n) star p l).Alike A R (ME m m' i j)
      (tsPathsTry (resolveInner h n) star q l) := by
  induction l with
  | nil => exact hpq
  | cons k l ih =>
    unfold tsPathsTry
    refine Alike.bind (inner_alike hE hload n (m := m) (m' := m') (MI.refl _)) fun s t hs => ?_
    rcases s with (a | _) | a | ⟨e, a⟩ <;> rcases t with (b | _) | b | ⟨e', b⟩ <;>
      first
      | exact hs.elim
      | exact .ret hs
      | exact ih

theorem tsEntries_alike (n : Nat) {i j : Info} (hi : MI m m' i j) (l : List (Str × List Str)) :
    (tsEntries (resolveInner h n) i l).Alike A R (ME m m' i j) (tsEntries (resolveInner h n) j l) := by
  induction l with
  | nil => exact inner_alike hE hload n hi
  | cons kv l ih =>
    obtain ⟨k, paths⟩ := kv
    unfold tsEntries
    dsimp only
    rw [hi.target]
    split
    · exact .crash _
    · exact ih
    · exact tsPathsTry_alike hE hload n _ ih _

omit hE in
/-- The calls go the same way. -/
theorem resolve_alike (n : Nat) {path request request' target q f q' f' : Str} (h1 : IsSplit request target q f)
    (h2 : IsSplit request' target q' f')
    (hcall : E ∨ (Plain h.opts path target ∧ h.opts.browserField = false ∧ IsPath target)) :
    (Live.prog h n (.resolve path request)).Alike A R
      (AnswerRemarked (.resolve path request) (.resolve path request')) (Live.prog h n (.resolve path request')) := by
  have p1 := parse_of_isSplit h1
  have p2 := parse_of_isSplit h2
  have hi : MI (q, f) (q', f') ⟨path, parseRequest request⟩ ⟨path, parseRequest request'⟩ := by
    refine ⟨rfl, ?_, ?_, .inl ⟨?_, ?_⟩⟩ <;> simp only [parseRequest, p1, p2]
  have hfail : ∀ {r : Str}, failedMessage ⟨path, parseRequest r⟩ = .failed r path := by
    intro r
    have hdisp : (parseRequest r).display = r := (parse_isSplit r).concat.symm
    simp only [failedMessage, hdisp]
  unfold Live.prog resolve
  refine Alike.bind (Q := fun a b => AnswerRemarked (.resolve path request) (.resolve path request') (.resolve a) (.resolve b))
    (Alike.bind (Q := ME (q, f) (q', f') ⟨path, parseRequest request⟩ ⟨path, parseRequest request'⟩) ?_ fun s t hs => ?_)
    fun a b hab => .ret hab
  · unfold resolveStats
    dsimp only
    split
    · rename_i hts
      have hE : E := by
        rcases hcall with hE | ⟨hp, -, -⟩
        · exact hE
        · rw [hp.tsconfig] at hts
          cases hts
      unfold resolveWithTsconfig
      refine Alike.bind (Alike.refl (Q := Eq) (fun _ => rfl) _) fun a b hab => ?_
      subst hab
      cases a with
      | error e => exact .ret (.inl rfl)
      | ok json =>
        dsimp only
        split
        · exact .crash _
        · split
          · exact .crash _
          · exact .op _ fun seed _ => tsEntries_alike hE hload n hi _
    · rcases hcall with hE | ⟨hp, hb, hk⟩
      · exact inner_alike hE hload n hi
      · have ht : (parseRequest request).target = target := by simp only [parseRequest, p1]
        have hkind : (parseRequest request).kind = getTargetKind target := by simp only [parseRequest, p1]
        refine path_alike hload n hi ?_ ?_ hb ?_ ?_
        · dsimp only
          rw [ht]
          exact hp.alias
        · dsimp only
          rw [ht]
          exact hp.prefer
        · dsimp only
          rw [hkind]
          rcases hk with h1 | h1 | h1 <;> rw [h1] <;> simp [PathLike]
        · dsimp only
          rw [ht]
          exact isPath_noHash hk
  · rcases s with (a | _) | a | ⟨e, a⟩ <;> rcases t with (b | _) | b | ⟨e', b⟩ <;>
      first
      | exact hs.elim
      | exact .ret .same
      | skip
    · have hs : MI (q, f) (q', f') a b := hs
      dsimp only
      unfold normalizeResult
      dsimp only
      rw [hs.target, hs.path]
      split
      · exact .crash _
      · refine Alike.bind (Alike.refl (Q := Eq) (fun _ => rfl) _) fun x y hxy => ?_
        subst hxy
        cases x with
        | error e => exact .ret .same
        | ok p =>
          refine .ret ?_
          rcases hs.marks with ⟨h3, h4⟩ | ⟨h3, h4⟩
          · cases h3
            cases h4
            exact .info h1 h2 rfl hs.target hs.kind rfl rfl rfl rfl
          · have : b.withPath p = a.withPath p := by
              obtain ⟨pb, tb, qb, fb, kb⟩ := b
              obtain ⟨pa, ta, qa, fa, ka⟩ := a
              have h5 := hs.target
              have h6 := hs.kind
              dsimp only at h3 h4 h5 h6
              subst h3 h4 h5 h6
              rfl
            rw [this]
            exact .same
    · dsimp only
      rcases hs with rfl | ⟨rfl, rfl⟩
      · exact .ret .same
      · rw [hfail, hfail]
        exact .ret .failed

end

/-! ## Histories -/

/-- Under `E` no package has exports. -/
abbrev BareG (E : Prop) : Op → Prop := StoreG fun _ p => E → p.exportsTree = none

/-- Under `E` no package has exports. -/
abbrev BareR (E : Prop) : (o : Op) → o.Ret → Prop := StoreR fun _ p => E → p.exportsTree = none

section
variable {h : Host} {F : Fs → Prop} {E : Prop} (hF : E → ∀ fs, F fs → NoExports fs)

include hF

theorem load_bare (path : Str) :
    (loadPkg h path).Sat (Among F) (BareG E) (BareR E) (fun _ => True) fun r => ∀ p, r = .ok (some p) → (E → p.exportsTree = none) := by
  refine (loadAux_sat (fun o ho => ?_) (fun _ _ => trivial) (fun _ => trivial) trivial (fun _ => True)
    (fun _ _ _ _ => trivial) (fun _ _ _ => cacheNone_sat (fun _ _ => trivial) trivial _ _)
    (fun _ p => (E → p.exportsTree = none)) ?_ (fun d p _ h => h p rfl) _ path trivial).mono fun r hr p hp => ?_
  · cases o <;> first | trivial | exact ho.elim
  · rintro desc d p _ _ ⟨doc, ⟨fs, hfs, h1⟩, hp⟩
    have h2 := hp.exports
    obtain ⟨doc', h3, h4⟩ := hp.read
    cases h3
    have h5 : E → p.exportsTree = none := fun hE => by
      rw [hF hE fs hfs _ _ _ h1 h4] at h2
      exact h2
    exact ⟨h5, h5⟩
  · obtain ⟨d, -, -, h2⟩ := hr.1 p hp
    exact h2

theorem bare_inv : Inv h (Among F) (BareG E) (BareR E) (fun _ => True) (fun _ => True) (fun _ => True)
      (fun _ => True) (fun _ => True) (fun _ => True) True where
  load p _ := (load_bare hF p).mono fun _ h => ⟨fun _ _ => trivial, fun _ _ => trivial⟩
  errTag := trivial
  errPkg := fun _ _ => .of_all (fun _ => trivial) (fun _ _ _ _ _ => trivial) fun _ _ _ _ _ => trivial
  ask := fun _ _ => trivial
  askModule := fun _ _ => trivial
  pathGet := fun _ _ => trivial
  pathPkg := fun _ _ _ _ => trivial
  pathModule := fun _ _ => trivial
  pathParent := fun _ _ _ _ _ _ => trivial
  target := fun _ _ _ => trivial
  file := fun _ _ => resolveAsFile_sat trivial fun _ _ _ _ => trivial
  exports := fun _ _ _ _ => trivial
  imports := fun _ _ _ _ => ⟨trivial, trivial⟩
  ignAlias _ _ := trivial
  ignField _ _ _ _ _ := trivial
  panics := fun _ _ => trivial
  fuel := trivial

theorem prog_bare (fuel : Nat) (call : Call) :
    (Live.prog h fuel call).Sat (Among F) (BareG E) (BareR E) (fun _ => True) fun _ => True := by
  cases call with
  | resolve path request =>
    unfold Live.prog
    refine Sat.bind (P := fun _ => True) ?_ fun _ _ => trivial
    unfold resolve
    refine Sat.bind (stats_sat (bare_inv hF) fuel path request trivial fun _ _ =>
      ⟨trivial, .of_all ⟨fun _ => trivial, fun _ _ => trivial, fun _ _ => trivial⟩,
      ⟨fun _ => True, trivial, fun _ _ _ _ _ => trivial, fun _ _ => trivial⟩,
      fun _ _ _ _ _ => trivial⟩) fun s hs => ?_
    cases s with
    | error err j => trivial
    | resolving j => trivial
    | success r => exact (normalizeResult_was r fun _ _ _ => trivial).mono fun _ _ => trivial
  | sideEffects path =>
    unfold Live.prog
    refine Sat.bind (P := fun _ => True) ?_ fun _ _ => trivial
    unfold loadSideEffects
    refine Sat.bind (load_bare hF path) fun s _ => ?_
    rcases s with e | (_ | pkg)
    · trivial
    · trivial
    · dsimp only
      split <;> trivial

theorem load_alike (p : Str) : (loadPkg h p).Alike (Among F) (BareR E) (LoadOk E) (loadPkg h p) :=
  (load_bare hF p).alike.mono fun a b hab => ⟨hab.1, fun hE pkg hp q hq => hab.2 q (by rw [hp, hq]) hE⟩

theorem prog_alike (fuel : Nat) {c c' : Call} (hc : CallRemarked c c') (hcall : E ∨ PathCall h.opts c) :
    (Live.prog h fuel c).Alike (Among F) (BareR E) (AnswerRemarked c c') (Live.prog h fuel c') := by
  cases hc with
  | same => exact Alike.refl (fun _ => .same) _
  | marks h1 h2 =>
    refine resolve_alike (load_alike hF) fuel h1 h2 (hcall.imp_right fun ⟨h3, h4, h5⟩ => ?_)
    have ht : ∀ {r t q f : Str}, IsSplit r t q f → (parseRequest r).target = t := fun h => by
      simp only [parseRequest, parse_of_isSplit h]
    rw [ht h1] at h3 h5
    exact ⟨h3, h4, h5⟩

end

/-- The calls in progress go the same way. -/
structure TaskAlike (F : Fs → Prop) (E : Prop) (t t' : Task) : Prop where
  rid : t'.rid = t.rid
  fuel : t'.fuel = t.fuel
  fs : t'.fs = t.fs
  call : CallRemarked t.call t'.call
  prog : t.prog.Alike (Among F) (BareR E) (AnswerRemarked t.call t'.call) t'.prog
  sat : t.prog.Sat (Among F) (BareG E) (BareR E) (fun _ => True) fun _ => True

/-- The states are the same but for the queries and fragments of calls. -/
structure SysAlike (F : Fs → Prop) (E : Prop) (s s' : Sys) : Prop where
  shared : s'.shared = s.shared
  fs : s'.fs = s.fs
  inF : F s.fs
  stored : Stored (fun _ p => (E → p.exportsTree = none)) s.shared
  length : s'.tasks.length = s.tasks.length
  tasks : ∀ (i : Nat) (t t' : Task), s.tasks[i]? = some t → s'.tasks[i]? = some t' → TaskAlike F E t t'

section
variable {cfg : Nat → Config} {ser : Json → Str} {F : Fs → Prop} {E : Prop} (hF : E → ∀ fs, F fs → NoExports fs)
include hF

theorem next_alike {s s' : Sys} (hs : SysAlike F E s s') {e e' : Event} (he : EventRemarked e e')
    (hch : ∀ fs, e = .change fs → F fs)
    (hcall : ∀ rid call fuel, e = .start rid call fuel → E ∨ PathCall (cfg rid).opts call) : SysAlike F E (s.next cfg ser e) (s'.next cfg ser e') := by
  cases he with
  | change fs => exact ⟨hs.shared, rfl, hch fs rfl, hs.stored, hs.length, hs.tasks⟩
  | @start c c' rid fuel hc =>
    refine ⟨hs.shared, hs.fs, hs.inF, hs.stored, ?_, fun i t t' ht ht' => ?_⟩
    · simp only [Sys.next, List.length_append, hs.length, List.length_singleton]
    · have ht : (s.tasks ++ [_])[i]? = some t := ht
      have ht' : (s'.tasks ++ [_])[i]? = some t' := ht'
      by_cases hlt : i < s.tasks.length
      · rw [List.getElem?_append_left hlt] at ht
        rw [List.getElem?_append_left (by rw [hs.length]; exact hlt)] at ht'
        exact hs.tasks i t t' ht ht'
      · rw [List.getElem?_append_right (by omega)] at ht
        rw [List.getElem?_append_right (by rw [hs.length]; omega)] at ht'
        rw [hs.length] at ht'
        have h0 : i - s.tasks.length = 0 := by
          have := (List.getElem?_eq_some_iff.1 ht).1
          rw [List.length_singleton] at this
          omega
        rw [h0] at ht ht'
        cases ht
        cases ht'
        exact ⟨rfl, rfl, hs.fs, hc, prog_alike hF fuel hc (hcall _ _ _ rfl), prog_bare hF fuel c⟩
  | step i seed =>
    obtain ⟨shared, fs, tasks⟩ := s
    obtain ⟨shared', fs', tasks'⟩ := s'
    obtain rfl : shared' = shared := hs.shared
    obtain rfl : fs' = fs := hs.fs
    have hlen : tasks'.length = tasks.length := hs.length
    have key : ∀ (sh : Shared) (t t' : Task) (p p' : Live Answer), tasks[i]? = some t → tasks'[i]? = some t' →
        Stored (fun _ p => (E → p.exportsTree = none)) sh →
        p.Alike (Among F) (BareR E) (AnswerRemarked t.call t'.call) p' →
        p.Sat (Among F) (BareG E) (BareR E) (fun _ => True) (fun _ => True) →
        SysAlike F E ⟨sh, fs', tasks.set i { t with prog := p }⟩ ⟨sh, fs', tasks'.set i { t' with prog := p' }⟩ := by
      intro sh t t' p p' ht ht' hsh hp hsat
      refine ⟨rfl, rfl, hs.inF, hsh, by simp only [List.length_set, hlen], fun k u u' hu hu' => ?_⟩
      dsimp only at hu hu'
      rw [List.getElem?_set] at hu hu'
      split at hu
      · rename_i hik
        rw [if_pos hik] at hu'
        split at hu
        · split at hu'
          · cases hu
            cases hu'
            have := hs.tasks i t t' ht ht'
            exact ⟨this.rid, this.fuel, this.fs, this.call, hp, hsat⟩
          · cases hu'
        · cases hu
      · rename_i hik
        rw [if_neg hik] at hu'
        exact hs.tasks k u u' hu hu'
    unfold Sys.next
    dsimp only
    cases ht : tasks[i]? with
    | none =>
      have : tasks'[i]? = none := by
        rw [List.getElem?_eq_none_iff] at ht ⊢
        rw [hlen]
        exact ht
      rw [this]
      exact hs
    | some t =>
      have hlt := (List.getElem?_eq_some_iff.1 ht).1
      obtain ⟨t', ht'⟩ : ∃ t', tasks'[i]? = some t' := ⟨_, List.getElem?_eq_getElem (by rw [hlen]; exact hlt)⟩
      rw [ht']
      have h1 := hs.tasks i t t' ht ht'
      have h2 := h1.prog
      have h3 := h1.sat
      dsimp only
      generalize t.prog = p at h2 h3
      generalize t'.prog = p' at h2
      cases h2 with
      | ret _ => exact hs
      | crash c => exact hs
      | ask q hk => exact key shared' t t' _ _ ht ht' hs.stored (hk _ ⟨_, hs.inF, rfl⟩) (h3 _ ⟨_, hs.inF, rfl⟩)
      | op o hk =>
        dsimp only
        rw [h1.rid]
        obtain ⟨h4, h5⟩ := Verif.stored_step cfg shared' t.rid o (fun _ => seed) hs.stored h3.1
        have := key _ t t' _ _ ht ht' h4 (hk _ h5) (h3.2 _ h5)
        rwa [h1.rid] at this

theorem after_alike {l l' : List Event} (hl : HistoryRemarked l l') {s s' : Sys} (hs : SysAlike F E s s')
    (hch : ∀ fs, .change fs ∈ l → F fs)
    (hcall : ∀ rid call fuel, .start rid call fuel ∈ l → E ∨ PathCall (cfg rid).opts call) : SysAlike F E (s.after cfg ser l) (s'.after cfg ser l') := by
  induction hl generalizing s s' with
  | nil => exact hs
  | cons he _ ih =>
    exact ih (next_alike hF hs he (fun fs h => hch fs (h ▸ List.mem_cons_self ..))
      fun rid call fuel h => hcall rid call fuel (h ▸ List.mem_cons_self ..))
      (fun fs h => hch fs (List.mem_cons_of_mem _ h)) fun rid call fuel h =>
        hcall rid call fuel (List.mem_cons_of_mem _ h)

end

theorem init_alike {F : Fs → Prop} {E : Prop} {fs : Fs} (h : F fs) : SysAlike F E (Sys.init fs) (Sys.init fs) :=
  ⟨rfl, rfl, h, stored_init _, rfl, fun i t t' ht => by cases ht⟩

theorem Alike.outcome {α β : Type} {A : (q : Query) → q.Ret → Prop} {R : (o : Op) → o.Ret → Prop} {Q : α → β → Prop}
    {p : Live α} {q : Live β} (h : p.Alike A R Q q) {x : Outcome α} (hx : Live.outcome p = some x) :
    ∃ y, Live.outcome q = some y ∧ x.Like Q y := by
  cases h with
  | ret h => cases hx; exact ⟨_, rfl, h⟩
  | crash c => cases hx; exact ⟨_, rfl, rfl⟩
  | ask q _ => cases hx
  | op o _ => cases hx

end Verif.Live
