import Verif.Spec.Exec
/-!
# Specifications for file candidates, aliases and the symlinks option
-/

namespace Verif

/-- `x` is the first element of `l` with `P`. -/
def FirstIn {α : Type} (P : α → Prop) (l : List α) (x : α) : Prop :=
  ∃ a b, l = a ++ x :: b ∧ P x ∧ ∀ y ∈ a, ¬ P y

/-- The paths tried for a file at `p`: itself, unless extensions are enforced, then with every
extension in order. -/
def fileCandidates (o : Opts) (p : Str) : List Str :=
  (if o.enforceExtension = some true then [] else [p]) ++ o.extensions.map (p ++ ·)

/-- The path a relative or absolute target names. -/
def targetPath (path target : Str) : Str :=
  if target = [] ∨ target = ['.'] then path else pjoin path target

/-- The options without aliases. -/
def Opts.noAlias (o : Opts) : Opts := { o with alias := [] }

/-- The options without prefer_relative. -/
def Opts.noPrefer (o : Opts) : Opts := { o with preferRelative := false }

/-- The options with the given symlinks setting. -/
def Opts.withSymlinks (o : Opts) (b : Bool) : Opts := { o with symlinks := b }

/-- The same environment with other options. -/
def Env.withOpts (e : Env) (o : Opts) : Env := { e with opts := o }

/-- Trying alias entries in order on a request with the given target. `res t s`: resolving the
request with target `t` in its place may give `s`. The result `some r` means that the aliases
decide for `r`, and `none` that no alias does. -/
inductive Tried (res : Str → Stats → Prop) (target : Str) :
    List (Str × AliasMap) → Option Result → Prop where
  /-- no entry left -/
  | nil : Tried res target [] none
  /-- the key is not a prefix of the target -/
  | other {key to l o} : ¬ key <+: target → Tried res target l o →
      Tried res target ((key, to) :: l) o
  /-- the target already starts with the replacement -/
  | already {key to l o} : key <+: target → to <+: target → Tried res target l o →
      Tried res target ((key, .target to) :: l) o
  /-- an ignored entry -/
  | ignored {key l} : key <+: target → Tried res target ((key, .ignored) :: l) (some .ignored)
  /-- the rewritten request resolves -/
  | hit {key to l rest r} : target = key ++ rest → ¬ to <+: target →
      res (to ++ rest) (.success r) → Tried res target ((key, .target to) :: l) (some r)
  /-- the rewritten request does not resolve -/
  | miss {key to l rest s o} : target = key ++ rest → ¬ to <+: target →
      res (to ++ rest) s → (∀ r, s ≠ .success r) → Tried res target l o →
      Tried res target ((key, .target to) :: l) o

/-- Outcomes without and with `symlinks` that differ in the form of the path only. -/
inductive FormOnly (fs : Fs) :
    Outcome (Except Err Result) → Outcome (Except Err Result) → Prop where
  | crash (c : Crash) : FormOnly fs (.crashed c) (.crashed c)
  | error (err : Err) : FormOnly fs (.done (.error err)) (.done (.error err))
  | ignored : FormOnly fs (.done (.ok .ignored)) (.done (.ok .ignored))
  | info (p q : Str) (r : Request) : fs.isFile p = true → fs.canon p = some q →
      FormOnly fs (.done (.ok (.info ⟨normalizeLex p, r⟩))) (.done (.ok (.info ⟨q, r⟩)))
  | fail (p : Str) (r : Request) : fs.isFile p = true → fs.canon p = none →
      FormOnly fs (.done (.ok (.info ⟨normalizeLex p, r⟩))) (.done (.error .normalizeFailed))

/-- The order of aliases and prefer_relative: the aliases for the request come first, then the relative
reading, to which aliases apply once more, then the request without both. -/
inductive Course (rec : Str → Stats → Prop) (alias : List (Str × AliasMap)) (target : Str) : Option Result → Prop
  /-- an alias decides -/
  | alias {r : Result} : Tried rec target alias (some r) → Course rec alias target (some r)
  /-- no alias decides; the relative reading resolves -/
  | relative {r : Result} : Tried rec target alias none → ¬ cs!"./" <+: target → ¬ cs!"../" <+: target →
      rec (cs!"./" ++ target) (.success r) → Course rec alias target (some r)
  /-- nor does the relative reading -/
  | neither {s : Stats} : Tried rec target alias none → ¬ cs!"./" <+: target → ¬ cs!"../" <+: target →
      rec (cs!"./" ++ target) s → (∀ r, s ≠ .success r) → Course rec alias target none
  /-- no alias decides, and the request is a relative one -/
  | already : Tried rec target alias none → cs!"./" <+: target ∨ cs!"../" <+: target → Course rec alias target none

end Verif
