import Verif.Spec.Static
/-!
# Specification of the `browser` field of one package
-/

namespace Verif

/-- No key twice. -/
def UniqueKeys (l : List (Str × Json)) : Prop := (l.map (·.1)).Nodup

/-- The `browser` map of a JSON value has the entry: `false` means ignored, a string is a
replacement. -/
inductive BrowserEntry (json : Json) (k : Str) : AliasMap → Prop where
  | ignored {m : List (Str × Json)} : json.get cs!"browser" = some (.obj m) → (k, .bool false) ∈ m →
      BrowserEntry json k .ignored
  | target {m : List (Str × Json)} {t : Str} : json.get cs!"browser" = some (.obj m) →
      (k, .str t) ∈ m → BrowserEntry json k (.target t)

/-- Where an entry leads in the end: replacements are looked up again, as they are written. -/
inductive ChainEnd (json : Json) : AliasMap → AliasMap → Prop where
  | ignored : ChainEnd json .ignored .ignored
  | stop {t : Str} : (∀ v, ¬ BrowserEntry json t v) → ChainEnd json (.target t) (.target t)
  | next {t : Str} {v w : AliasMap} : BrowserEntry json t v → ChainEnd json v w →
      ChainEnd json (.target t) w

/-- A key of a `browser` map fits a request: a bare target as written, otherwise the path. -/
def KeyFits (o : Opts) (dir path target k : Str) : Prop :=
  if getTargetKind target = .normal then k = target
  else Covers o.extensions dir k (targetPath path target)

/-- No entry of the `browser` map of a package covers the path. -/
def NotCovered (o : Opts) (pkg : Option Pkg) (x : Str) : Prop :=
  o.browserField = true → ∀ p kv, pkg = some p → kv ∈ p.aliasFields →
    ¬ Covers o.extensions p.absDir kv.1 x

/-- No entry of the `browser` map of a package is for the bare target. -/
def NotKeyed (o : Opts) (pkg : Option Pkg) (target : Str) : Prop :=
  o.browserField = true → ∀ p kv, pkg = some p → kv ∈ p.aliasFields → kv.1 ≠ target

/-- An entry of the `browser` map of a package covers the path, and leads to this in the end. -/
def Replaced (o : Opts) (p : Pkg) (x : Str) (w : AliasMap) : Prop :=
  o.browserField = true ∧ (∀ m, p.raw.get cs!"browser" = some (.obj m) → UniqueKeys m) ∧
    ∃ k v, BrowserEntry p.raw k v ∧ Covers o.extensions p.absDir k x ∧ ChainEnd p.raw v w

/-- What is used in place of a path: the path itself, what the `browser` map of the package has for it,
or nothing at all (the path is ignored). -/
inductive Swap (o : Opts) (pkg : Option Pkg) (x : Str) : Option Str → Prop where
  | keep : NotCovered o pkg x → Swap o pkg x (some x)
  | instead {p : Pkg} {t : Str} : pkg = some p → Replaced o p x (.target t) →
      Swap o pkg x (some (targetPath p.absDir t))
  | drop {p : Pkg} : pkg = some p → Replaced o p x .ignored → Swap o pkg x none

end Verif
