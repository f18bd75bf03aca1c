import Verif.Spec.Termination
import Verif.Spec.Browser
import Verif.Proofs.Bytes
/-!
# What a panic can be blamed on
-/

namespace Verif

/-- JSON values that the code can read as an exports or imports map: texts, lists without lists
directly inside, and objects of such values. -/
inductive Convertible : Json → Prop where
  | str (s : Str) : Convertible (.str s)
  | arr {l : List Json} : (∀ j ∈ l, Convertible j) → (∀ j ∈ l, ∀ l', j ≠ .arr l') → Convertible (.arr l)
  | obj {l : List (Str × Json)} : (∀ kv ∈ l, Convertible kv.2) → Convertible (.obj l)

/-- The content of a tsconfig file. -/
def TsFile (fs : Fs) (f : Str) (json : Json) : Prop :=
  ∃ doc, fs.read f = some doc ∧ doc.jsonc = .ok (some json)

/-- What may be known of description files: the values of their fields, and the packages that may be
found for a directory. -/
structure Sources where
  field : Str → Json → Prop
  pkg : Str → Pkg → Prop

/-- The files of one file system. -/
def Sources.of (o : Opts) (fs : Fs) : Sources where
  field := IsField fs
  pkg d p := Loads o fs d (.ok (some p))

/-- The files of many file systems, with packages in a directory or above it. -/
def Sources.among (F : Fs → Prop) : Sources where
  field name v := ∃ fs, F fs ∧ IsField fs name v
  pkg d p := comps p.absDir <+: comps d ∧
    (∃ fs file doc, F fs ∧ fs.read file = some doc ∧ doc.json = some p.raw) ∧
    ∀ k v, (k, v) ∈ p.aliasFields → BrowserEntry p.raw k v

/-- Texts in the options and in files that can become the target of a request: the description files are
those of `S`, tsconfig files those of `fs`. -/
inductive Written (o : Opts) (S : Sources) (fs : Fs) : Str → Prop where
  | alias {k t : Str} : (k, .target t) ∈ o.alias → Written o S fs t
  | browser {l : List (Str × Json)} {k t : Str} : o.browserField = true →
      S.field cs!"browser" (.obj l) → (k, .str t) ∈ l → Written o S fs t
  | exports {v : Json} {t : Str} : S.field cs!"exports" v → t ∈ v.strings → Written o S fs t
  | imports {v : Json} {t : Str} : S.field cs!"imports" v → t ∈ v.strings → Written o S fs t
  | base {f s : Str} {json : Json} : o.tsconfig ≠ none → TsFile fs f json →
      json.get cs!"extends" = some (.str s) → Written o S fs s

/-- If it starts with `@`, a `/` follows, before any `?`, `#` or `*`. -/
def Scoped (s : Str) : Prop :=
  ∀ r, s = '@' :: r → ∃ a b, r = a ++ '/' :: b ∧ ∀ c ∈ a, c ≠ '?' ∧ c ≠ '#' ∧ c ≠ '*'

/-- Its first character is its own, whatever is put in for `*` and at the end. -/
def Headed (s : Str) : Prop := ∃ c r, s = c :: r ∧ c ≠ '*'

/-- A field of the compiler options of a tsconfig. -/
def TsField (json : Json) (name : Str) (v : Json) : Prop :=
  ∃ l m, json = .obj l ∧ (cs!"compilerOptions", .obj m) ∈ l ∧ (name, v) ∈ m

/-- The shape that the code demands of the compiler options: `baseUrl` is a text, and `paths` an object
of lists of texts. -/
structure TsShape (json : Json) : Prop where
  baseUrl : ∀ v, TsField json cs!"baseUrl" v → ∃ s, v = .str s
  paths : ∀ v, TsField json cs!"paths" v →
    ∃ l, v = .obj l ∧ ∀ kv ∈ l, ∃ ss : List Str, kv.2 = .arr (ss.map .str)

/-- Something can turn the request into another one. -/
def Indirect (o : Opts) (request : Str) : Prop :=
  o.alias ≠ [] ∨ o.preferRelative = true ∨ o.browserField = true ∨ o.tsconfig ≠ none ∨
    cs!"#" <+: request

/-- A directory that a path request leads to: the one it names, or any if something can turn the
request into another one. -/
def MayLead (o : Opts) (path request d : Str) : Prop :=
  Indirect o request ∨ ((parseRequest request).kind ≠ .normal ∧
    d = targetPath path (parseRequest request).target)

/-- What a panic at a site can be blamed on, for a request. Sites that are not here are never reached:
the `unreachable!()` of `resolve` (src/lib.rs:209), `extract_info` (src/lib.rs:152), the `unwrap` of
src/description.rs:158, and debug assertions. -/
inductive Blame (o : Opts) (S : Sources) (fs : Fs) (path request : Str) : Site → Prop where
  /-- an exports field with a number, `true`, `false` or `null`, or a list in a list -/
  | exports {v : Json} : S.field cs!"exports" v → ¬ Convertible v → Blame o S fs path request .buildTree
  /-- the same for imports, which also must be an object -/
  | imports {v : Json} : S.field cs!"imports" v → (¬ Convertible v ∨ ∀ l, v ≠ .obj l) →
      Blame o S fs path request .buildTree
  /-- a `browser` entry `true` -/
  | browser {l : List (Str × Json)} {k : Str} : S.field cs!"browser" (.obj l) →
      (k, .bool true) ∈ l → Blame o S fs path request .browserTrue
  /-- characters outside ASCII -/
  | slice {t : Str} : t = request ∨ Written o S fs t → ¬ AsciiStr t → Blame o S fs path request .moduleSlice
  /-- a scope without name -/
  | scope {t : Str} : t = request ∨ Written o S fs t → ¬ Scoped t → Blame o S fs path request .scopedNoSlash
  /-- a target that may come to start with anything -/
  | head {t : Str} : Written o S fs t → ¬ Headed t → Blame o S fs path request .scopedNoSlash
  /-- a directory without main file -/
  | dir {d : Str} : MayLead o path request d → fs.isDir d = true →
      (∀ p ∈ mainCandidates o d, fs.isFile p = false) → Blame o S fs path request .resolveUnreachable
  /-- a directory with a main file that a `browser` entry covers -/
  | covered {d m k : Str} {pkg : Pkg} {v : AliasMap} : o.browserField = true → fs.isDir d = true →
      S.pkg d pkg → m ∈ o.mainFiles → (k, v) ∈ pkg.aliasFields →
      Covers o.extensions pkg.absDir k (pjoin d (cs!"./" ++ m)) → Blame o S fs path request .resolveUnreachable
  /-- an empty tsconfig -/
  | tsEmpty {f : Str} {doc : Doc} : o.tsconfig ≠ none → fs.read f = some doc → doc.jsonc = .ok none →
      Blame o S fs path request .tsEmpty
  /-- a tsconfig without directory -/
  | tsParent {f : Str} {json : Json} : o.tsconfig ≠ none → TsFile fs f json → pparent f = none →
      Blame o S fs path request .tsParent
  /-- a tsconfig with other compiler options -/
  | tsShape {f : Str} {json : Json} : o.tsconfig ≠ none → TsFile fs f json → ¬ TsShape json →
      Blame o S fs path request .tsShape
  /-- a request with characters outside ASCII, and a tsconfig -/
  | search : o.tsconfig ≠ none → ¬ AsciiStr request → Blame o S fs path request .starSlice

/-- What a panic of a call can be blamed on. -/
def Call.Blame (o : Opts) (S : Sources) (fs : Fs) (site : Site) : Call → Prop
  | .resolve path request => Verif.Blame o S fs path request site
  | .sideEffects path => (site = .buildTree ∨ site = .browserTrue) ∧ Verif.Blame o S fs path [] site

/-- Every such call of a resolver returns, in every interleaving with other calls in which its thread
gets to run. -/
def AlwaysReturns (cfg : Nat → Config) (ser : Json → Str) (fs : Fs) (rid : Nat) (call : Call) : Prop :=
  ∃ n, ∀ ev : Nat → Event, (∀ k, (ev k).calm) → ∀ i, Fair ev i →
    ∀ k t, ((Sys.init fs).at cfg ser ev k).tasks[i]? = some t →
    t.rid = rid → t.call = call → n ≤ t.fuel →
    ∃ m t' a, k ≤ m ∧ ((Sys.init fs).at cfg ser ev m).tasks[i]? = some t' ∧
      t'.prog.outcome = some (.done a)

end Verif
