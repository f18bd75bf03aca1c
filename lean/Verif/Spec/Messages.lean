import Verif.Spec.Modules
import Verif.Spec.Ignored
import Verif.Spec.Maps
/-!
# Specification of what makes an error message true
-/

namespace Verif

/-- A JSON value inside of another one. -/
inductive Inside : Json → Json → Prop where
  | self {j : Json} : Inside j j
  | item {j x : Json} {l : List Json} : x ∈ l → Inside j x → Inside j (.arr l)
  | field {j x : Json} {k : Str} {l : List (Str × Json)} : (k, x) ∈ l → Inside j x → Inside j (.obj l)

/-- The field of some JSON file, on one of the file systems `F`. -/
def HasField (F : Fs → Prop) (name : Str) (v : Json) : Prop :=
  ∃ fs file doc json, F fs ∧ fs.read file = some doc ∧ doc.json = some json ∧ json.get name = some v

/-- The exports or the imports of some JSON file. -/
def HasMap (F : Fs → Prop) (v : Json) : Prop := HasField F cs!"exports" v ∨ HasField F cs!"imports" v

/-- A target that is written somewhere in exports or imports. -/
def HasTarget (F : Fs → Prop) (t : Str) : Prop := ∃ v, HasMap F v ∧ Inside (.str t) v

/-- A key of the exports or imports of some JSON file. -/
def HasKey (F : Fs → Prop) (name k : Str) : Prop := ∃ l x, HasField F name (.obj l) ∧ (k, x) ∈ l

/-- A `default` with further keys after it. -/
def DefaultEarly (l : List (Str × Json)) : Prop := ∃ a x b, l = a ++ (cs!"default", x) :: b ∧ b ≠ []

/-- What is wrong with a sideEffects entry: the entry itself, or an item of the array. -/
inductive NotSideEffects : Json → Json → Prop where
  | entry {v : Json} : (∀ b, v ≠ .bool b) → (∀ l, v ≠ .arr l) → NotSideEffects v v
  | item {v : Json} {l : List Json} : v ∈ l → (∀ s, v ≠ .str s) → NotSideEffects (.arr l) v

/-- What is looked up in exports for the target `t`: what follows the name of the package, after a dot and
with a query and a fragment `q`. -/
def AskedAs (t r : Str) : Prop :=
  ∃ name rest q, PackageName t name ∧ t = name ++ rest ∧
    (r = '.' :: (rest ++ q) ∧ (rest = [] → q = []) ∨ rest = [] ∧ r = cs!"./" ++ q)

/-- A target is useless: at some moment of `D` it was no file, or it leaves its package (C23). -/
def Useless (D : Fs → Prop) (i : Info) : Prop :=
  (∃ fs, D fs ∧ fs.isFile i.getPath = false) ∨ checkTarget i.request.target = false

/-- A map gives the targets `l` for a request (what they are: C19 to C22, C68). -/
def MapGives (F : Fs → Prop) (k : FieldKind) (names : List Str) (request : Str) (l : List Str) : Prop :=
  ∃ v k' root, HasMap F v ∧ buildTree k' v = some (.ok root) ∧
    fieldProcess k root request names = some (.ok l)

/-- The target `t` is not exported: all targets that exports give for it are useless, or the first one that
imports give. -/
def NoTarget (names : List Str) (D V : Fs → Prop) (t : Str) : Prop :=
  (∃ dir r l, AskedAs t r ∧ MapGives V .exports names r l ∧
    ∀ item ∈ l, Useless D ⟨dir, parseRequest item⟩) ∨
  (cs!"#" <+: t ∧ ∃ dir l, MapGives V .imports names t l ∧ ∀ item ∈ l.head?, ∃ i, Useless D i ∧
    ((parseRequest item).kind ≠ .normal → i = ⟨dir, parseRequest item⟩))

/-- What an error says is true: of the call, of the files at some moment `D` of the call, or of exports and
imports, which may be older (`V`). -/
def ErrorTrue (o : Opts) (D V : Fs → Prop) (path request : Str) : Err → Prop
  | .tag => False
  | .failed r p => r = request ∧ p = path
  | .openFailed p => ∃ fs, D fs ∧ (fs.read p = none ∨ fs.mtime p = none)
  | .parseFailed p => ∃ fs doc, D fs ∧ fs.read p = some doc ∧ doc.json = none
  | .compareFailed p => ∃ fs fs' p' now stored, D fs ∧ V fs' ∧ pathEq p p' = true ∧
      fs.mtime p = some now ∧ fs'.mtime p' = some stored ∧ now < stored
  | .sideEffects p v => ∃ fs doc json x, D fs ∧ fs.read p = some doc ∧ doc.json = some json ∧
      json.get cs!"sideEffects" = some x ∧ NotSideEffects x v
  | .notExported t => NoTarget o.conditionNames D V t
  | .defaultNotLast => ∃ v l, HasMap V v ∧ Inside (.obj l) v ∧ DefaultEarly l
  | .exportsRequest _ => False
  | .importsRequest _ => False
  | .importsRequestShort => ∃ v, HasMap V v
  | .onlyFile => ∃ v, HasMap V v
  | .exportTarget t => HasTarget V t ∧ BadTarget .exports t
  | .expectedFolder t => HasTarget V t ∧ t.getLast? ≠ some '/'
  | .expectedFile t => HasTarget V t ∧ t.getLast? = some '/'
  | .someWrong t => HasTarget V t ∧ t.getLast? = some '/'
  | .mixedKeys => ∃ a b, HasKey D cs!"exports" a ∧ HasKey D cs!"exports" b ∧
      (cs!"." <+: a ∨ cs!"/" <+: a) ∧ ¬ cs!"." <+: b ∧ ¬ cs!"/" <+: b
  | .exportKey k => HasKey D cs!"exports" k ∧ ¬ ExportsKey k
  | .importsSlash k => cs!"#/" <+: k ∧ (HasKey D cs!"imports" k ∨ ∃ v, HasMap V v)
  | .importsKey k => HasKey D cs!"imports" k ∧ ¬ cs!"#" <+: k
  | .importsKeyShort k => HasKey D cs!"imports" k ∧ k = cs!"#"
  | .normalizeFailed => o.symlinks = true ∧ ∃ fs fs' p, D fs ∧ D fs' ∧ fs.isFile p = true ∧ fs'.canon p = none
  | .tsParseFailed p m => ∃ fs doc, D fs ∧ fs.read p = some doc ∧ doc.jsonc = .error m
  | .extendsIgnored s p => SaysIgnored o V ∧ ∃ fs doc json, D fs ∧ fs.read p = some doc ∧
      doc.jsonc = .ok (some json) ∧ json.get cs!"extends" = some (.str s)

end Verif
