import Verif.Model.LiveMachine
/-!
# Which fields of JSON files matter: words for the statements
-/

namespace Verif

/-- The fields of a description file that are looked at by all resolvers. -/
def pkgFields : List Str :=
  [cs!"name", cs!"browser", cs!"exports", cs!"imports", cs!"sideEffects"]

/-- A value with some of its fields only, if it is an object. -/
def Json.only (keep : Str → Bool) : Json → Json
  | .obj l => .obj (l.filter fun kv => keep kv.1)
  | j => j

/-- A tsconfig with `extends` and `compilerOptions` only, and of the latter `baseUrl` and `paths`
only. -/
def Json.tsOnly : Json → Json
  | .obj l => .obj ((l.filter fun kv => kv.1 == cs!"extends" || kv.1 == cs!"compilerOptions").map fun kv =>
      (kv.1, if kv.1 = cs!"compilerOptions" then kv.2.only fun k => k == cs!"baseUrl" || k == cs!"paths"
        else kv.2))
  | j => j

/-- Two texts that say the same, read as a description file, of `pkgFields` and of the fields in `main`, and
the same, read as a tsconfig, of the fields in `Json.tsOnly`. -/
structure SameText (main : Str → Prop) (d d' : Doc) : Prop where
  /-- both are JSON or none is -/
  parses : d.json.isSome = d'.json.isSome
  fields : ∀ j j', d.json = some j → d'.json = some j' →
    ∀ k, k ∈ pkgFields ∨ main k → j.get k = j'.get k
  ts : d.jsonc.map (·.map Json.tsOnly) = d'.jsonc.map (·.map Json.tsOnly)

/-- Two file systems that differ in other fields of JSON files at most. -/
structure SameFields (main : Str → Prop) (fs fs' : Fs) : Prop where
  isFile : ∀ p, fs.isFile p = fs'.isFile p
  isDir : ∀ p, fs.isDir p = fs'.isDir p
  pathExists : ∀ p, fs.pathExists p = fs'.pathExists p
  mtime : ∀ p, fs.mtime p = fs'.mtime p
  canon : ∀ p, fs.canon p = fs'.canon p
  readable : ∀ p, (fs.read p).isSome = (fs'.read p).isSome
  read : ∀ p d d', fs.read p = some d → fs'.read p = some d' → SameText main d d'

/-- Two histories that differ in other fields of JSON files at most. -/
inductive FieldEvents (main : Str → Prop) : List Event → List Event → Prop
  | nil : FieldEvents main [] []
  | start (rid : Nat) (call : Call) (fuel : Nat) {l l' : List Event} :
      FieldEvents main l l' → FieldEvents main (.start rid call fuel :: l) (.start rid call fuel :: l')
  | change {fs fs' : Fs} {l l' : List Event} :
      SameFields main fs fs' → FieldEvents main l l' → FieldEvents main (.change fs :: l) (.change fs' :: l')
  | step (i seed : Nat) {l l' : List Event} :
      FieldEvents main l l' → FieldEvents main (.step i seed :: l) (.step i seed :: l')

/-- The main fields of all resolvers (src/options.rs:main_fields). -/
def mainFieldOf (cfg : Nat → Config) (k : Str) : Prop := ∃ rid, k ∈ (cfg rid).opts.mainFields

/-- A text with nothing left but the fields that matter to resolvers with these main fields. -/
def Doc.strip (mains : List Str) (d : Doc) : Doc :=
  ⟨d.json.map (Json.only fun k => pkgFields.contains k || mains.contains k),
    d.jsonc.map (·.map Json.tsOnly)⟩

/-- The file system with nothing left in JSON files but the fields that matter. -/
def Fs.strip (mains : List Str) (fs : Fs) : Fs := { fs with read := fun p => (fs.read p).map (Doc.strip mains) }

/-- The history with nothing left in JSON files but the fields that matter. -/
def Event.strip (mains : List Str) : Event → Event
  | .change fs => .change (fs.strip mains)
  | e => e

/-- A tsconfig without a field: one of its own, or one of its compiler options. -/
def Json.tsDrop (k : Str) : Json → Json
  | .obj l => .obj ((l.filter fun kv => kv.1 != k).map fun kv =>
      (kv.1, if kv.1 = cs!"compilerOptions" then kv.2.only fun k' => k' != k else kv.2))
  | j => j

/-- A text without a field of a tsconfig. -/
def Doc.tsDrop (k : Str) (d : Doc) : Doc := { d with jsonc := d.jsonc.map (·.map (Json.tsDrop k)) }

/-- A text without a field. -/
def Doc.drop (k : Str) (d : Doc) : Doc := { d with json := d.json.map (Json.only fun k' => k' != k) }

end Verif
