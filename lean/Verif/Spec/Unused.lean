import Verif.Spec.SideEffects
import Verif.Spec.Static
/-!
# Options that apply to nothing
-/

namespace Verif

mutual
/-- The keys in a JSON value, at every depth. -/
def Json.keys : Json → List Str
  | .arr l => arrKeys l
  | .obj l => objKeys l
  | _ => []
/-- See `Json.keys`. -/
def arrKeys : List Json → List Str
  | [] => []
  | j :: l => j.keys ++ arrKeys l
/-- See `Json.keys`. -/
def objKeys : List (Str × Json) → List Str
  | [] => []
  | (k, j) :: l => k :: (j.keys ++ objKeys l)
end

/-- The strings that a JSON object has for the given fields, in the order of the fields. -/
def fieldTexts (json : Json) (fields : List Str) : List Str :=
  fields.filterMap fun f =>
    match json.get f with
    | some (.str s) => some s
    | _ => none

/-- There is no file for a main file name, in any directory. -/
def NoMainFile (o : Opts) (fs : Fs) (name : Str) : Prop :=
  ∀ d, (o.enforceExtension = some true ∨ fs.isFile (pjoin d (cs!"./" ++ name)) = false) ∧
    ∀ ext ∈ o.extensions, fs.isFile (pjoin d (cs!"./" ++ name) ++ ext) = false

/-- Options that differ only in what applies to nothing, on all file systems in `F`:
* condition names that are no key in any exports or imports value; `default` needs no name; the order does
  not matter;
* main fields that no description file has, or not as a string;
* extensions with which there are no files, or only for paths for which an earlier extension was found;
* main files that are nowhere. -/
structure Alike (F : Fs → Prop) (o o' : Opts) : Prop where
  alias : o'.alias = o.alias
  preferRelative : o'.preferRelative = o.preferRelative
  symlinks : o'.symlinks = o.symlinks
  descriptionFile : o'.descriptionFile = o.descriptionFile
  tsconfig : o'.tsconfig = o.tsconfig
  browserField : o'.browserField = o.browserField
  enforceExtension : o'.enforceExtension = o.enforceExtension
  conditions : ∀ fs v k, F fs → (IsField fs cs!"exports" v ∨ IsField fs cs!"imports" v) → k ∈ v.keys →
    k ≠ cs!"default" → (k ∈ o.conditionNames ↔ k ∈ o'.conditionNames)
  mainFields : ∀ fs file doc json, F fs → fs.read file = some doc → doc.json = some json →
    fieldTexts json o.mainFields = fieldTexts json o'.mainFields
  extensions : ∀ fs p, F fs →
    o.extensions.find? (fun ext => fs.isFile (p ++ ext)) = o'.extensions.find? fun ext => fs.isFile (p ++ ext)
  mainFiles : ∃ used : Str → Bool, o.mainFiles.filter used = o'.mainFiles.filter used ∧
    ∀ name, used name = false → ∀ fs, F fs → NoMainFile o fs name
  /-- Needed only for calls that run out of fuel in a directory: without main files they get further. -/
  someFile : o.mainFiles = [] ↔ o'.mainFiles = []
  /-- A `browser` map also looks at paths without files. -/
  browser : o.browserField = true →
    (∀ ext, ext ∈ o.extensions ↔ ext ∈ o'.extensions) ∧ o.mainFiles = o'.mainFiles

/-- Resolvers with options that are alike, and the same for the rest. -/
def AlikeCfg (F : Fs → Prop) (a b : Config) : Prop :=
  Alike F a.opts b.opts ∧ b.cache = a.cache ∧ b.debug = a.debug ∧ b.duration = a.duration

end Verif
