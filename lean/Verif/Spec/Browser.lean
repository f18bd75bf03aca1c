import Verif.Spec.Packages
/-!
# Specification of the `browser` field
-/

namespace Verif

/-- Where the package that belongs to a request is looked for. -/
def pkgPath (path target : Str) : Str :=
  if getTargetKind target = .normal then pjoin (pjoin path cs!"node_modules") target
  else targetPath path target

/-- The `browser` field is not a map with the value `true` somewhere. -/
def NoTrue (j : Json) : Prop := ∀ m k, j.get cs!"browser" = some (.obj m) → (k, .bool true) ∉ m

/-- File contents that differ only in the `browser` field. -/
structure DocBut (doc doc' : Doc) : Prop where
  json : doc.json.map (Json.without cs!"browser") = doc'.json.map (Json.without cs!"browser")
  jsonc : doc.jsonc.map (·.map (Json.without cs!"browser")) =
    doc'.jsonc.map (·.map (Json.without cs!"browser"))
  noTrue : ∀ j, doc.json = some j → NoTrue j
  noTrue' : ∀ j, doc'.json = some j → NoTrue j

/-- File systems that differ only in `browser` fields of JSON files, and in modification times. -/
structure BrowserOnly (fs fs' : Fs) : Prop where
  file : fs.isFile = fs'.isFile
  dir : fs.isDir = fs'.isDir
  pathExists : fs.pathExists = fs'.pathExists
  canon : fs.canon = fs'.canon
  mtime : ∀ p, (fs.mtime p).isSome = (fs'.mtime p).isSome
  read : ∀ p, (fs.read p).isSome = (fs'.read p).isSome
  doc : ∀ p doc doc', fs.read p = some doc → fs'.read p = some doc' → DocBut doc doc'

end Verif
