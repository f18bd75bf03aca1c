import Verif.Spec.Browser
import Verif.Spec.SideEffects
/-!
# Specification of what makes a request ignored
-/

namespace Verif

/-- Something says that a request is ignored: an entry of the alias option or, with browser_field on,
an entry `"key": false` of the `browser` map of some JSON file, on one of the file systems `F`. -/
inductive SaysIgnored (o : Opts) (F : Fs → Prop) : Prop where
  | alias (k : Str) : (k, .ignored) ∈ o.alias → SaysIgnored o F
  | browser (fs : Fs) (file : Str) (doc : Doc) (json : Json) (m : List (Str × Json)) (k : Str) :
      o.browserField = true → F fs → fs.read file = some doc → doc.json = some json →
      json.get cs!"browser" = some (.obj m) → (k, .bool false) ∈ m → SaysIgnored o F

end Verif
