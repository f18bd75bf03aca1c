import Verif.Model.Machine
/-!
# Hypotheses that property theorems are stated with
-/

namespace Verif

/-- No JSON file has an exports or imports field. -/
def NoMaps (fs : Fs) : Prop :=
  ∀ p doc json, fs.read p = some doc → doc.json = some json →
    json.get cs!"exports" = none ∧ json.get cs!"imports" = none

end Verif
