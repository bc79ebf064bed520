import Verif.Model.BMap

/-!
# Echoes that accompany evidence
-/

namespace Synedrion.Spec

/-- The echo broadcasts attached to evidence that party `me` (which itself sent `own`) presents against `j`: one for every party of `ids` except `j`,
the same that `me` received. -/
def EchosAgainst {I E : Type} [LinearOrder I] (ids : Finset I) (me j : I) (own : E) (received : List (I × E)) (echos : BMap I E) : Prop :=
  echos.keySet = ids.erase j ∧ echos.get? me = some own ∧ ∀ a ∈ received, a.1 ≠ j → echos.get? a.1 = some a.2

end Synedrion.Spec
