import Verif.Spec.SecretKeys
import Verif.Model.SecretSharing

/-!
# What splitting and joining secrets should compute
-/

namespace Synedrion.Spec.KeyMemory

variable {q : Nat}

/-- The parts of a secret: what was drawn, and what is missing to the secret -/
def partsOf (s : ZMod q) (draws : List (ZMod q)) : List (ZMod q) := draws ++ [s - draws.sum]

/-- The value of a polynomial, given by its coefficients, the constant one first -/
def polyValue (coeffs : List (ZMod q)) (x : ZMod q) : ZMod q := coeffs.foldr (fun c v => c + x * v) 0

/-- The sum of the shares times their coefficients -/
def weightedSum (shares : List (ZMod q × ZMod q)) : ZMod q := (shares.map fun c => c.1 * c.2).sum

end Synedrion.Spec.KeyMemory
