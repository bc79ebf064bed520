import Mathlib.Algebra.Module.BigOperators
import Mathlib.Algebra.BigOperators.Fin

/-!
# Specification of polynomial secret sharing
-/

namespace Synedrion.Spec

/-- The value at `x` of the polynomial `c₀ + c₁ X + … + c_{d-1} X^{d-1}`. -/
def polyValue {F C : Type} [Field F] [AddCommGroup C] [Module F C] (coeffs : List C) (x : F) : C :=
  ∑ i : Fin coeffs.length, x ^ (i : Nat) • coeffs[i]

end Synedrion.Spec
