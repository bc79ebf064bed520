import Verif.Model.KeyResharing

/-!
# The inputs of honest participants of key resharing
-/

namespace Synedrion.Spec

open KeyResharing

variable {I F G : Type} [LinearOrder I] [Field F] [LinearOrder F] [AddCommGroup G] [Module F G] [DecidableEq G]

/-- The inputs of honest participants: the parties of `S` hold shares of the old key, the parties of `N` will hold the new ones, and the new holders
expect contributions of exactly `S`. -/
def HonestInputs (S N : Finset I) (shares : I → ThresholdKeyShare I F G) (vkey : G) (oldThreshold n : Nat) (i : I) : Inputs I F G :=
  ⟨if i ∈ S then some (shares i) else none, if i ∈ N then some ⟨vkey, oldThreshold, S⟩ else none, N, n⟩

end Synedrion.Spec
