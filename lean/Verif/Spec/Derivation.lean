import Verif.Model.Entities

/-!
# Specification of derived keys
-/

namespace Synedrion.Spec

variable {F G : Type} [Field F] [LinearOrder F] [AddCommGroup G] [Module F G] [DecidableEq G]

/-- Deriving along `p₁` and then, from the result, along `p₂` is the same as deriving along `p₁` followed by `p₂`, for all keys for which
the steps succeed. `derive` is a derivation of public keys along paths. -/
def Composes (derive : G → List Nat → Out EntErr G) : Prop :=
  ∀ pk p₁ p₂ k₁ k₂, derive pk p₁ = .ok k₁ → derive k₁ p₂ = .ok k₂ → derive pk (p₁ ++ p₂) = .ok k₂

/-- What anyone who knows the public key `pk` of the parent can compute from a secret (the key or a share of it) derived along `path`:
the secret minus the tweaks of the path. -/
def parentSecret {CC : Type} (g : G) (chainCode : G → CC) (deriveTweak : G → CC → Nat → Out EntErr (F × CC)) (pk : G) (path : List Nat)
    (child : F) : Out EntErr F :=
  (deriveTweaks g chainCode deriveTweak pk path).bind fun tweaks => .ok (child - tweaks.sum)

/-- The same computation followed by adding the tweaks of another path. -/
def siblingSecret {CC : Type} (g : G) (chainCode : G → CC) (deriveTweak : G → CC → Nat → Out EntErr (F × CC)) (pk : G)
    (path other : List Nat) (child : F) : Out EntErr F :=
  (parentSecret g chainCode deriveTweak pk path child).bind fun s =>
  (deriveTweaks g chainCode deriveTweak pk other).bind fun tweaks => .ok (s + tweaks.sum)

end Synedrion.Spec
