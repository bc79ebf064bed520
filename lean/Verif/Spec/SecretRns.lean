import Verif.Spec.SecretKeys
import Verif.Model.SecretRns

/-!
# What the operations on numbers modulo both primes leave in memory
-/

namespace Synedrion.Spec.KeyMemory

open SecretBox SecretKeys

/-- The key is in memory, every part in a piece of its own. -/
def HoldsKey {p q : Nat} (m : Mem Nat) (k : Key) (sk : SecretKey p q) : Prop := ((keyCells k sk).map Prod.fst).Nodup ∧ ∀ x ∈ keyCells k sk, Holds m x.1 x.2

/-- The only number that can be the square root, up to the sign, modulo a prime that is 3 modulo 4 -/
def candidate {n : Nat} (primeBits : Nat) (x : ZMod n) : ZMod n := powBounded x (n / 4 + 1) (primeBits - 1)

/-- The digit of Garner's algorithm: what is multiplied by `p` to get the number from its remainders `a` modulo `p` and `b` modulo `q` -/
def digit {p q : Nat} (sk : SecretKey p q) (a : ZMod p) (b : ZMod q) : Nat := ((b - (a.val : ZMod q)) * sk.invPModQ).val

end Synedrion.Spec.KeyMemory
