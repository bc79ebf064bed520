import Mathlib.Data.Int.ModEq
import Mathlib.Data.Nat.Prime.Basic

/-!
# Specification: centred residues
-/

namespace Synedrion.Spec

/-- `v` is the representative of `m` modulo `N` closest to zero: congruent to `m`, and `-N/2 < v < N/2`. (For odd `N` there is
exactly one.) -/
def Centred (N : Nat) (m v : Int) : Prop := v ≡ m [ZMOD N] ∧ 2 * |v| < N

/-- A valid Paillier key: two distinct odd primes with `N = p q` coprime to `φ(N)`. -/
structure PaillierPrimes (p q : Nat) : Prop where
  prime_p : Nat.Prime p
  prime_q : Nat.Prime q
  ne : p ≠ q
  odd_p : p % 2 = 1
  odd_q : q % 2 = 1
  coprime : Nat.Coprime (p * q) ((p - 1) * (q - 1))

end Synedrion.Spec
