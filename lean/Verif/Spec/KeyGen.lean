import Mathlib.Data.Nat.Prime.Defs

/-!
# What the generator of primes promises
-/

namespace Synedrion.Spec

/-- A prime of `bits` bits with the two most significant ones set: `SetBits::TwoMsb` -/
structure SievePrime (bits p : Nat) : Prop where
  prime : p.Prime
  low : 3 * 2 ^ (bits - 2) ≤ p
  high : p < 2 ^ bits

/-- A safe prime of `bits` bits: `generate_safe_prime_with_rng` -/
structure SafePrime (bits p : Nat) : Prop where
  prime : p.Prime
  half : ((p - 1) / 2).Prime
  low : 2 ^ (bits - 1) ≤ p
  high : p < 2 ^ bits

end Synedrion.Spec
