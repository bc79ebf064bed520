import Verif.Model.Paillier
import Verif.Model.Out

/-!
# Generation of Paillier keys and ring-Pedersen secrets (`src/paillier/rsa.rs`, `keys.rs`, `ring_pedersen.rs`)

The search for primes is in the `crypto_primes` crate: its results are arguments (`Verif/Spec/KeyGen.lean` has its contract). Loops run over the list of what the
generator returns in turn; `none` means that the list was too short.
-/

namespace Synedrion

variable {ε : Type}

/-- `random_paillier_blum_prime`, src/paillier/rsa.rs:31-40: the first prime that the sieve returns with `first limb & 3 == 3` -/
def blumPrime (found : List Nat) : Option Nat := found.find? fun c => decide (c % 4 = 3)

/-- `SecretPrimesWire::new`, src/paillier/rsa.rs:54-65. `dbg` tells whether debug assertions are compiled in. -/
def secretPrimesNew (dbg : Bool) (p q : Nat) : Out ε (Nat × Nat) :=
  (Out.assert (!dbg || decide (p % 4 = 3))).bind fun _ => (Out.assert (!dbg || decide (q % 4 = 3))).bind fun _ => .ok (p, q)

/-- `SecretKeyPaillierWire::random` with `SecretPrimesWire::random_paillier_blum`, src/paillier/keys.rs:35-39, src/paillier/rsa.rs:78-83: the primes
are searched one after the other and not compared. -/
def paillierKeyRandom (dbg : Bool) (foundP foundQ : List Nat) : Option (Out ε (Nat × Nat)) :=
  (blumPrime foundP).bind fun p => (blumPrime foundQ).map fun q => secretPrimesNew dbg p q

/-- `SecretUnsigned::new(.., bound).expect(..)`, src/uint/secret_unsigned.rs:37-41, for a type of `w` bits -/
def unsignedNew (w : Nat) (value bound : Nat) : Out ε Nat := if bound ≤ w ∧ value < 2 ^ bound then .ok value else .panic

/-- `RPSecret::random`, src/paillier/ring_pedersen.rs:39-53, with the primes of `SecretPrimesWire::random_safe` (src/paillier/rsa.rs:95-100) and the totient of `SecretPrimes::new` (121-141): the exponent `lambda`.
`random_mod` is taken to be the residue of the number drawn. -/
def rpSecretRandom (dbg : Bool) (w modulusBits p q draw : Nat) : Out ε Nat :=
  (secretPrimesNew dbg p q).bind fun _ =>
  if p = 0 ∨ q = 0 then .panic else
  let bound := (p - 1) * (q - 1) / 4
  (Out.assert (decide (bound ≠ 0))).bind fun _ => unsignedNew w (draw % bound) (modulusBits - 2)

/-- `SecretPrimes::random_residue_mod_totient`, src/paillier/rsa.rs:214-223 -/
def randomResidueModTotient (w modulusBits p q draw : Nat) : Out ε Nat :=
  let totient := (p - 1) * (q - 1)
  (Out.assert (decide (totient ≠ 0))).bind fun _ => unsignedNew w (draw % totient) modulusBits

/-- `PublicModulus::random_invertible_residue`, src/paillier/rsa.rs:296-304: the first of the numbers drawn below `N` that is invertible -/
def randomInvertibleResidue (N : Nat) (draws : List Nat) : Option Nat := (draws.map (· % N)).find? fun r => isInvertible r N

end Synedrion
