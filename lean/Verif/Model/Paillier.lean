import Mathlib.Data.Nat.Size
import Verif.Model.SInt
import Mathlib.Data.ZMod.Basic

/-!
# RSA moduli, Paillier keys, encryption and ring-Pedersen commitments (`src/paillier/`)

Montgomery representation is value-transparent: an `Integer::Monty` modulo `n` is a `ZMod n`, `retrieve` is `ZMod.val`, `to_montgomery`
is the cast from `Nat` (which reduces).  `Secret<_>` is transparent.  Signed exponents and plaintexts are `SInt`s: an integer with its
declared bound (`Verif/Props/Ints.lean` shows that the bit-level type refines it).
-/

namespace Synedrion

variable {ε : Type}

/-- `Invert::invert` of a Montgomery-form integer (crypto-bigint): `None` unless coprime to the modulus. -/
def invMod? {n : Nat} (a : ZMod n) : Option (ZMod n) := if Nat.gcd a.val n = 1 then some a⁻¹ else none

/-- `PowBoundedExp::pow_bounded_exp` (crypto-bigint): only the lowest `bound` bits of the exponent are used. -/
def powBounded {n : Nat} (a : ZMod n) (e bound : Nat) : ZMod n := a ^ (e % 2 ^ bound)

/-- `Exponentiable<SecretSigned>::pow`, src/uint/traits.rs:88-99. `abs()` panics if the bound is not truthful; the inverse is computed
(and must exist) whatever the sign. -/
def powSecret {n : Nat} (a : ZMod n) (e : SInt) : Out ε (ZMod n) :=
  if e.val.natAbs < 2 ^ e.bound then
    let absResult := powBounded a e.val.natAbs e.bound
    (Out.ofOptionPanic (invMod? absResult)).bind fun invResult => .ok (if e.val < 0 then invResult else absResult)
  else .panic

/-- `Exponentiable<SecretUnsigned>::pow`, src/uint/traits.rs:101-109 -/
def powUnsigned {n : Nat} (a : ZMod n) (e bound : Nat) : ZMod n := powBounded a e bound

/-- `Exponentiable<PublicSigned>::pow`, src/uint/traits.rs:111-125. Inverts only for negative exponents. -/
def powPublic {n : Nat} (a : ZMod n) (e : SInt) : Out ε (ZMod n) :=
  let absResult := powBounded a e.val.natAbs e.bound
  if e.val < 0 then Out.ofOptionPanic (invMod? absResult) else .ok absResult

/-- `SecretSigned::new_modulo` followed by `expect`, src/uint/secret_signed.rs:124-140, over `SInt`. -/
def SInt.newModulo (w : Nat) (positive modulus modulusBits : Nat) : Out ε SInt :=
  if modulus < positive then .panic
  else if modulusBits = 0 then .panic
  else
    let value : Int := if positive > modulus / 2 then (positive : Int) - modulus else positive
    if modulusBits - 1 < w ∧ value.natAbs < 2 ^ (modulusBits - 1) then .ok ⟨modulusBits - 1, value⟩ else .panic

/-- `IsInvertible::is_invertible`, src/uint/traits.rs:54-67 -/
def isInvertible (a modulus : Nat) : Bool := decide (Nat.gcd a modulus = 1)

/-! ### Moduli -/

/-- `PublicModulus::new`, src/paillier/rsa.rs:264-271: `Odd::new(..).expect(..)` -/
def publicModulusNew (modulus : Nat) : Out ε Nat := if modulus % 2 = 1 then .ok modulus else .panic

/-- `PublicModulus::random_invertible_residue`, src/paillier/rsa.rs:296-304. The loop is modelled by its exit condition: `draw` is
the first draw below `N` that is invertible. -/
def IsInvertibleDraw (N : Nat) (draw : Nat) : Prop := draw < N ∧ isInvertible draw N = true

/-- `PublicModulus::random_quadratic_residue`, src/paillier/rsa.rs:319-323 -/
def quadraticResidue (N : Nat) (draw : Nat) : ZMod N := (draw : ZMod N) * (draw : ZMod N)

/-- `FromXofReader::from_xof_reader`, src/uint/traits.rs:24-46: the value of the next `ceil(nBits/8)` bytes of the stream, most significant
first, with the first one masked if the bit size is not a multiple of 8. -/
def fromXof (nBits : Nat) (stream : Nat → Fin 256) : Nat :=
  let bytes := (List.range ((nBits + 7) / 8)).map fun i => (stream i).val
  match bytes with
  | [] => 0
  | b :: bs => ((if nBits % 8 ≠ 0 then b % 2 ^ (nBits % 8) else b) :: bs).foldl (fun acc x => acc * 256 + x) 0

/-- The stream after reading `n` bytes. -/
def streamDrop (n : Nat) (stream : Nat → Fin 256) : Nat → Fin 256 := fun i => stream (n + i)

/-- `PublicModulus::invertible_residue_from_xof_reader`, src/paillier/rsa.rs:308-316, with the rest of the stream. The loop is cut off after
`fuel` iterations (`none`). `Nat.size` is `bits_vartime`. -/
def invertibleResidueFromXof (N : Nat) (stream : Nat → Fin 256) : (fuel : Nat) → Option (Nat × (Nat → Fin 256))
  | 0 => none
  | fuel + 1 =>
    let r := fromXof (Nat.size N) stream
    let rest := streamDrop ((Nat.size N + 7) / 8) stream
    if isInvertible r N then some (r, rest) else invertibleResidueFromXof N rest fuel

/-! ### Secret keys -/

/-- `SecretKeyPaillier`, src/paillier/keys.rs:48-69 -/
structure SecretKey (p q : Nat) where
  totient : Nat
  invTotient : ZMod (p * q)
  invModulus : Nat
  invPModQ : ZMod q
  nonsquareConstant : ZMod (p * q)

/-- `SecretPrimes::new`, src/paillier/rsa.rs:118-140 and `SecretKeyPaillier::new`, src/paillier/keys.rs:75-157.
`checked_add` and `checked_sub` around the sampling constant are on integers of twice the size of a prime. -/
def SecretKey.new (p q : Nat) : Out ε (SecretKey p q) :=
  if p = 0 ∨ q = 0 then .panic else
  let totient := (p - 1) * (q - 1)
  (publicModulusNew (p * q)).bind fun modulus =>
  (Out.ofOptionPanic (invMod? (totient : ZMod (p * q)))).bind fun invTotient =>
  (Out.ofOptionPanic (invMod? (modulus : ZMod totient))).bind fun invModulus =>
  (Out.ofOptionPanic (invMod? (p : ZMod q))).bind fun invPModQ =>
  let t := (invPModQ + invPModQ - 1).val
  let u := t * p + p
  (Out.assert (decide (1 ≤ u))).bind fun _ =>
  .ok ⟨totient, invTotient, invModulus.val, invPModQ, ((u - 1 : Nat) : ZMod (p * q))⟩

/-- `SecretKeyPaillier::rns_split`, src/paillier/keys.rs:193-206 -/
def rnsSplit (p q : Nat) (elem : Nat) : ZMod p × ZMod q := (((elem % p : Nat) : ZMod p), ((elem % q : Nat) : ZMod q))

/-- `SecretKeyPaillier::sqrt_part`, src/paillier/keys.rs:208-230 -/
def sqrtPart {p : Nat} (primeBits : Nat) (x : ZMod p) : Option (ZMod p) :=
  let power := p / 4 + 1
  let candidate := powBounded x power (primeBits - 1)
  if candidate * candidate = x then some candidate else none

/-- `SecretKeyPaillier::rns_sqrt`, src/paillier/keys.rs:232-245 -/
def rnsSqrt {p q : Nat} (primeBits : Nat) (rns : ZMod p × ZMod q) : Option (ZMod p × ZMod q) :=
  match sqrtPart primeBits rns.1, sqrtPart primeBits rns.2 with
  | some a, some b => some (a, b)
  | _, _ => none

/-- `SecretKeyPaillier::rns_join`, src/paillier/keys.rs:247-262 -/
def rnsJoin {p q : Nat} (sk : SecretKey p q) (rns : ZMod p × ZMod q) : Nat :=
  let aHalf := rns.1.val
  let aModQ : ZMod q := (aHalf : ZMod q)
  let x := ((rns.2 - aModQ) * sk.invPModQ).val
  aHalf + p * x

/-- `SecretKeyPaillier::random_nonsquare_residue`, src/paillier/keys.rs:267-298; `draw` is the invertible residue drawn, `b` the bit. -/
def nonsquareResidue {p q : Nat} (sk : SecretKey p q) (draw : Nat) (b : Bool) : Nat :=
  let y := quadraticResidue (p * q) draw
  let w := y * sk.nonsquareConstant
  (if b then -w else w).val

/-! ### Encryption -/

/-- A ciphertext under the public key with modulus `N`: `Ciphertext`, src/paillier/encryption.rs:84-88. The key is part of the type, so the
assertions that keys agree are represented where the keys are chosen. -/
abbrev Ct (N : Nat) := ZMod (N ^ 2)

/-- `new_with_randomizer_inner` and `new_public_with_randomizer_inner`, src/paillier/encryption.rs:98-163. The randomizer is taken as an
integer (`to_wide().to_montgomery(N^2)`), and raised to the power `N`, a positive integer within its bound. -/
def encInner (N : Nat) (absPlaintext : Nat) (randomizer : Nat) (isNegative : Bool) : Ct N :=
  let prod : Ct N := (absPlaintext : Ct N) * (N : Ct N)
  let prod := if isNegative then -prod else prod
  let factor1 := prod + 1
  factor1 * (randomizer : Ct N) ^ N

/-- `new_with_randomizer`, `new_wide_with_randomizer`, src/paillier/encryption.rs:166-180 -/
def enc (N : Nat) (plaintext : SInt) (randomizer : Nat) : Out ε (Ct N) :=
  if plaintext.val.natAbs < 2 ^ plaintext.bound then
    .ok (encInner N plaintext.val.natAbs randomizer (decide (plaintext.val < 0)))
  else .panic

/-- `new_public_with_randomizer`, `new_public_wide_with_randomizer`, src/paillier/encryption.rs:182-196 -/
def encPublic (N : Nat) (plaintext : SInt) (randomizer : Nat) : Ct N :=
  encInner N plaintext.val.natAbs randomizer (decide (plaintext.val < 0))

/-- `Randomizer::to_masked`, src/paillier/encryption.rs:59-66: `rho^exponent * coeff mod N`. -/
def toMasked (N : Nat) (rho coeff : Nat) (exponent : SInt) : Out ε Nat :=
  (powPublic (rho : ZMod N) exponent).bind fun r => .ok (r * (coeff : ZMod N)).val

/-- `CiphertextWire::to_precomputed`, src/paillier/encryption.rs:77-82 -/
def ctOfWire (N : Nat) (wire : Nat) : Ct N := (wire : Ct N)

/-- `Ciphertext::to_wire`, src/paillier/encryption.rs:313-318 -/
def ctToWire {N : Nat} (c : Ct N) : Nat := c.val

/-- `Ciphertext::decrypt`, src/paillier/encryption.rs:205-235; `w` is the bit width of `Uint`, `modulusBits` is `MODULUS_BITS`.
`SecretUnsigned::new(totient, MODULUS_BITS).expect(..)` is in `totient_unsigned`, src/paillier/rsa.rs:195-197. -/
def decrypt {p q : Nat} (w modulusBits : Nat) (sk : SecretKey p q) (c : Ct (p * q)) : Out ε SInt :=
  if sk.totient < 2 ^ modulusBits then
    let t := powUnsigned c sk.totient modulusBits
    let x := (t - 1).val / (p * q)
    (Out.assert (decide (x < 2 ^ w))).bind fun _ =>
    let xMod : ZMod (p * q) := (x : ZMod (p * q))
    SInt.newModulo w (xMod * sk.invTotient).val (p * q) modulusBits
  else .panic

/-- `Ciphertext::derive_randomizer`, src/paillier/encryption.rs:238-261. `inv_modulus` has the bound `MODULUS_BITS`. -/
def deriveRandomizer {p q : Nat} (modulusBits : Nat) (sk : SecretKey p q) (c : Ct (p * q)) : Nat :=
  let cModN : ZMod (p * q) := ((c.val % (p * q) : Nat) : ZMod (p * q))
  (powUnsigned cModN sk.invModulus modulusBits).val

/-- `homomorphic_neg_ref`, src/paillier/encryption.rs:263-270 -/
def ctNeg {N : Nat} (c : Ct N) : Out ε (Ct N) := Out.ofOptionPanic (invMod? c)

/-- `homomorphic_add`, `homomorphic_add_ref`, src/paillier/encryption.rs:297-311 -/
def ctAdd {N : Nat} (c d : Ct N) : Ct N := c * d

/-- `Sub`, src/paillier/encryption.rs:335-340 -/
def ctSub {N : Nat} (c d : Ct N) : Out ε (Ct N) := (ctNeg d).bind fun d' => .ok (ctAdd c d')

/-- `homomorphic_mul`, src/paillier/encryption.rs:277-295, by a secret integer -/
def ctMulSecret {N : Nat} (c : Ct N) (k : SInt) : Out ε (Ct N) := powSecret c k

/-- `homomorphic_mul`, src/paillier/encryption.rs:277-295, by a public integer -/
def ctMulPublic {N : Nat} (c : Ct N) (k : SInt) : Out ε (Ct N) := powPublic c k

/-! ### Ring-Pedersen commitments -/

/-- `RPParams`, src/paillier/ring_pedersen.rs:75-84 -/
structure RPParams (N : Nat) where
  /-- `base_randomizer`, $t$ -/
  t : ZMod N
  /-- `base_value`, $s = t^\lambda$ -/
  s : ZMod N
  deriving DecidableEq

/-- `RPParamsWire`, src/paillier/ring_pedersen.rs:160-171 -/
structure RPParamsWire where
  modulus : Nat
  baseRandomizer : Nat
  baseValue : Nat
  deriving DecidableEq

/-- `RPParams::random_with_secret`, src/paillier/ring_pedersen.rs:98-109; `lambda` has the bound `MODULUS_BITS - 2`. -/
def RPParams.withSecret (N modulusBits : Nat) (lambda draw : Nat) : RPParams N :=
  let t := quadraticResidue N draw
  ⟨t, powUnsigned t lambda (modulusBits - 2)⟩

/-- `RPParams::to_wire`, src/paillier/ring_pedersen.rs:151-157 -/
def RPParams.toWire {N : Nat} (rp : RPParams N) : RPParamsWire := ⟨N, rp.t.val, rp.s.val⟩

/-- `RPParamsWire::to_precomputed`, src/paillier/ring_pedersen.rs:178-187, which panics on an even modulus -/
def RPParamsWire.toPrecomputed (wire : RPParamsWire) : Out ε (RPParams wire.modulus) :=
  (publicModulusNew wire.modulus).bind fun _ => .ok ⟨(wire.baseRandomizer : ZMod wire.modulus), (wire.baseValue : ZMod wire.modulus)⟩

namespace RPParams
variable {N : Nat}

/-- `commit` with secret arguments, src/paillier/ring_pedersen.rs:128-133 -/
def commitSecret (rp : RPParams N) (value randomizer : SInt) : Out ε (ZMod N) :=
  (powSecret rp.s value).bind fun a => (powSecret rp.t randomizer).bind fun b => .ok (a * b)

/-- `commit` with public arguments, src/paillier/ring_pedersen.rs:128-133 -/
def commitPublic (rp : RPParams N) (value randomizer : SInt) : Out ε (ZMod N) :=
  (powPublic rp.s value).bind fun a => (powPublic rp.t randomizer).bind fun b => .ok (a * b)

/-- `commit_zero_value`, src/paillier/ring_pedersen.rs:136-141, with a secret argument -/
def commitZeroValueSecret (rp : RPParams N) (randomizer : SInt) : Out ε (ZMod N) := powSecret rp.t randomizer

/-- `commit_zero_value`, src/paillier/ring_pedersen.rs:136-141, with a public argument -/
def commitZeroValuePublic (rp : RPParams N) (randomizer : SInt) : Out ε (ZMod N) := powPublic rp.t randomizer

/-- `commit_zero_randomizer`, src/paillier/ring_pedersen.rs:144-149, with a public argument -/
def commitZeroRandomizerPublic (rp : RPParams N) (value : SInt) : Out ε (ZMod N) := powPublic rp.s value

end RPParams

/-- `RPCommitmentWire::to_precomputed`, src/paillier/ring_pedersen.rs:217-221 -/
def commitmentOfWire (N : Nat) (wire : Nat) : ZMod N := (wire : ZMod N)

/-- `RPCommitment::to_wire`, src/paillier/ring_pedersen.rs:194-196 -/
def commitmentToWire {N : Nat} (c : ZMod N) : Nat := c.val

end Synedrion
