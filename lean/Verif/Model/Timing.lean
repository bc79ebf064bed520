import Verif.Model.Paillier
import Verif.Model.Conversion

/-!
# The steps taken by operations on secret numbers

What an observer of the running time can see of an operation is the list of its steps: the calls of primitives of the underlying libraries and
the directions in which the code branches. A primitive that its library declares constant-time shows only the sizes of its operands, which are
given with it. A primitive that is declared variable-time in an operand (its name ends in `_vartime`) shows that operand, or its bit length for
`bits_vartime`. `Timing.f` is the function `f` of the other models with its steps written down; `C79_results` proves that the results are the same.
Moving values between memory locations and allocation are not steps.
-/

namespace Synedrion

/-- A step of a computation that an observer of the running time can see. -/
inductive Step where
  /-- a call of a constant-time primitive with operands of these sizes -/
  | prim (name : String) (sizes : List Nat)
  /-- a call of a primitive whose running time depends on these values -/
  | vartime (name : String) (operands : List Nat)
  /-- a decision taken by a branch instruction -/
  | branch (taken : Bool)
  deriving DecidableEq, Repr

/-- The outcome of a computation with its steps in order. -/
structure Timed (ε α : Type) where
  steps : List Step
  out : Out ε α

namespace Timed

variable {ε α β : Type}

/-- Sequencing; nothing is done after a failure. -/
def bind (x : Timed ε α) (f : α → Timed ε β) : Timed ε β :=
  match x.out with
  | .ok a => ⟨x.steps ++ (f a).steps, (f a).out⟩
  | .err e => ⟨x.steps, .err e⟩
  | .panic => ⟨x.steps, .panic⟩

instance : Monad (Timed ε) where
  pure a := ⟨[], .ok a⟩
  bind := bind

/-- A constant-time primitive -/
def prim (name : String) (sizes : List Nat) (result : α) : Timed ε α := ⟨[.prim name sizes], .ok result⟩

/-- A primitive that is variable-time in `operands` -/
def vartime (name : String) (operands : List Nat) (result : α) : Timed ε α := ⟨[.vartime name operands], .ok result⟩

/-- `if b { .. } else { .. }` -/
def branch (b : Bool) : Timed ε Bool := ⟨[.branch b], .ok b⟩

/-- `expect`, of an `Option` or a `CtOption` -/
def expect (o : Option α) : Timed ε α := ⟨[.branch o.isSome], Out.ofOptionPanic o⟩

/-- `assert!` -/
def assert (b : Bool) : Timed ε Unit := ⟨[.branch b], Out.assert b⟩

end Timed

namespace Timing

open Timed

variable {ε : Type} {w W : Nat}

/-! ## Signed integers -/

/-- `conditional_select`, src/tools/secret.rs:434-436: constant-time; `a` unless the choice is truthy -/
def select {α : Type} (size : Nat) (a b : α) (choice : Bool) : Timed ε α := prim "conditional_select" [size] (if choice then b else a)

/-- `SecretSigned::is_negative`, src/uint/secret_signed.rs:55-58: variable-time in the index of the bit -/
def isNegative (s : SecretSigned w) : Timed ε Bool := vartime "bit_vartime" [w - 1] s.value.msb

/-- `SecretSigned::neg`, src/uint/secret_signed.rs:69-74 -/
def neg (s : SecretSigned w) : Timed ε (SecretSigned w) := do
  let v ← prim "wrapping_neg" [w] (-s.value)
  return ⟨s.bound, v⟩

/-- `SecretSigned::abs_value`, src/uint/secret_signed.rs:81-83 -/
def absValue (s : SecretSigned w) : Timed ε (BitVec w) := do
  let minus ← prim "wrapping_neg" [w] (-s.value)
  let negative ← isNegative s
  select w s.value minus negative

/-- `SecretUnsigned::new`, src/uint/secret_unsigned.rs:37-41. The comparisons are turned into numbers without branching. -/
def unsignedNew (value : BitVec w) (bound : Nat) : Timed ε (Option (SecretUnsigned w)) := do
  let c1 ← prim "compare" [] (decide (bound ≤ w))
  let bits ← prim "bits" [w] (bitLen value.toNat)
  let c2 ← prim "compare" [] (decide (bits ≤ bound))
  return if c1 && c2 then some ⟨bound, value⟩ else none

/-- `SecretSigned::abs`, src/uint/secret_signed.rs:86-92 -/
def abs (s : SecretSigned w) : Timed ε (SecretUnsigned w) := do
  let v ← absValue s
  let o ← unsignedNew v s.bound
  expect o

/-- `SecretSigned::new_positive`, src/uint/secret_signed.rs:36-45 -/
def newPositive (value : BitVec w) (bound : Nat) : Timed ε (Option (SecretSigned w)) := do
  let c1 ← prim "compare" [] (decide (bound < w))
  let bits ← prim "bits" [w] (bitLen value.toNat)
  let c2 ← prim "compare" [] (decide (bits < w))
  let negative ← isNegative (⟨bound, value⟩ : SecretSigned w)
  return if c1 && c2 && !negative then some ⟨bound, value⟩ else none

/-- `SecretSigned::new_from_unsigned`, src/uint/secret_signed.rs:97-104 -/
def newFromUnsigned (value : BitVec w) (bound : Nat) : Timed ε (Option (SecretSigned w)) := do
  let abs ← absValue (⟨bound, value⟩ : SecretSigned w)
  let c1 ← prim "compare" [] (decide (bound < w))
  let bits ← prim "bits" [w] (bitLen abs.toNat)
  let c2 ← prim "compare" [] (decide (bits ≤ bound))
  return if c1 && c2 then some ⟨bound, value⟩ else none

/-- `SecretSigned::new_from_abs`, src/uint/secret_signed.rs:110-115 -/
def newFromAbs (absValue : BitVec w) (bound : Nat) (negative : Bool) : Timed ε (Option (SecretSigned w)) := do
  let minus ← prim "wrapping_neg" [w] (-absValue)
  let v ← select w absValue minus negative
  newFromUnsigned v bound

/-- `SecretSigned::new_modulo`, src/uint/secret_signed.rs:124-140. The subtraction panics on underflow, and so does `modulus_bits - 1`. -/
def newModulo (positive modulus : BitVec w) (modulusBits : Nat) : Timed ε (Option (SecretSigned w)) := do
  let half ← vartime "wrapping_shr_vartime" [1] (modulus >>> 1)
  let negative ← prim "ct_gt" [w] (decide (positive.toNat > half.toNat))
  assert (decide (positive.toNat ≤ modulus.toNat))
  let minus ← prim "wrapping_neg" [w] (-(modulus - positive))
  let v ← select w positive minus negative
  assert (decide (modulusBits ≠ 0))
  newFromUnsigned v (modulusBits - 1)

/-- `SecretSigned::is_in_exponent_range`, src/uint/secret_signed.rs:142-155 -/
def isInExponentRange (s : SecretSigned w) (exp : Nat) : Timed ε Bool := do
  let a ← abs s
  assert (decide (exp ≠ 0))
  let shifted ← prim "wrapping_shl" [w, exp - 1] (1#w <<< (exp - 1))
  let mask ← prim "wrapping_neg" [w] (-shifted)
  let masked ← prim "bitand" [w] (a.value &&& mask)
  let inBound ← prim "is_zero" [w] (decide (masked = 0#w))
  let eq ← prim "ct_eq" [w] (decide (a.value = shifted))
  let negative ← isNegative s
  return inBound || (eq && !negative)

/-- `SecretSigned::assert_exponent_range`, src/uint/secret_signed.rs:164-166 -/
def assertExponentRange (s : SecretSigned w) (exp : Nat) : Timed ε Unit := do
  let b ← isInExponentRange s exp
  assert b

/-- `SecretSigned::ensure_exponent_range`, src/uint/secret_signed.rs:175-185 -/
def ensureExponentRange (s : SecretSigned w) (exp : Nat) : Timed ε (Option (SecretSigned w)) := do
  let inBounds ← prim "compare" [] (decide (exp < w - 1))
  let inRange ← isInExponentRange s exp
  return if inRange && inBounds then some ⟨exp + 1, s.value⟩ else none

/-- `SecretSigned::to_wide`, src/uint/secret_signed.rs:193-201 -/
def toWide (W : Nat) (s : SecretSigned w) : Timed ε (SecretSigned W) := do
  let a ← absValue s
  let wide ← prim "to_wide" [w, W] (a.setWidth W)
  let negative ← isNegative s
  let o ← newFromAbs wide s.bound negative
  expect o

/-- `PublicSigned::abs`, src/uint/public_signed.rs:136-142: branches on the sign of the public number -/
def publicAbs (s : PublicSigned w) : Timed ε (BitVec w) := do
  let b ← branch s.isNegative
  if b then prim "wrapping_sub" [w] s.neg.value else return s.value

/-- `SecretSigned::mul_wide_public`, src/uint/secret_signed.rs:204-217 -/
def mulWidePublic {w₁ w₂ : Nat} (s : SecretSigned w₁) (rhs : PublicSigned w₂) : Timed ε (SecretSigned (w₁ + w₂)) := do
  let a ← absValue s
  let r ← publicAbs rhs
  let product ← prim "mul_wide" [w₁, w₂] (a.setWidth (w₁ + w₂) * r.setWidth (w₁ + w₂))
  let negative ← isNegative s
  let o ← newFromAbs product (s.bound + rhs.bound) (negative ^^ rhs.isNegative)
  expect o

/-- The common part of `checked_add`, `checked_sub` and `checked_mul`, src/uint/secret_signed.rs:224-292, and of the operators that call them
(442-531): the new bound is computed from the bounds and compared with the width. -/
def checked (bounds : List Nat) (bound : Nat) (op : String) (v : BitVec w) : Timed ε (SecretSigned w) := do
  let newBound ← vartime "bound" bounds bound
  let inRange ← prim "ct_lt" [] (decide (newBound < w))
  let value ← prim op [w] v
  expect (if inRange then some ⟨newBound, value⟩ else none)

/-- `+`, src/uint/secret_signed.rs:224-232, 442-462 -/
def add (a b : SecretSigned w) : Timed ε (SecretSigned w) := checked [a.bound, b.bound] (max a.bound b.bound + 1) "wrapping_add" (a.value + b.value)

/-- `-`, src/uint/secret_signed.rs:254-262, 464-473 -/
def sub (a b : SecretSigned w) : Timed ε (SecretSigned w) := checked [a.bound, b.bound] (max a.bound b.bound + 1) "wrapping_sub" (a.value - b.value)

/-- `*`, src/uint/secret_signed.rs:269-277, 475-495 -/
def mul (a b : SecretSigned w) : Timed ε (SecretSigned w) := checked [a.bound, b.bound] (a.bound + b.bound) "wrapping_mul" (a.value * b.value)

/-- `+` with a public number, src/uint/secret_signed.rs:239-247, 497-507 -/
def addPublic (a : SecretSigned w) (b : PublicSigned w) : Timed ε (SecretSigned w) :=
  checked [a.bound, b.bound] (max a.bound b.bound + 1) "wrapping_add" (a.value + b.value)

/-- `*` with a public number, src/uint/secret_signed.rs:284-292, 509-531 -/
def mulPublic (a : SecretSigned w) (b : PublicSigned w) : Timed ε (SecretSigned w) :=
  checked [a.bound, b.bound] (a.bound + b.bound) "wrapping_mul" (a.value * b.value)

/-! ## Exponentiation, commitments, encryption

`m` is the width of the integers in Montgomery form. -/

/-- `Exponentiable<SecretSigned>::pow`, src/uint/traits.rs:88-99. `pow_bounded_exp` is variable-time in the bound of the exponent only. -/
def powSecret (m : Nat) {n : Nat} (a : ZMod n) (e : SecretSigned w) : Timed ε (ZMod n) := do
  let absExp ← abs e
  let absResult ← prim "pow_bounded_exp" [m, w, e.bound] (powBounded a absExp.value.toNat e.bound)
  let inv ← prim "invert" [m] (invMod? absResult)
  let invResult ← expect inv
  let negative ← isNegative e
  select m absResult invResult negative

/-- `Exponentiable<SecretUnsigned>::pow`, src/uint/traits.rs:101-109 -/
def powUnsigned (m : Nat) {n : Nat} (a : ZMod n) (e : SecretUnsigned w) : Timed ε (ZMod n) :=
  prim "pow_bounded_exp" [m, w, e.bound] (powBounded a e.value.toNat e.bound)

/-- `Exponentiable<PublicSigned>::pow`, src/uint/traits.rs:111-125: branches on the sign -/
def powPublic (m : Nat) {n : Nat} (a : ZMod n) (e : PublicSigned w) : Timed ε (ZMod n) := do
  let absExp ← publicAbs e
  let absResult ← prim "pow_bounded_exp" [m, w, e.bound] (powBounded a absExp.toNat e.bound)
  let b ← branch e.isNegative
  if b then do
    let inv ← prim "invert" [m] (invMod? absResult)
    expect inv
  else return absResult

/-- `RPParams::commit` with secret arguments, src/paillier/ring_pedersen.rs:128-133 -/
def commitSecret (m : Nat) {N : Nat} (rp : RPParams N) {w₁ w₂ : Nat} (value : SecretSigned w₁) (randomizer : SecretSigned w₂) :
    Timed ε (ZMod N) := do
  let a ← powSecret m rp.s value
  let b ← powSecret m rp.t randomizer
  prim "mul_mod" [m] (a * b)

/-- `Ciphertext::new_with_randomizer_inner`, src/paillier/encryption.rs:98-133; `w` is the width of the randomizer, `W` that of the plaintext and
of the numbers modulo `N^2`. The modulus is public, positive and within its bound. -/
def encInner (w : Nat) (N : Nat) (absPlaintext : SecretUnsigned W) (randomizer : Nat) (negative : Bool) : Timed ε (Ct N) := do
  let m ← prim "to_montgomery" [W] ((absPlaintext.value.toNat : Nat) : Ct N)
  let product ← prim "mul_mod" [W] (m * (N : Ct N))
  let product ← prim "conditional_negate" [W] (if negative then -product else product)
  let factor1 ← prim "add_mod" [W] (product + 1)
  let wide ← prim "to_wide" [w, W] randomizer
  let wide ← prim "to_montgomery" [W] (wide : Ct N)
  let factor2 ← vartime "pow_by_modulus" [W, N] (wide ^ N)
  prim "mul_mod" [W] (factor1 * factor2)

/-- `Ciphertext::new_with_randomizer`, src/paillier/encryption.rs:166-172 -/
def enc (W : Nat) (N : Nat) (plaintext : SecretSigned w) (randomizer : Nat) : Timed ε (Ct N) := do
  let a ← abs plaintext
  let wide ← prim "to_wide" [w, W] (a.toWide W)
  let negative ← isNegative plaintext
  encInner w N wide randomizer negative

/-- `Ciphertext::new_wide_with_randomizer`, src/paillier/encryption.rs:174-180 -/
def encWide (w : Nat) (N : Nat) (plaintext : SecretSigned W) (randomizer : Nat) : Timed ε (Ct N) := do
  let a ← abs plaintext
  let negative ← isNegative plaintext
  encInner w N a randomizer negative

/-- `Extendable::try_from_wide`, src/uint/traits.rs:151-165, of a number of width `W` to one of width `w`: compares the result of `bits_vartime` -/
def tryFromWide (w : Nat) (x : Nat) : Timed ε (Option Nat) := do
  let bits ← vartime "bits_vartime" [bitLen x] (bitLen x)
  let tooLarge ← branch (decide (bits > w))
  return if tooLarge then none else some x

/-- `Ciphertext::decrypt`, src/paillier/encryption.rs:205-235 -/
def decrypt {p q : Nat} (w W modulusBits : Nat) (sk : SecretKey p q) (c : Ct (p * q)) : Timed ε SInt := do
  let totient ← unsignedNew (BitVec.ofNat w sk.totient) modulusBits
  let totient ← expect totient
  let totient ← prim "to_wide" [w, W] (totient.toWide W)
  let t ← powUnsigned W c totient
  let x ← prim "sub_mod" [W] (t - 1)
  let x ← prim "div" [W] (x.val / (p * q))
  let x ← tryFromWide w x
  let x ← expect x
  let x ← prim "to_montgomery" [w] ((x : Nat) : ZMod (p * q))
  let positive ← prim "mul_mod" [w] (x * sk.invTotient).val
  let o ← newModulo (BitVec.ofNat w positive) (BitVec.ofNat w (p * q)) modulusBits
  let s ← expect o
  return s.toSInt

/-- `Ciphertext::derive_randomizer`, src/paillier/encryption.rs:238-261; the ciphertext is public, the bound of `inv_modulus` is `MODULUS_BITS`. -/
def deriveRandomizer {p q : Nat} (w W modulusBits : Nat) (sk : SecretKey p q) (c : Ct (p * q)) : Timed ε Nat := do
  let x ← prim "rem" [W] (c.val % (p * q))
  let x ← tryFromWide w x
  let x ← expect x
  let x ← prim "to_montgomery" [w] ((x : Nat) : ZMod (p * q))
  let r ← powUnsigned w x (⟨modulusBits, BitVec.ofNat w sk.invModulus⟩ : SecretUnsigned w)
  prim "retrieve" [w] r.val

/-! ## Conversions to and from scalars -/

/-- `secret_scalar_from_wide_uint`, src/params/conversion.rs:102-121. `Scalar::try_from_be_bytes`, src/curve/arithmetic.rs:136-144, calls
`from_repr_vartime` with the secret. -/
def secretScalarFromWideUint (q : Nat) (v : BitVec W) : Timed ε (ZMod q) := do
  let r ← prim "rem" [W] (v.toNat % (Conv.curveOrder W q).toNat)
  let s ← vartime "from_repr_vartime" [r] (some ((r : Nat) : ZMod q))
  expect s

/-- `secret_scalar_from_signed`, src/params/conversion.rs:160-165 -/
def secretScalarFromSigned (q W : Nat) (s : SecretSigned w) : Timed ε (ZMod q) := do
  let a ← absValue s
  let wide ← prim "to_wide" [w, W] (a.setWidth W)
  let r ← secretScalarFromWideUint q wide
  let minus ← prim "scalar_neg" [] (-r)
  let negative ← isNegative s
  select 0 r minus negative

/-- `secret_signed_from_scalar`, src/params/conversion.rs:145-157 -/
def secretSignedFromScalar {q : Nat} (w numBits : Nat) (x : ZMod q) : Timed ε (SecretSigned w) := do
  let v ← prim "secret_uint_from_scalar" [w] (Conv.uintFromScalar w x)
  let o ← newModulo v (Conv.curveOrder w q) numBits
  expect o

/-! ## Secret primes -/

/-- `SecretKeyPaillier::rns_split`, src/paillier/keys.rs:193-206; `w` is the width of a modulus, `h` that of a prime -/
def rnsSplit (w h p q : Nat) (elem : Nat) : Timed ε (ZMod p × ZMod q) := do
  let a ← prim "rem" [w] (elem % p)
  let b ← prim "rem" [w] (elem % q)
  let a ← tryFromWide h a
  let a ← expect a
  let b ← tryFromWide h b
  let b ← expect b
  let a ← prim "to_montgomery" [h] ((a : Nat) : ZMod p)
  let b ← prim "to_montgomery" [h] ((b : Nat) : ZMod q)
  return (a, b)

/-- `SecretKeyPaillier::sqrt_part`, src/paillier/keys.rs:208-230 -/
def sqrtPart (h primeBits : Nat) {p : Nat} (x : ZMod p) : Timed ε (Option (ZMod p)) := do
  let quarter ← vartime "wrapping_shr_vartime" [2] (p / 4)
  let power ← prim "wrapping_add" [h] (quarter + 1)
  let candidate ← prim "pow_bounded_exp" [h, h, primeBits - 1] (powBounded x power (primeBits - 1))
  let square ← prim "square" [h] (candidate * candidate)
  let found ← branch (decide (square = x))
  return if found then some candidate else none

/-- `SecretKeyPaillier::rns_sqrt`, src/paillier/keys.rs:232-245 -/
def rnsSqrt (h primeBits : Nat) {p q : Nat} (rns : ZMod p × ZMod q) : Timed ε (Option (ZMod p × ZMod q)) := do
  let a ← sqrtPart h primeBits rns.1
  let b ← sqrtPart h primeBits rns.2
  let both ← branch (a.isSome && b.isSome)
  return if both then a.bind fun a => b.map fun b => (a, b) else none

/-- The first lines of `SecretKeyPaillier::new`, src/paillier/keys.rs:75-82: the Montgomery parameters of the primes. What follows works on
the numbers modulo the primes and their product. -/
def keyParams (p q : Nat) : Timed ε Unit := do
  let oddP ← expect (if p % 2 = 1 then some p else none)
  let _ ← vartime "new_params_vartime" [oddP] ()
  let oddQ ← expect (if q % 2 = 1 then some q else none)
  vartime "new_params_vartime" [oddQ] ()

end Timing
end Synedrion
