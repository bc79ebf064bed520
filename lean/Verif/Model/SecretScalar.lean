import Verif.Model.SecretKeys
import Verif.Model.Conversion

/-!
# Secret scalars as bytes and as integers, in memory

src/params/conversion.rs:102-173 and the serialization of secret scalars, on the memory of `Model/SecretBox`, with the arrays and copies used by the encoding of `Scalar` (src/curve/arithmetic.rs:123-125, 136-143,
209-215) that `Model/SecretBox` takes as a parameter. A scalar is in memory as its residue, bytes as the number they denote. What is inside the elliptic curve library, and the bytes of single limbs, are not modelled.
-/

namespace Synedrion.SecretScalar

open SecretBox

/-- `Scalar::to_be_bytes` of `BoxedEncoding`, src/curve/arithmetic.rs:209-211: the scalar is copied and given by value (123-125), and the array is copied to the heap. -/
def toBeBytes (a : Nat) : M Nat Nat := do
  let copy ← alloc (← expose a)
  let array ← alloc (← expose copy)
  forget copy
  let boxed ← alloc (← expose array)
  forget array
  return boxed

/-- `Scalar::try_from_be_bytes`, src/curve/arithmetic.rs:136-143, of as many bytes as a scalar has; `v` is the number they denote. The array is given by value. -/
def tryFromBeBytes (q v : Nat) : M Nat (Option Nat) := do
  let array ← alloc v
  let v ← expose array
  forget array
  return if v < q then some v else none

/-- `Secret::serialize` of a scalar, src/tools/secret.rs:70-73; the result is what the serializer is given. -/
def serialize (a : Nat) : M Nat Nat := do
  let bytes ← toBeBytes a
  let out ← expose bytes
  wipe bytes
  return out

/-- `Secret::deserialize` of a scalar, src/tools/secret.rs:80-84, from as many bytes as a scalar has -/
def deserialize (q input : Nat) : M Nat (Option Nat) := do
  let bytes ← alloc input
  let res ← tryInitWith do tryFromBeBytes q (← expose bytes)
  wipe bytes
  return res

/-- `secret_scalar_from_wide_uint`, src/params/conversion.rs:102-121, with `%` (src/tools/secret.rs:384-388); a scalar has `len` bytes. `none` if the code panics. -/
def scalarFromWideUint (q len a : Nat) : M Nat (Option Nat) := do
  let r ← clone a
  assign r ((← expose r) % q)
  let repr ← alloc (← expose r)
  let res ← tryInitWith do tryFromBeBytes q ((← expose repr) % 256 ^ len)
  wipe repr
  wipe r
  return res

/-- `secret_uint_from_scalar`, src/params/conversion.rs:123-140; the integer is long enough. -/
def uintFromScalar (a : Nat) : M Nat Nat := do
  let scalarBytes ← toBeBytes a
  let repr ← alloc 0
  assign repr (← expose scalarBytes)
  let res ← initWith (expose repr)
  wipe repr
  wipe scalarBytes
  return res

/-- `secret_signed_from_scalar`, src/params/conversion.rs:145-157 -/
def signedFromScalar (w q numBits a : Nat) : M Nat (Out Unit SecretBounded.Handle) := do
  let u ← uintFromScalar a
  let r ← SecretBounded.newModulo w u (BitVec.ofNat w q) numBits
  return SecretBounded.expect r

/-- The last line of `secret_scalar_from_signed` and `secret_scalar_from_wide_signed`, src/params/conversion.rs:164, 172; `-&abs_value` (src/tools/secret.rs:101-103) is a temporary box, and clones its argument by value. -/
def selectSign (q s : Nat) (isNegative : Bool) : M Nat Nat := do
  let neg ← initWith do
    let copy ← alloc (← expose s)
    let v ← expose copy
    forget copy
    return (-(v : ZMod q)).val
  let r ← conditionalSelect s neg isNegative
  wipe neg
  wipe s
  return r

/-- `secret_scalar_from_signed`, src/params/conversion.rs:160-165 -/
def scalarFromSigned (w q len a : Nat) : M Nat (Option Nat) := do
  let abs ← SecretBounded.absValue w a
  let wide ← initWith (expose abs)
  let s ← scalarFromWideUint q len wide
  wipe wide
  wipe abs
  match s with
  | some s => return some (← selectSign q s (← SecretBounded.isNegative w a))
  | none => return none

/-- `secret_scalar_from_wide_signed`, src/params/conversion.rs:168-173 -/
def scalarFromWideSigned (w q len a : Nat) : M Nat (Option Nat) := do
  let abs ← SecretBounded.absValue w a
  let s ← scalarFromWideUint q len abs
  wipe abs
  match s with
  | some s => return some (← selectSign q s (← SecretBounded.isNegative w a))
  | none => return none

end Synedrion.SecretScalar
