import Verif.Model.Signed
import Mathlib.Data.ZMod.Basic

/-!
# Conversions between curve scalars and integers (`src/params/conversion.rs`)

A scalar of a curve of order `q` is an element of `ZMod q`.  Copying big-endian byte representations between integer types is
collapsed to the integer it denotes; the "fits" requirements appear as hypotheses of the theorems.  `w` is the width of
`PaillierParams::Uint`, `W` that of `WideUint`.
-/

namespace Synedrion.Conv

variable {ε : Type} {q w W : Nat}

/-- `uint_from_scalar` / `secret_uint_from_scalar`, src/params/conversion.rs:34-46, 123-140 -/
def uintFromScalar (w : Nat) (x : ZMod q) : BitVec w := BitVec.ofNat w x.val

/-- `curve_order`, src/params/conversion.rs:13-28 -/
def curveOrder (w q : Nat) : BitVec w := BitVec.ofNat w q

/-- `public_signed_from_scalar`, src/params/conversion.rs:51-59 -/
def publicSignedFromScalar (w : Nat) (x : ZMod q) : Out ε (PublicSigned w) :=
  let orderBits := bitLen (curveOrder w q).toNat
  Out.ofOptionPanic (PublicSigned.newPositive (uintFromScalar w x) orderBits)

/-- `scalar_from_wide_uint` / `secret_scalar_from_wide_uint`, src/params/conversion.rs:62-76, 102-121 -/
def scalarFromWideUint (q : Nat) (v : BitVec W) : ZMod q :=
  ((v.toNat % (curveOrder W q).toNat : Nat) : ZMod q)

/-- `scalar_from_signed`, src/params/conversion.rs:79-88 -/
def scalarFromSigned (q W : Nat) (s : PublicSigned w) : ZMod q :=
  let absValue := scalarFromWideUint q (s.abs.setWidth W)
  if s.isNegative then -absValue else absValue

/-- `scalar_from_wide_signed`, src/params/conversion.rs:90-99 -/
def scalarFromWideSigned (q : Nat) (s : PublicSigned W) : ZMod q :=
  let absValue := scalarFromWideUint q s.abs
  if s.isNegative then -absValue else absValue

/-- `secret_signed_from_scalar`, src/params/conversion.rs:145-157; `numBits` is `PrimeField::NUM_BITS`. -/
def secretSignedFromScalar (w numBits : Nat) (x : ZMod q) : Out ε (SecretSigned w) :=
  (SecretSigned.newModulo (uintFromScalar w x) (curveOrder w q) numBits).bind Out.ofOptionPanic

/-- `secret_scalar_from_signed`, src/params/conversion.rs:160-165 -/
def secretScalarFromSigned (q W : Nat) (s : SecretSigned w) : ZMod q :=
  let absValue := scalarFromWideUint q (s.absValue.setWidth W)
  if s.isNegative then -absValue else absValue

/-- `secret_scalar_from_wide_signed`, src/params/conversion.rs:168-173 -/
def secretScalarFromWideSigned (q : Nat) (s : SecretSigned W) : ZMod q :=
  let absValue := scalarFromWideUint q s.absValue
  if s.isNegative then -absValue else absValue

end Synedrion.Conv
