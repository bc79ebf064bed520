import Verif.Model.SInt
import Verif.Spec.Ints

/-!
# Scheme parameters

Models `src/params/traits.rs`, `src/paillier/params.rs`, `src/params/k256.rs` and `src/params/dev.rs`.
-/

namespace Synedrion

/-- The constants of `SchemeParams` and `PaillierParams`, src/params/traits.rs:40-67, src/paillier/params.rs:15-79: bit sizes of the curve
order, the primes and the integer types. -/
structure Params where
  /-- `Scalar::NUM_BITS` -/
  numBits : Nat
  /-- `SECURITY_BITS` -/
  secBits : Nat
  /-- `PRIME_BITS` -/
  primeBits : Nat
  /-- `MODULUS_BITS` -/
  modBits : Nat
  /-- `HalfUint::BITS` -/
  half : Nat
  /-- `Uint::BITS` -/
  uint : Nat
  /-- `WideUint::BITS` -/
  wide : Nat
  /-- `ExtraWideUint::BITS` -/
  extra : Nat
  deriving DecidableEq

namespace Params

/-- `SECURITY_PARAMETER`, src/params/traits.rs:50 -/
def kappa (P : Params) : Nat := P.numBits
/-- `L_BOUND`, src/params/traits.rs:52 -/
def L (P : Params) : Nat := P.kappa
/-- `LP_BOUND`, src/params/traits.rs:54 -/
def LP (P : Params) : Nat := P.primeBits + P.L
/-- `EPS_BOUND`, src/params/traits.rs:56. An unsigned subtraction in a constant: if it were negative the crate would not compile, which
`compiles` records. -/
def EPS (P : Params) : Nat := P.primeBits - 2 * P.L

/-- The constant expressions of src/params/traits.rs:56 do not underflow. -/
def compiles (P : Params) : Prop := 2 * P.L ≤ P.primeBits

/-- `PaillierParams::SELF_CONSISTENT`, src/paillier/params.rs:73-79 -/
def PaillierConsistent (P : Params) : Prop :=
  P.modBits = 2 * P.primeBits ∧ P.primeBits ≤ P.half ∧ P.modBits ≤ P.uint ∧ P.half ≤ P.uint ∧ 2 * P.modBits ≤ P.wide ∧ P.uint ≤ P.wide

/-- `SchemeParams::SELF_CONSISTENT`, src/params/traits.rs:69-92 -/
def SchemeConsistent (P : Params) : Prop :=
  P.numBits = P.kappa ∧ P.kappa ≤ P.L ∧ P.L + P.kappa ≤ P.EPS ∧ P.L * 3 + P.EPS ≤ P.LP ∧ P.LP + P.EPS + 1 + 20 ≤ P.modBits ∧
  P.L * 2 + P.EPS = P.primeBits ∧ P.modBits * 2 + P.L + P.EPS < P.extra

/-- Both checks, as asserted at compile time for the shipped sets. -/
def SelfConsistent (P : Params) : Prop := P.compiles ∧ P.PaillierConsistent ∧ P.SchemeConsistent

instance (P : Params) : Decidable P.SelfConsistent := by
  unfold SelfConsistent compiles PaillierConsistent SchemeConsistent; infer_instance

/-- `ProductionParams112`, src/params/k256.rs:24-62 (secp256k1, 64-bit limbs) -/
def production112 : Params := ⟨256, 112, 1024, 2048, 1024, 2048, 4096, 5120⟩
/-- `ProductionParams128`, src/params/k256.rs:38-76 -/
def production128 : Params := ⟨256, 128, 1536, 3072, 1536, 3072, 6144, 7680⟩
/-- `TestParams`, src/params/dev.rs:23-48 (TinyCurve32) -/
def test : Params := ⟨32, 16, 128, 256, 128, 256, 512, 640⟩

end Params

/-- What `random_in_exponent_range(exp)` (and `from_xof_reader_in_exponent_range`) returns, src/uint/secret_signed.rs:303-328: any value of
`±2^exp`, with `exp` as the declared bound. Property C04 shows the bit-level samplers return exactly these. -/
def SInt.IsDraw (exp : Nat) (a : SInt) : Prop := a.bound = exp ∧ Spec.InPm exp a.val

/-- What `random_in_exponent_range_scaled(exp, scale)` returns, src/uint/secret_signed.rs:339-371, 382-424. -/
def SInt.IsScaledDraw (exp scale : Nat) (a : SInt) : Prop := a.bound = exp + bitLen scale ∧ Spec.InPmScaled exp scale a.val

end Synedrion
