import Mathlib.Data.ZMod.Basic
import Mathlib.Algebra.Module.Defs
import Mathlib.Algebra.Field.ZMod

/-!
# Signatures (`src/curve/ecdsa.rs`)

The curve itself and the `ecdsa` crate are outside the repository. `Curve` lists what is used of the curve; `verifyPrehash`, `isHigh` and `recover` follow
the `ecdsa` crate (version 0.16).
-/

namespace Synedrion

/-- The operations of the curve backend that the code uses besides the group operations. -/
structure Curve (G : Type) where
  /-- the generator -/
  g : G
  /-- the affine x coordinate as an integer; zero for the identity -/
  x : G → Nat
  /-- whether the affine y coordinate is odd -/
  yOdd : G → Bool
  /-- `DecompressPoint::decompress` -/
  decompress : Nat → Bool → Option G
  /-- the bit width of `Curve::Uint` -/
  uintBits : Nat

/-- `RecoveryId`: bit 0 is the parity of y, bit 1 tells that the x coordinate was reduced. -/
structure RecoveryId where
  yOdd : Bool
  xReduced : Bool
  deriving DecidableEq, Repr

/-- All ids, in the order of `RecoveryId::trial_recovery_from_prehash` -/
def RecoveryId.all : List RecoveryId := [⟨false, false⟩, ⟨true, false⟩, ⟨false, true⟩, ⟨true, true⟩]

/-- `RecoverableSignature`, src/curve/ecdsa.rs:14-18 -/
structure RecoverableSignature (q : Nat) where
  r : ZMod q
  s : ZMod q
  recoveryId : RecoveryId
  deriving DecidableEq

section
variable {q : Nat} [Fact q.Prime] {G : Type} [AddCommGroup G] [Module (ZMod q) G] [DecidableEq G]

/-- `Point::x_coordinate`, src/curve/arithmetic.rs:250-255 -/
def Curve.xCoordinate (C : Curve G) (q : Nat) (p : G) : ZMod q := (C.x p : ZMod q)

/-- `IsHigh::is_high` of a scalar: it exceeds half of the order. -/
def isHigh (s : ZMod q) : Bool := decide (q / 2 < s.val)

/-- `Signature::normalize_s` and `unwrap_or`, src/curve/ecdsa.rs:37 -/
def normalizeS (s : ZMod q) : ZMod q := if isHigh s then -s else s

/-- `VerifyingKey::verify_prehash`, for a prehash that reduces to `z` (crate `ecdsa`, `hazmat::verify_prehashed`). For secp256k1 high values of `s` are
rejected too, which does not matter after `normalizeS`. -/
def verifyPrehash (C : Curve G) (key : G) (z r s : ZMod q) : Bool :=
  let u1 := z * s⁻¹
  let u2 := r * s⁻¹
  decide (C.xCoordinate q (u1 • C.g + u2 • key) = r)

/-- `VerifyingKey::recover_from_prehash` (crate `ecdsa`) -/
def recover (C : Curve G) (z r s : ZMod q) (id : RecoveryId) : Option G :=
  if id.xReduced ∧ 2 ^ C.uintBits ≤ r.val + q then none
  else
    match C.decompress (if id.xReduced then r.val + q else r.val) id.yOdd with
    | none => none
    | some capR =>
      let u1 := -(r⁻¹ * z)
      let u2 := r⁻¹ * s
      let key := u1 • C.g + u2 • capR
      if key = 0 then none
      else if verifyPrehash C key z r s then some key else none

/-- `RecoveryId::trial_recovery_from_prehash` (crate `ecdsa`) -/
def trialRecovery (C : Curve G) (key : G) (z r s : ZMod q) : Option RecoveryId :=
  RecoveryId.all.find? fun id => decide (recover C z r s id = some key)

/-- `RecoverableSignature::from_scalars`, src/curve/ecdsa.rs:31-51. `Signature::from_scalars` (crate `ecdsa`) rejects zeros, `VerifyingKey::from_affine`
rejects the identity. -/
def RecoverableSignature.fromScalars (C : Curve G) (r s : ZMod q) (vkey : G) (message : ZMod q) : Option (RecoverableSignature q) :=
  if r = 0 ∨ s = 0 then none
  else
    let s := normalizeS s
    if vkey = 0 then none
    else match trialRecovery C vkey message r s with
      | none => none
      | some id => some ⟨r, s, id⟩

end
end Synedrion
