import Verif.Model.Out

/-!
# Bounded signed integers (`src/uint/{secret_signed,public_signed,secret_unsigned}.rs`)

`T: crypto_bigint::Uint` with `T::BITS = w` is `BitVec w`.  `u32` bounds are `Nat` (all bounds in the code are far
below `2^32`).  Secret wrappers are transparent; `CtOption` is `Option`.
-/

namespace Synedrion

/-- `Uint::bits`: the bit length of an unsigned integer (crypto-bigint). -/
def bitLen (n : Nat) : Nat := if n = 0 then 0 else n.log2 + 1

/-- src/uint/secret_unsigned.rs:14-18 -/
structure SecretUnsigned (w : Nat) where
  bound : Nat
  value : BitVec w
  deriving DecidableEq, Repr

/-- src/uint/secret_signed.rs:16-20 -/
structure SecretSigned (w : Nat) where
  bound : Nat
  value : BitVec w
  deriving DecidableEq, Repr

/-- src/uint/public_signed.rs:76-80 -/
structure PublicSigned (w : Nat) where
  bound : Nat
  value : BitVec w
  deriving DecidableEq, Repr

variable {ε : Type} {w : Nat}

namespace SecretUnsigned

/-- `SecretUnsigned::new`, src/uint/secret_unsigned.rs:37-41 -/
def new (value : BitVec w) (bound : Nat) : Option (SecretUnsigned w) :=
  if bound ≤ w ∧ bitLen value.toNat ≤ bound then some ⟨bound, value⟩ else none

/-- `SecretUnsigned::add_mod`, src/uint/secret_unsigned.rs:43-52.
`Uint::add_mod` assumes both operands reduced: it adds with carry and subtracts the modulus at most once. -/
def addMod (a b : SecretUnsigned w) (modulus : BitVec w) : SecretUnsigned w :=
  let sum := a.value.toNat + b.value.toNat
  ⟨bitLen modulus.toNat, BitVec.ofNat w (if sum < modulus.toNat then sum else sum - modulus.toNat)⟩

/-- `SecretUnsigned::to_wide`, src/uint/secret_unsigned.rs:84-93 -/
def toWide (W : Nat) (a : SecretUnsigned w) : SecretUnsigned W := ⟨a.bound, a.value.setWidth W⟩

end SecretUnsigned

namespace PublicSigned

/-- `is_negative`, src/uint/public_signed.rs:132-134 -/
def isNegative (s : PublicSigned w) : Bool := s.value.msb

/-- `neg`, src/uint/public_signed.rs:165-170 -/
def neg (s : PublicSigned w) : PublicSigned w := ⟨s.bound, 0#w - s.value⟩

/-- `abs`, src/uint/public_signed.rs:136-142 -/
def abs (s : PublicSigned w) : BitVec w := if s.isNegative then s.neg.value else s.value

/-- `new_from_abs`, src/uint/public_signed.rs:86-98 -/
def newFromAbs (absValue : BitVec w) (bound : Nat) (isNeg : Bool) : Option (PublicSigned w) :=
  if bound ≥ w ∨ bitLen absValue.toNat > bound then none
  else some ⟨bound, if isNeg then -absValue else absValue⟩

/-- `new_positive`, src/uint/public_signed.rs:103-105 -/
def newPositive (value : BitVec w) (bound : Nat) : Option (PublicSigned w) :=
  newFromAbs value bound false

/-- `new_from_unsigned`, src/uint/public_signed.rs:110-116 -/
def newFromUnsigned (value : BitVec w) (bound : Nat) : Option (PublicSigned w) :=
  let result : PublicSigned w := ⟨bound, value⟩
  if bound ≥ w ∨ bitLen result.abs.toNat > bound then none else some result

/-- `one`, src/uint/public_signed.rs:118-123 -/
def one : PublicSigned w := ⟨1, 1#w⟩

/-- `zero`, src/uint/public_signed.rs:125-130 -/
def zero : PublicSigned w := ⟨0, 0#w⟩

/-- `is_in_exponent_range`, src/uint/public_signed.rs:156-162.  `exp - 1` underflows (panics) for `exp = 0`; the `<<`
operator of `Uint` panics when the shift reaches the width. -/
def isInExponentRange (s : PublicSigned w) (exp : Nat) : Out ε Bool :=
  if exp = 0 ∨ exp - 1 ≥ w then .panic
  else
    let abs := s.abs
    let inBound := decide (bitLen abs.toNat < exp)
    let isHighEnd := decide (abs = 1#w <<< (exp - 1)) && !s.isNegative
    .ok (inBound || isHighEnd)

/-- `from_xof_reader_in_exponent_range`, src/uint/public_signed.rs:181-197; `draw` is the integer produced by
`T::from_xof_reader(reader, exp)`. -/
def fromXofInExponentRange (exp : Nat) (draw : BitVec w) : Out ε (PublicSigned w) :=
  if exp = 0 ∨ exp ≥ w then .panic
  else
    let shift := (1#w <<< (exp - 1)) - 1#w
    Out.ofOptionPanic (newFromUnsigned (draw - shift) exp)

/-- `to_wide`, src/uint/public_signed.rs:205-213 (`W ≥ w` is a compile-time check, traits.rs:139-143). -/
def toWide (W : Nat) (s : PublicSigned w) : Out ε (PublicSigned W) :=
  Out.ofOptionPanic (newFromAbs (s.abs.setWidth W) s.bound s.isNegative)

end PublicSigned

namespace SecretSigned

/-- `is_negative`, src/uint/secret_signed.rs:55-58 -/
def isNegative (s : SecretSigned w) : Bool := s.value.msb

/-- `neg`, src/uint/secret_signed.rs:69-74 -/
def neg (s : SecretSigned w) : SecretSigned w := ⟨s.bound, -s.value⟩

/-- `new_positive`, src/uint/secret_signed.rs:36-45.  The declared `bound` is compared with the width only. -/
def newPositive (value : BitVec w) (bound : Nat) : Option (SecretSigned w) :=
  let s : SecretSigned w := ⟨bound, value⟩
  if (bound < w ∧ bitLen value.toNat < w) ∧ s.isNegative = false then some s else none

/-- `zero`, src/uint/secret_signed.rs:47-52 -/
def zero : SecretSigned w := ⟨0, 0#w⟩

/-- `to_public`, src/uint/secret_signed.rs:64-66 -/
def toPublic (s : SecretSigned w) : Out ε (PublicSigned w) :=
  Out.ofOptionPanic (PublicSigned.newFromUnsigned s.value s.bound)

/-- `abs_value`, src/uint/secret_signed.rs:81-83 -/
def absValue (s : SecretSigned w) : BitVec w := if s.isNegative then -s.value else s.value

/-- `abs`, src/uint/secret_signed.rs:86-92 -/
def abs (s : SecretSigned w) : Out ε (SecretUnsigned w) :=
  Out.ofOptionPanic (SecretUnsigned.new s.absValue s.bound)

/-- `new_from_unsigned`, src/uint/secret_signed.rs:97-104 -/
def newFromUnsigned (value : BitVec w) (bound : Nat) : Option (SecretSigned w) :=
  let isNeg := value.msb
  let abs := if isNeg then -value else value
  if bound < w ∧ bitLen abs.toNat ≤ bound then some ⟨bound, value⟩ else none

/-- `new_from_abs`, src/uint/secret_signed.rs:110-115 -/
def newFromAbs (absValue : BitVec w) (bound : Nat) (isNeg : Bool) : Option (SecretSigned w) :=
  newFromUnsigned (if isNeg then -absValue else absValue) bound

/-- `new_modulo`, src/uint/secret_signed.rs:124-140.  `modulus - positive_value` is evaluated in every case and panics on
underflow; `modulus_bits - 1` underflows for 0. -/
def newModulo (positiveValue modulus : BitVec w) (modulusBits : Nat) :
    Out ε (Option (SecretSigned w)) :=
  let halfModulus := modulus >>> 1
  let isNeg := decide (positiveValue.toNat > halfModulus.toNat)
  if modulus.toNat < positiveValue.toNat then .panic
  else if modulusBits = 0 then .panic
  else
    let negativeValue := -(modulus - positiveValue)
    let value := if isNeg then negativeValue else positiveValue
    .ok (newFromUnsigned value (modulusBits - 1))

/-- `is_in_exponent_range`, src/uint/secret_signed.rs:142-155.  `wrapping_shl` gives 0 when the shift reaches the width. -/
def isInExponentRange (s : SecretSigned w) (exp : Nat) : Out ε Bool :=
  s.abs.bind fun abs =>
    if exp = 0 then .panic
    else
      let shifted := 1#w <<< (exp - 1)
      let mask := -shifted
      let masked := abs.value &&& mask
      let inBound := decide (masked = 0#w)
      let isHighEnd := decide (abs.value = shifted) && !s.isNegative
      .ok (inBound || isHighEnd)

/-- `assert_exponent_range`, src/uint/secret_signed.rs:164-166 -/
def assertExponentRange (s : SecretSigned w) (exp : Nat) : Out ε Unit :=
  (s.isInExponentRange exp).bind fun b => Out.assert b

/-- `ensure_exponent_range`, src/uint/secret_signed.rs:175-185 (`T::BITS ≥ 1`). -/
def ensureExponentRange (s : SecretSigned w) (exp : Nat) : Out ε (Option (SecretSigned w)) :=
  let inBounds := decide (exp < w - 1)
  (s.isInExponentRange exp).bind fun inRange =>
    .ok (if inRange && inBounds then some ⟨exp + 1, s.value⟩ else none)

/-- `to_wide`, src/uint/secret_signed.rs:193-201 -/
def toWide (W : Nat) (s : SecretSigned w) : Out ε (SecretSigned W) :=
  Out.ofOptionPanic (newFromAbs (s.absValue.setWidth W) s.bound s.isNegative)

/-- `mul_wide_public`, src/uint/secret_signed.rs:204-217; the product of a `w₁`- and a `w₂`-bit magnitude is exact in
`w₁ + w₂` bits (`MulWide`, src/uint/traits.rs:175-190). -/
def mulWidePublic {w₁ w₂ : Nat} (s : SecretSigned w₁) (rhs : PublicSigned w₂) :
    Out ε (SecretSigned (w₁ + w₂)) :=
  let absValue : BitVec (w₁ + w₂) := s.absValue.setWidth (w₁ + w₂) * rhs.abs.setWidth (w₁ + w₂)
  Out.ofOptionPanic
    (newFromAbs absValue (s.bound + rhs.bound) (s.isNegative ^^ rhs.isNegative))

/-- `checked_add`, src/uint/secret_signed.rs:224-232 -/
def checkedAdd (a b : SecretSigned w) : Option (SecretSigned w) :=
  let bound := max a.bound b.bound + 1
  if bound < w then some ⟨bound, a.value + b.value⟩ else none

/-- `checked_add` with a public operand, src/uint/secret_signed.rs:239-247 -/
def checkedAddPublic (a : SecretSigned w) (b : PublicSigned w) : Option (SecretSigned w) :=
  let bound := max a.bound b.bound + 1
  if bound < w then some ⟨bound, a.value + b.value⟩ else none

/-- `checked_sub`, src/uint/secret_signed.rs:254-262 -/
def checkedSub (a b : SecretSigned w) : Option (SecretSigned w) :=
  let bound := max a.bound b.bound + 1
  if bound < w then some ⟨bound, a.value - b.value⟩ else none

/-- `checked_mul`, src/uint/secret_signed.rs:269-277 -/
def checkedMul (a b : SecretSigned w) : Option (SecretSigned w) :=
  let bound := a.bound + b.bound
  if bound < w then some ⟨bound, a.value * b.value⟩ else none

/-- `checked_mul` with a public operand, src/uint/secret_signed.rs:284-292 -/
def checkedMulPublic (a : SecretSigned w) (b : PublicSigned w) : Option (SecretSigned w) :=
  let bound := a.bound + b.bound
  if bound < w then some ⟨bound, a.value * b.value⟩ else none

/-- `+`, src/uint/secret_signed.rs:442-462 -/
def add (a b : SecretSigned w) : Out ε (SecretSigned w) := Out.ofOptionPanic (a.checkedAdd b)
/-- `-`, src/uint/secret_signed.rs:464-473 -/
def sub (a b : SecretSigned w) : Out ε (SecretSigned w) := Out.ofOptionPanic (a.checkedSub b)
/-- `*`, src/uint/secret_signed.rs:475-495 -/
def mul (a b : SecretSigned w) : Out ε (SecretSigned w) := Out.ofOptionPanic (a.checkedMul b)
/-- `+` public, src/uint/secret_signed.rs:497-507 -/
def addPublic (a : SecretSigned w) (b : PublicSigned w) : Out ε (SecretSigned w) :=
  Out.ofOptionPanic (a.checkedAddPublic b)
/-- `*` public, src/uint/secret_signed.rs:509-531 -/
def mulPublic (a : SecretSigned w) (b : PublicSigned w) : Out ε (SecretSigned w) :=
  Out.ofOptionPanic (a.checkedMulPublic b)

/-- `Sum`, src/uint/secret_signed.rs:533-540 -/
def sum (l : List (SecretSigned w)) : Out ε (SecretSigned w) :=
  l.foldl (fun acc x => acc.bind fun a => a.add x) (.ok zero)

/-- `random_in_exponent_range`, src/uint/secret_signed.rs:303-328; `draw` is the result of
`T::random_mod(rng, 2^exp)`, i.e. any value below `2^exp`. -/
def randomInExponentRange (exp : Nat) (draw : BitVec w) : Out ε (SecretSigned w) :=
  if exp = 0 ∨ exp ≥ w then .panic
  else
    let shift := (1#w <<< (exp - 1)) - 1#w
    .ok ⟨exp, draw - shift⟩

/-- `random_in_exponent_range_scaled` (339-371) and `random_in_exponent_range_scaled_wide` (382-419) in
src/uint/secret_signed.rs.  `w` is the width whose `BITS` the assertion uses, `v` the width of `scale`, `W` the width of the
result; `draw` is the result of `random_mod(scale << exp)`.  `overflowing_shl_vartime` fails only when the shift reaches
the width `W` and silently drops high bits otherwise; `NonZero::new` fails for zero. -/
def randomInExponentRangeScaled (w : Nat) {v : Nat} (W : Nat) (exp : Nat) (scale : BitVec v)
    (draw : BitVec W) : Out ε (SecretSigned W) :=
  if exp = 0 ∨ exp ≥ w then .panic
  else if exp ≥ W then .panic
  else if scale.setWidth W <<< exp = 0#W then .panic
  else
    let s := scale.setWidth W <<< (exp - 1)
    if s.toNat < 1 then .panic
    else .ok ⟨exp + bitLen scale.toNat, draw - (s - 1#W)⟩

end SecretSigned
end Synedrion
