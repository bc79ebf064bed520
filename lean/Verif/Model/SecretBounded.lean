import Verif.Model.SecretBox
import Verif.Model.Signed

/-!
# Bounded secret integers in memory

`Model/Signed` has the values of `SecretUnsigned` and `SecretSigned`; here are the same functions of src/uint/secret_unsigned.rs and src/uint/secret_signed.rs with the boxes and variables they use, as in
`Model/SecretBox`. Cells hold unsigned integers of any width; the width `w` of the type is a parameter of every function. The bound is not secret and is kept outside of the memory. Memory that the arithmetic
of the integers uses (the traits of src/uint/traits.rs, and the library) is not modelled, nor is `to_montgomery`, for which see `Model/SecretBox`.

A function ends with `.err` where the code returns a `CtOption` that is none (its content is dropped), and with `.panic` where the code panics; then the local variables and the arguments that
were given by value are dropped, as in unwinding.
-/

namespace Synedrion.SecretBounded

open SecretBox

/-- A `SecretUnsigned` or `SecretSigned`: the bound, and where the value is; src/uint/secret_unsigned.rs:14-18, src/uint/secret_signed.rs:16-20. For a `Secret` without bound, the bound is 0. -/
structure Handle where
  bound : Nat
  box : Nat
  deriving DecidableEq, Repr

/-- `expect` on a `CtOption` -/
def expect {α : Type} : Out Unit α → Out Unit α
  | .err _ => .panic
  | r => r

/-- The value in a box, as an integer of the type's width -/
def value (w a : Nat) : M Nat (BitVec w) := do return BitVec.ofNat w (← expose a)

/-- `Secret::init_with` of an integer that is computed from a secret -/
def boxed {w : Nat} (v : M Nat (BitVec w)) : M Nat Nat := initWith do return (← v).toNat

/-- `Secret::wrapping_neg`, src/tools/secret.rs:110-112 -/
def wrappingNeg (w a : Nat) : M Nat Nat := boxed do return -(← value w a)

/-- `is_negative`, src/uint/secret_signed.rs:55-58 -/
def isNegative (w a : Nat) : M Nat Bool := do return (← value w a).msb

/-- A box that becomes a bounded secret if `ok` holds, and is dropped otherwise: `CtOption::new` -/
def keepIf (ok : Bool) (h : Handle) : M Nat (Out Unit Handle) := do
  if ok then return .ok h
  else do
    wipe h.box
    return .err ()

/-! ### Unsigned -/

/-- `SecretUnsigned::new`, src/uint/secret_unsigned.rs:37-41 -/
def unsignedNew (w box bound : Nat) : M Nat (Out Unit Handle) := do
  let v ← value w box
  keepIf (decide (bound ≤ w ∧ bitLen v.toNat ≤ bound)) ⟨bound, box⟩

/-- `SecretUnsigned::add_mod`, src/uint/secret_unsigned.rs:43-52 -/
def addMod (w : Nat) (a b : Handle) (modulus : Nat) : M Nat (Out Unit Handle) := do
  let r ← boxed (w := w) do
    let x ← value w a.box
    let y ← value w b.box
    let n ← value w modulus
    let sum := x.toNat + y.toNat
    return BitVec.ofNat w (if sum < n.toNat then sum else sum - n.toNat)
  let n ← value w modulus
  return .ok ⟨bitLen n.toNat, r⟩

/-- `&SecretUnsigned & T`, src/uint/secret_unsigned.rs:64-69. The clone is given to `bitand` by value; nothing zeroizes it. -/
def bitAnd (w : Nat) (a : Handle) (mask : BitVec w) : M Nat Handle := do
  let r ← boxed (w := w) do
    let copy ← alloc (← expose a.box)
    let v ← value w copy
    forget copy
    return v &&& mask
  return ⟨a.bound, r⟩

/-- `SecretUnsigned::to_wide`, src/uint/secret_unsigned.rs:84-93, with `Secret::to_wide`, src/tools/secret.rs:146-152 -/
def unsignedToWide (w W : Nat) (a : Handle) : M Nat (Out Unit Handle) := do
  let r ← boxed (w := W) do return (← value w a.box).setWidth W
  return .ok ⟨a.bound, r⟩

/-! ### Signed -/

/-- `new_positive`, src/uint/secret_signed.rs:36-45 -/
def newPositive (w box bound : Nat) : M Nat (Out Unit Handle) := do
  let v ← value w box
  let neg ← isNegative w box
  keepIf (decide (bound < w ∧ bitLen v.toNat < w) && !neg) ⟨bound, box⟩

/-- `zero`, src/uint/secret_signed.rs:47-52 -/
def zero (w : Nat) : M Nat (Out Unit Handle) := do
  let r ← boxed (w := w) (pure 0#w)
  return .ok ⟨0, r⟩

/-- `neg`, src/uint/secret_signed.rs:69-74 -/
def neg (w : Nat) (a : Handle) : M Nat (Out Unit Handle) := do
  let r ← wrappingNeg w a.box
  return .ok ⟨a.bound, r⟩

/-- `conditional_select(&value, &value.wrapping_neg(), choice)`; the negated value is a temporary box. -/
def selectNeg (w a : Nat) (choice : Bool) : M Nat Nat := do
  let n ← wrappingNeg w a
  let r ← conditionalSelect a n choice
  wipe n
  return r

/-- `abs_value`, src/uint/secret_signed.rs:81-83 -/
def absValue (w a : Nat) : M Nat Nat := do
  let neg ← isNegative w a
  selectNeg w a neg

/-- `abs`, src/uint/secret_signed.rs:86-92 -/
def abs (w : Nat) (a : Handle) : M Nat (Out Unit Handle) := do
  let v ← absValue w a.box
  return expect (← unsignedNew w v a.bound)

/-- `new_from_unsigned`, src/uint/secret_signed.rs:97-104 -/
def newFromUnsigned (w box bound : Nat) : M Nat (Out Unit Handle) := do
  let abs ← absValue w box
  let x ← value w abs
  let r ← keepIf (decide (bound < w ∧ bitLen x.toNat ≤ bound)) ⟨bound, box⟩
  wipe abs
  return r

/-- `new_from_abs`, src/uint/secret_signed.rs:110-115 -/
def newFromAbs (w abs bound : Nat) (isNeg : Bool) : M Nat (Out Unit Handle) := do
  let v ← selectNeg w abs isNeg
  let r ← newFromUnsigned w v bound
  wipe abs
  return r

/-- `new_modulo`, src/uint/secret_signed.rs:124-140. The difference that is negated is a temporary value of the integer type; nothing zeroizes it. -/
def newModulo (w box : Nat) (modulus : BitVec w) (modulusBits : Nat) : M Nat (Out Unit Handle) := do
  let v ← value w box
  let isNeg := decide (v.toNat > (modulus >>> 1).toNat)
  if modulus.toNat < v.toNat then do
    wipe box
    return .panic
  else do
    let negative ← boxed (w := w) do
      let difference ← alloc (modulus - (← value w box)).toNat
      let d ← value w difference
      forget difference
      return -d
    let r ← conditionalSelect box negative isNeg
    if modulusBits = 0 then do
      wipe r
      wipe negative
      wipe box
      return .panic
    else do
      let res ← newFromUnsigned w r (modulusBits - 1)
      wipe negative
      wipe box
      return res

/-- `is_in_exponent_range`, src/uint/secret_signed.rs:142-155 -/
def isInExponentRange (w : Nat) (a : Handle) (exp : Nat) : M Nat (Out Unit Bool) := do
  match ← abs w a with
  | .ok abs =>
    if exp = 0 then do
      wipe abs.box
      return .panic
    else do
      let shifted := 1#w <<< (exp - 1)
      let masked ← bitAnd w abs (-shifted)
      let m ← value w masked.box
      let x ← value w abs.box
      let neg ← isNegative w a.box
      wipe masked.box
      wipe abs.box
      return .ok (decide (m = 0#w) || (decide (x = shifted) && !neg))
  | .err e => return .err e
  | .panic => return .panic

/-- `assert_exponent_range`, src/uint/secret_signed.rs:164-166 -/
def assertExponentRange (w : Nat) (a : Handle) (exp : Nat) : M Nat (Out Unit Unit) := do
  match ← isInExponentRange w a exp with
  | .ok b => return Out.assert b
  | .err e => return .err e
  | .panic => return .panic

/-- `ensure_exponent_range`, src/uint/secret_signed.rs:175-185 -/
def ensureExponentRange (w : Nat) (a : Handle) (exp : Nat) : M Nat (Out Unit Handle) := do
  match ← isInExponentRange w a exp with
  | .ok b => keepIf (b && decide (exp < w - 1)) ⟨exp + 1, a.box⟩
  | .err e => do
    wipe a.box
    return .err e
  | .panic => do
    wipe a.box
    return .panic

/-- `to_wide`, src/uint/secret_signed.rs:193-201; the absolute value in the old width is a temporary box. -/
def toWide (w W : Nat) (a : Handle) : M Nat (Out Unit Handle) := do
  let abs ← absValue w a.box
  let wide ← boxed (w := W) do return (← value w abs).setWidth W
  wipe abs
  let neg ← isNegative w a.box
  return expect (← newFromAbs W wide a.bound neg)

/-- `mul_wide_public`, src/uint/secret_signed.rs:204-217 -/
def mulWidePublic (w₁ : Nat) {w₂ : Nat} (a : Handle) (rhs : PublicSigned w₂) : M Nat (Out Unit Handle) := do
  let abs ← absValue w₁ a.box
  let prod ← boxed (w := w₁ + w₂) do return (← value w₁ abs).setWidth (w₁ + w₂) * rhs.abs.setWidth (w₁ + w₂)
  wipe abs
  let neg ← isNegative w₁ a.box
  return expect (← newFromAbs (w₁ + w₂) prod (a.bound + rhs.bound) (neg ^^ rhs.isNegative))

/-- The common part of `checked_add`, `checked_sub` and `checked_mul` of two secrets: the result is made in any case, and dropped if the bound is too large. -/
def checkedBin (w bound : Nat) (f : BitVec w → BitVec w → BitVec w) (a b : Nat) : M Nat (Out Unit Handle) := do
  let r ← boxed do return f (← value w a) (← value w b)
  keepIf (decide (bound < w)) ⟨bound, r⟩

/-- The same with a public operand -/
def checkedBinPublic (w bound : Nat) (f : BitVec w → BitVec w → BitVec w) (a : Nat) (b : BitVec w) : M Nat (Out Unit Handle) := do
  let r ← boxed do return f (← value w a) b
  keepIf (decide (bound < w)) ⟨bound, r⟩

/-- `checked_add`, src/uint/secret_signed.rs:224-232 -/
def checkedAdd (w : Nat) (a b : Handle) : M Nat (Out Unit Handle) := checkedBin w (max a.bound b.bound + 1) (· + ·) a.box b.box

/-- `checked_add` with a public operand, src/uint/secret_signed.rs:239-247 -/
def checkedAddPublic (w : Nat) (a : Handle) (b : PublicSigned w) : M Nat (Out Unit Handle) := checkedBinPublic w (max a.bound b.bound + 1) (· + ·) a.box b.value

/-- `checked_sub`, src/uint/secret_signed.rs:254-262 -/
def checkedSub (w : Nat) (a b : Handle) : M Nat (Out Unit Handle) := checkedBin w (max a.bound b.bound + 1) (· - ·) a.box b.box

/-- `checked_mul`, src/uint/secret_signed.rs:269-277 -/
def checkedMul (w : Nat) (a b : Handle) : M Nat (Out Unit Handle) := checkedBin w (a.bound + b.bound) (· * ·) a.box b.box

/-- `checked_mul` with a public operand, src/uint/secret_signed.rs:284-292 -/
def checkedMulPublic (w : Nat) (a : Handle) (b : PublicSigned w) : M Nat (Out Unit Handle) := checkedBinPublic w (a.bound + b.bound) (· * ·) a.box b.value

/-- Arguments that were given by value are dropped when a function ends. -/
def consuming {α : Type} (l : List Nat) (p : M Nat α) : M Nat α := do
  let r ← p
  l.forM wipe
  return r

/-- `Sum` of references, src/uint/secret_signed.rs:533-540; the accumulator is given to `+` by value. -/
def sumFrom (w : Nat) : Handle → List Handle → M Nat (Out Unit Handle)
  | acc, [] => return .ok acc
  | acc, x :: l => do
    match expect (← consuming [acc.box] (checkedAdd w acc x)) with
    | .ok acc' => sumFrom w acc' l
    | .err e => return .err e
    | .panic => return .panic

/-- `random_in_exponent_range`, src/uint/secret_signed.rs:303-328; `draw` is the result of `T::random_mod(rng, 2^exp)`. -/
def randomInExponentRange (w exp : Nat) (draw : BitVec w) : M Nat (Out Unit Handle) := do
  if exp = 0 ∨ exp ≥ w then return .panic
  else do
    let positive ← boxed (pure draw)
    let r ← boxed do return (← value w positive) - ((1#w <<< (exp - 1)) - 1#w)
    wipe positive
    return .ok ⟨exp, r⟩

/-- `random_in_exponent_range_scaled` and `random_in_exponent_range_scaled_wide`, src/uint/secret_signed.rs:339-371, 382-419, as in `Model/Signed` -/
def randomInExponentRangeScaled (w : Nat) {v : Nat} (W exp : Nat) (scale : BitVec v) (draw : BitVec W) : M Nat (Out Unit Handle) := do
  if exp = 0 ∨ exp ≥ w then return .panic
  else if exp ≥ W then return .panic
  else if scale.setWidth W <<< exp = 0#W then return .panic
  else if (scale.setWidth W <<< (exp - 1)).toNat < 1 then return .panic
  else do
    let positive ← boxed (pure draw)
    let r ← boxed do return (← value W positive) - (scale.setWidth W <<< (exp - 1) - 1#W)
    wipe positive
    return .ok ⟨exp + bitLen scale.toNat, r⟩

/-! ### All operations -/

/-- The operations on bounded secrets; `w` is the width of the type. -/
inductive Op where
  /-- `Secret::init_with` -/
  | box (w : Nat) (v : BitVec w)
  | drop (a : Nat)
  /-- `clone`, derived -/
  | clone (a : Handle)
  | unsignedNew (w a bound : Nat)
  | addMod (w : Nat) (a b : Handle) (modulus : Nat)
  | bitAnd (w : Nat) (a : Handle) (mask : BitVec w)
  | unsignedToWide (w W : Nat) (a : Handle)
  | newPositive (w a bound : Nat)
  | newFromUnsigned (w a bound : Nat)
  | newModulo (w a : Nat) (modulus : BitVec w) (modulusBits : Nat)
  | zero (w : Nat)
  | neg (w : Nat) (a : Handle)
  /-- `-`, src/uint/secret_signed.rs:422-430 -/
  | negOwned (w : Nat) (a : Handle)
  | absValue (w : Nat) (a : Handle)
  | abs (w : Nat) (a : Handle)
  | assertRange (w : Nat) (a : Handle) (exp : Nat)
  | ensureRange (w : Nat) (a : Handle) (exp : Nat)
  | toWide (w W : Nat) (a : Handle)
  | mulWidePublic (w₁ : Nat) {w₂ : Nat} (a : Handle) (rhs : PublicSigned w₂)
  | checkedAdd (w : Nat) (a b : Handle)
  | checkedAddPublic (w : Nat) (a : Handle) (b : PublicSigned w)
  | checkedSub (w : Nat) (a b : Handle)
  | checkedMul (w : Nat) (a b : Handle)
  | checkedMulPublic (w : Nat) (a : Handle) (b : PublicSigned w)
  /-- `+` of two values, src/uint/secret_signed.rs:442-451 -/
  | add (w : Nat) (a b : Handle)
  /-- `+` of a value and a reference, src/uint/secret_signed.rs:453-462 -/
  | addRef (w : Nat) (a b : Handle)
  /-- `-` of two values, src/uint/secret_signed.rs:464-473 -/
  | sub (w : Nat) (a b : Handle)
  /-- `*` of two values, src/uint/secret_signed.rs:475-484 -/
  | mul (w : Nat) (a b : Handle)
  /-- `*` of a value and a reference, src/uint/secret_signed.rs:486-495 -/
  | mulRef (w : Nat) (a b : Handle)
  /-- `+` with a public value, src/uint/secret_signed.rs:497-507 -/
  | addPublic (w : Nat) (a : Handle) (b : PublicSigned w)
  /-- `*` of a reference with a public value, src/uint/secret_signed.rs:509-519 -/
  | refMulPublic (w : Nat) (a : Handle) (b : PublicSigned w)
  /-- `*` of a value with a public value, src/uint/secret_signed.rs:521-531 -/
  | mulPublic (w : Nat) (a : Handle) (b : PublicSigned w)
  | sum (w : Nat) (l : List Handle)
  | random (w exp : Nat) (draw : BitVec w)
  | randomScaled (w : Nat) {v : Nat} (W exp : Nat) (scale : BitVec v) (draw : BitVec W)

/-- What is dropped or reused by an operation: its arguments that are given by value -/
def Op.moved : Op → List Nat
  | .drop a => [a]
  | .unsignedNew _ a _ | .newPositive _ a _ | .newFromUnsigned _ a _ | .newModulo _ a _ _ => [a]
  | .negOwned _ a | .ensureRange _ a _ | .addRef _ a _ | .mulRef _ a _ | .addPublic _ a _ | .mulPublic _ a _ => [a.box]
  | .add _ a b | .sub _ a b | .mul _ a b => [a.box, b.box]
  | _ => []

/-- An operation that gives nothing back -/
def nothing (p : M Nat (Out Unit Unit)) : M Nat (Out Unit (Option Handle)) := do
  match ← p with
  | .ok _ => return .ok none
  | .err e => return .err e
  | .panic => return .panic

/-- An operation that gives a secret back -/
def giving (p : M Nat (Out Unit Handle)) : M Nat (Out Unit (Option Handle)) := do
  match ← p with
  | .ok h => return .ok (some h)
  | .err e => return .err e
  | .panic => return .panic

/-- An operation that panics where another one returns none -/
def expecting (p : M Nat (Out Unit Handle)) : M Nat (Out Unit (Option Handle)) := giving do return expect (← p)

/-- Runs an operation. -/
def Op.run (op : Op) : M Nat (Out Unit (Option Handle)) :=
  match op with
  | .box _ v => giving do return .ok ⟨0, ← boxed (pure v)⟩
  | .drop a => nothing do
    wipe a
    return .ok ()
  | .clone a => giving do return .ok ⟨a.bound, ← SecretBox.clone a.box⟩
  | .unsignedNew w a bound => giving (SecretBounded.unsignedNew w a bound)
  | .addMod w a b modulus => giving (SecretBounded.addMod w a b modulus)
  | .bitAnd w a mask => giving do return .ok (← SecretBounded.bitAnd w a mask)
  | .unsignedToWide w W a => giving (SecretBounded.unsignedToWide w W a)
  | .newPositive w a bound => giving (SecretBounded.newPositive w a bound)
  | .newFromUnsigned w a bound => giving (SecretBounded.newFromUnsigned w a bound)
  | .newModulo w a modulus bits => giving (SecretBounded.newModulo w a modulus bits)
  | .zero w => giving (SecretBounded.zero w)
  | .neg w a => giving (SecretBounded.neg w a)
  | .negOwned w a => giving (consuming [a.box] (SecretBounded.neg w a))
  | .absValue w a => giving do return .ok ⟨0, ← SecretBounded.absValue w a.box⟩
  | .abs w a => giving (SecretBounded.abs w a)
  | .assertRange w a exp => nothing (assertExponentRange w a exp)
  | .ensureRange w a exp => giving (ensureExponentRange w a exp)
  | .toWide w W a => giving (SecretBounded.toWide w W a)
  | .mulWidePublic w₁ a rhs => giving (SecretBounded.mulWidePublic w₁ a rhs)
  | .checkedAdd w a b => giving (SecretBounded.checkedAdd w a b)
  | .checkedAddPublic w a b => giving (SecretBounded.checkedAddPublic w a b)
  | .checkedSub w a b => giving (SecretBounded.checkedSub w a b)
  | .checkedMul w a b => giving (SecretBounded.checkedMul w a b)
  | .checkedMulPublic w a b => giving (SecretBounded.checkedMulPublic w a b)
  | .add w a b => expecting (consuming [b.box, a.box] (SecretBounded.checkedAdd w a b))
  | .addRef w a b => expecting (consuming [a.box] (SecretBounded.checkedAdd w a b))
  | .sub w a b => expecting (consuming [b.box, a.box] (SecretBounded.checkedSub w a b))
  | .mul w a b => expecting (consuming [b.box, a.box] (SecretBounded.checkedMul w a b))
  | .mulRef w a b => expecting (consuming [a.box] (SecretBounded.checkedMul w a b))
  | .addPublic w a b => expecting (consuming [a.box] (SecretBounded.checkedAddPublic w a b))
  | .refMulPublic w a b => expecting (SecretBounded.checkedMulPublic w a b)
  | .mulPublic w a b => expecting (consuming [a.box] (SecretBounded.checkedMulPublic w a b))
  | .sum w l => giving do
    match ← SecretBounded.zero w with
    | .ok z => sumFrom w z l
    | .err e => return .err e
    | .panic => return .panic
  | .random w exp draw => giving (randomInExponentRange w exp draw)
  | .randomScaled w W exp scale draw => giving (randomInExponentRangeScaled w W exp scale draw)

end Synedrion.SecretBounded
