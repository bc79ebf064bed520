import Verif.Model.Signed

/-!
# Bound-tracking integers

`SInt` is an integer together with the declared bound of `SecretSigned`/`PublicSigned`.  The operations at width `w` compute
over ℤ and keep the code's rule "panic when the new bound reaches the width".  `Verif/Props/Ints.lean` proves that the bit-level
model refines this one, so code that only uses these operations can be modelled over `SInt`.
-/

namespace Synedrion

structure SInt where
  bound : Nat
  val : Int
  deriving DecidableEq, Repr

namespace SInt

variable {ε : Type}

/-- src/uint/secret_signed.rs:224-247, 442-462, 497-507 -/
def add (w : Nat) (a b : SInt) : Out ε SInt :=
  if max a.bound b.bound + 1 < w then .ok ⟨max a.bound b.bound + 1, a.val + b.val⟩ else .panic

/-- src/uint/secret_signed.rs:254-262, 464-473 -/
def sub (w : Nat) (a b : SInt) : Out ε SInt :=
  if max a.bound b.bound + 1 < w then .ok ⟨max a.bound b.bound + 1, a.val - b.val⟩ else .panic

/-- src/uint/secret_signed.rs:269-292, 475-495, 509-531 -/
def mul (w : Nat) (a b : SInt) : Out ε SInt :=
  if a.bound + b.bound < w then .ok ⟨a.bound + b.bound, a.val * b.val⟩ else .panic

/-- src/uint/secret_signed.rs:69-74 -/
def neg (a : SInt) : SInt := ⟨a.bound, -a.val⟩

/-- src/uint/secret_signed.rs:193-201 (the same value in a wider type). -/
def toWide (a : SInt) : SInt := a

/-- src/uint/secret_signed.rs:204-217 (the result type is `w₁ + w₂` bits wide, where the sum of the bounds always fits). -/
def mulWide (w : Nat) (a b : SInt) : Out ε SInt :=
  if a.bound + b.bound < w then .ok ⟨a.bound + b.bound, a.val * b.val⟩ else .panic

/-- src/uint/secret_signed.rs:533-540 -/
def sum (w : Nat) (l : List SInt) : Out ε SInt :=
  l.foldl (fun acc x => acc.bind fun a => a.add w x) (.ok ⟨0, 0⟩)

/-- src/uint/secret_signed.rs:142-155, src/uint/public_signed.rs:156-162 -/
def inRange (a : SInt) (exp : Nat) : Bool :=
  decide (-(2 : Int) ^ (exp - 1) + 1 ≤ a.val ∧ a.val ≤ 2 ^ (exp - 1))

/-- src/uint/secret_signed.rs:164-166 -/
def assertRange (a : SInt) (exp : Nat) : Out ε Unit := Out.assert (a.inRange exp)

/-- src/uint/secret_signed.rs:175-185 -/
def ensureRange (w : Nat) (a : SInt) (exp : Nat) : Option SInt :=
  if a.inRange exp ∧ exp < w - 1 then some ⟨exp + 1, a.val⟩ else none

/-- The declared bound is truthful. -/
def WF (w : Nat) (a : SInt) : Prop := a.bound < w ∧ a.val.natAbs < 2 ^ a.bound

instance (w : Nat) (a : SInt) : Decidable (a.WF w) := by unfold WF; infer_instance

end SInt

/-- Abstraction: the integer a two's-complement value denotes, with its declared bound. -/
def SecretSigned.toSInt {w : Nat} (s : SecretSigned w) : SInt := ⟨s.bound, s.value.toInt⟩
/-- Abstraction for public integers. -/
def PublicSigned.toSInt {w : Nat} (s : PublicSigned w) : SInt := ⟨s.bound, s.value.toInt⟩

end Synedrion
