import Verif.Model.SecretBox

/-!
# What operations on secrets do, without memory

Each operation takes over some secrets, looks at some, and changes at most one in place; it may give a new secret, and it may give something that is not secret. Which secrets it may be called with
is what the borrow checker enforces.
-/

namespace Synedrion.Spec

open SecretBox

/-- The values of the secrets that exist -/
abbrev Plain (T : Type) := Nat → Option T

namespace SecretOp

variable {T : Type}

/-- The secrets that are given to the operation -/
def moved : Op T → List Nat
  | .drop a | .addVal a _ | .addRef a _ | .subVal a _ | .mulVal a _ | .mulRef a _ | .div a _ | .pointMulOwned _ a => [a]
  | .addAssignOwned _ b | .refAddOwned _ b => [b]
  | .addOwned a b | .subOwned a b | .mulOwned a b => [a, b]
  | .sumOwned l => l
  | _ => []

/-- The secrets that the operation only looks at -/
def borrowed : Op T → List Nat
  | .clone a | .serialize a | .neg a | .wrappingNeg a | .toWide a | .refAddVal a _ | .refAddOwned a _ | .refMulVal a _ | .rem a _ | .retrieve a | .pow a _ | .toMontgomery a _ |
    .mulByGenerator a | .pointMulRef _ a | .scalarFromWideUint a | .uintFromScalar a => [a]
  | .addRef _ b | .mulRef _ b => [b]
  | .wrappingAdd a b | .wrappingSub a b | .wrappingMul a b | .refAddRef a b | .refMulRef a b | .conditionalSelect a b _ => [a, b]
  | .sumRefs l => l
  | _ => []

/-- The secret that the operation changes -/
def changed : Op T → Option Nat
  | .addAssign a _ | .addAssignOwned a _ | .mulAssign a _ | .divAssign a _ | .remAssign a _ | .conditionalNegate a _ => some a
  | _ => none

/-- The operation may be called: all its secrets exist, and those that are given away or changed are mentioned only once. -/
def Fits (op : Op T) (vals : Plain T) : Prop :=
  (moved op).Nodup ∧ (∀ a ∈ moved op, a ∉ borrowed op ∧ changed op ≠ some a) ∧ (∀ a, changed op = some a → a ∉ borrowed op) ∧
  ∀ a, a ∈ moved op ∨ a ∈ borrowed op ∨ changed op = some a → (vals a).isSome

variable [Zero T] (A : Arith T)

/-- The value of the new secret, in terms of the values of the others -/
def result (x : Nat → T) : Op T → Option T
  | .init v => some v
  | .tryInit v => v
  | .clone a => some (x a)
  | .deserialize bytes => A.decode bytes
  | .neg a => some (A.neg (x a))
  | .wrappingNeg a => some (A.wrappingNeg (x a))
  | .wrappingAdd a b => some (A.wrappingAdd (x a) (x b))
  | .wrappingSub a b => some (A.wrappingSub (x a) (x b))
  | .wrappingMul a b => some (A.wrappingMul (x a) (x b))
  | .toWide a => some (A.toWide (x a))
  | .addVal a y | .refAddVal a y => some (A.add (x a) y)
  | .addOwned a b | .addRef a b | .refAddOwned a b | .refAddRef a b => some (A.add (x a) (x b))
  | .subVal a y => some (A.sub (x a) y)
  | .subOwned a b => some (A.sub (x a) (x b))
  | .mulVal a y | .refMulVal a y => some (A.mul (x a) y)
  | .mulOwned a b | .mulRef a b | .refMulRef a b => some (A.mul (x a) (x b))
  | .div a y => some (A.div (x a) y)
  | .rem a y => some (A.rem (x a) y)
  | .retrieve a => some (A.retrieve (x a))
  | .pow a e => some (A.pow (x a) e)
  | .toMontgomery a p => some (A.toMontgomery (x a) p)
  | .conditionalSelect a b choice => some (if choice then x b else x a)
  | .sumOwned [] => some 0
  | .sumOwned (a :: l) => some (l.foldl (fun s b => A.add s (x b)) (x a))
  | .sumRefs l => some (l.foldl (fun s b => A.add s (x b)) 0)
  | .scalarFromWideUint a => A.decode (A.lastBytes (A.encode (A.rem (x a) A.order)))
  | .uintFromScalar a => A.decode (A.putLastBytes (A.encode 0) (A.encode (x a)))
  | _ => none

/-- The new value of the secret that is changed -/
def written (x : Nat → T) : Op T → T
  | .addAssign a y => A.add (x a) y
  | .addAssignOwned a b => A.add (x a) (x b)
  | .mulAssign a y => A.mul (x a) y
  | .divAssign a y => A.div (x a) y
  | .remAssign a y => A.rem (x a) y
  | .conditionalNegate a choice => if choice then A.neg (x a) else x a
  | _ => 0

/-- What is not secret in the result -/
def shown (x : Nat → T) : Op T → Option T
  | .serialize a => some (A.encode (x a))
  | .mulByGenerator a => some (A.smul (x a) A.generator)
  | .pointMulOwned p a | .pointMulRef p a => some (A.smul (x a) p)
  | _ => none

/-- The values after the operation, where `new` is the new secret -/
def after (op : Op T) (vals : Plain T) (new : Option Nat) : Plain T :=
  let x := fun a => (vals a).getD 0
  fun b =>
    if new = some b then result A x op
    else if b ∈ moved op then none
    else if changed op = some b then some (written A x op)
    else vals b

/-- Some sequence of operations of the kind `kind` leads to this memory, and to secrets with these values. -/
inductive Reached (kind : Op T → Prop) : Mem T → Plain T → Prop
  | start : Reached kind [] fun _ => none
  | step (m vals op new out m') : Reached kind m vals → kind op → Fits op vals → op.run A m = some ((new, out), m') → Reached kind m' (after A op vals new)

/-- The operations that do not hand over a copy of a secret by value -/
def Careful : Op T → Prop
  | .neg _ | .toMontgomery _ _ => False
  | _ => True

end SecretOp

end Synedrion.Spec
