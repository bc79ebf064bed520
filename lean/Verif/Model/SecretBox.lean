import Mathlib.Algebra.Notation.Defs

/-!
# Boxes for secret values

The wrapper `Secret` of src/tools/secret.rs with the memory it uses. The values of all types (integers, scalars, bytes) are in one type `T`, whose zero is what wiped memory contains; the
arithmetic of the wrapped types comes in as a parameter. Every box, and every local variable that holds a secret by value, is a cell. A cell is not used again after it is given up, so that the memory
shows what was left behind. Copies that the compiler makes when it moves a value, and those inside the libraries, are not modelled.
-/

namespace Synedrion.SecretBox

/-- One piece of memory -/
structure Cell (T : Type) where
  value : T
  freed : Bool
  deriving DecidableEq, Repr

/-- The memory; addresses are positions. -/
abbrev Mem (T : Type) := List (Cell T)

/-- A computation; it is stuck (`none`) if it uses memory that was given up. -/
abbrev M (T α : Type) := StateT (Mem T) Option α

variable {T : Type} [Zero T]

/-- A new cell -/
def alloc (v : T) : M T Nat := fun m => some (m.length, m ++ [⟨v, false⟩])

/-- `expose_secret`, src/tools/secret.rs:35-37 -/
def expose (a : Nat) : M T T := fun m =>
  match m[a]? with
  | some ⟨v, false⟩ => some (v, m)
  | _ => none

/-- Assigning to `expose_secret_mut`, src/tools/secret.rs:39-41 -/
def assign (a : Nat) (v : T) : M T Unit := fun m =>
  match m[a]? with
  | some ⟨_, false⟩ => some ((), m.set a ⟨v, false⟩)
  | _ => none

/-- Dropping a `SecretBox` (`secrecy`): it is zeroized, then given up. Also the end of a variable that was zeroized. -/
def wipe (a : Nat) : M T Unit := fun m =>
  match m[a]? with
  | some ⟨_, false⟩ => some ((), m.set a ⟨0, true⟩)
  | _ => none

/-- The end of a variable that is not zeroized -/
def forget (a : Nat) : M T Unit := fun m =>
  match m[a]? with
  | some ⟨v, false⟩ => some ((), m.set a ⟨v, true⟩)
  | _ => none

/-- The arithmetic of the wrapped types -/
structure Arith (T : Type) where
  neg : T → T
  wrappingNeg : T → T
  wrappingAdd : T → T → T
  wrappingSub : T → T → T
  wrappingMul : T → T → T
  toWide : T → T
  add : T → T → T
  sub : T → T → T
  mul : T → T → T
  div : T → T → T
  rem : T → T → T
  retrieve : T → T
  pow : T → T → T
  toMontgomery : T → T → T
  /-- Bytes, and back -/
  encode : T → T
  decode : T → Option T
  /-- Multiplying a point -/
  smul : T → T → T
  generator : T
  /-- The curve order, the last bytes of an encoding, and an encoding with its last bytes replaced, as used in src/params/conversion.rs -/
  order : T
  lastBytes : T → T
  putLastBytes : T → T → T

variable (A : Arith T)

/-- What `SecretBox::init_with` (`secrecy`) does with a value: it keeps it in a variable, clones it into a box, and zeroizes the variable. -/
def newBox (v : T) : M T Nat := do
  let data ← alloc v
  let copy ← expose data
  let box ← alloc copy
  wipe data
  return box

/-- `init_with`, src/tools/secret.rs:48-50 -/
def initWith (ctr : M T T) : M T Nat := do newBox (← ctr)

/-- `try_init_with`, src/tools/secret.rs:52-54 -/
def tryInitWith (ctr : M T (Option T)) : M T (Option Nat) := do
  match ← ctr with
  | some v => return some (← newBox v)
  | none => return none

/-- `clone`, src/tools/secret.rs:61-63 -/
def clone (a : Nat) : M T Nat := initWith (expose a)

/-- `serialize`, src/tools/secret.rs:70-73; the result is what the serializer is given. -/
def serialize (a : Nat) : M T T := do
  let bytes ← alloc (A.encode (← expose a))
  let out ← expose bytes
  wipe bytes
  return out

/-- `deserialize`, src/tools/secret.rs:80-84 -/
def deserialize (input : T) : M T (Option Nat) := do
  let bytes ← alloc input
  let res ← tryInitWith (do return A.decode (← expose bytes))
  wipe bytes
  return res

/-- `neg`, src/tools/secret.rs:101-103. The clone is given to `neg` by value; nothing zeroizes it. -/
def neg (a : Nat) : M T Nat := initWith do
  let copy ← alloc (← expose a)
  let v ← expose copy
  forget copy
  return A.neg v

/-- `wrapping_neg`, src/tools/secret.rs:110-112 -/
def wrappingNeg (a : Nat) : M T Nat := initWith do return A.wrappingNeg (← expose a)

/-- `wrapping_add`, src/tools/secret.rs:119-121 -/
def wrappingAdd (a b : Nat) : M T Nat := initWith do return A.wrappingAdd (← expose a) (← expose b)

/-- `wrapping_sub`, src/tools/secret.rs:128-130 -/
def wrappingSub (a b : Nat) : M T Nat := initWith do return A.wrappingSub (← expose a) (← expose b)

/-- `wrapping_mul`, src/tools/secret.rs:137-139 -/
def wrappingMul (a b : Nat) : M T Nat := initWith do return A.wrappingMul (← expose a) (← expose b)

/-- `to_wide`, src/tools/secret.rs:146-152 -/
def toWide (a : Nat) : M T Nat := initWith do return A.toWide (← expose a)

/-- `Secret += &T`, src/tools/secret.rs:161-163 -/
def addAssign (a : Nat) (x : T) : M T Unit := do assign a (A.add (← expose a) x)

/-- `Secret += Secret`, src/tools/secret.rs:170-172; the right-hand side is dropped at the end. -/
def addAssignOwned (a b : Nat) : M T Unit := do
  addAssign A a (← expose b)
  wipe b

/-- `Secret + &T`, src/tools/secret.rs:180-184 -/
def addVal (a : Nat) (x : T) : M T Nat := do
  addAssign A a x
  return a

/-- `&Secret + &T`, src/tools/secret.rs:192-194 -/
def refAddVal (a : Nat) (x : T) : M T Nat := do addVal A (← clone a) x

/-- `Secret + Secret`, src/tools/secret.rs:202-204 -/
def addOwned (a b : Nat) : M T Nat := do
  let r ← addVal A a (← expose b)
  wipe b
  return r

/-- `Secret + &Secret`, src/tools/secret.rs:212-214 -/
def addRef (a b : Nat) : M T Nat := do addVal A a (← expose b)

/-- `&Secret + Secret`, src/tools/secret.rs:222-224 -/
def refAddOwned (a b : Nat) : M T Nat := do
  let r ← refAddVal A a (← expose b)
  wipe b
  return r

/-- `&Secret + &Secret`, src/tools/secret.rs:232-234 -/
def refAddRef (a b : Nat) : M T Nat := do refAddVal A a (← expose b)

/-- `Secret - &T`, src/tools/secret.rs:244-248 -/
def subVal (a : Nat) (x : T) : M T Nat := do
  assign a (A.sub (← expose a) x)
  return a

/-- `Secret - Secret`, src/tools/secret.rs:256-258 -/
def subOwned (a b : Nat) : M T Nat := do
  let r ← subVal A a (← expose b)
  wipe b
  return r

/-- `Secret *= &T`, src/tools/secret.rs:267-269 -/
def mulAssign (a : Nat) (x : T) : M T Unit := do assign a (A.mul (← expose a) x)

/-- `Secret * &T` and `Secret * T`, src/tools/secret.rs:277-281, 309-311 -/
def mulVal (a : Nat) (x : T) : M T Nat := do
  mulAssign A a x
  return a

/-- `&Secret * &T` and `&Secret * T`, src/tools/secret.rs:289-291, 299-301 -/
def refMulVal (a : Nat) (x : T) : M T Nat := do mulVal A (← clone a) x

/-- `Secret * Secret`, src/tools/secret.rs:319-321 -/
def mulOwned (a b : Nat) : M T Nat := do
  let r ← mulVal A a (← expose b)
  wipe b
  return r

/-- `Secret * &Secret`, src/tools/secret.rs:329-331 -/
def mulRef (a b : Nat) : M T Nat := do mulVal A a (← expose b)

/-- `&Secret * &Secret`, src/tools/secret.rs:339-341 -/
def refMulRef (a b : Nat) : M T Nat := do refMulVal A a (← expose b)

/-- `Secret /= &NonZero`, src/tools/secret.rs:350-352 -/
def divAssign (a : Nat) (x : T) : M T Unit := do assign a (A.div (← expose a) x)

/-- `Secret / NonZero`, src/tools/secret.rs:361-364 -/
def div (a : Nat) (x : T) : M T Nat := do
  divAssign A a x
  return a

/-- `Secret %= &NonZero`, src/tools/secret.rs:373-375 -/
def remAssign (a : Nat) (x : T) : M T Unit := do assign a (A.rem (← expose a) x)

/-- `&Secret % &NonZero`, src/tools/secret.rs:384-388 -/
def rem (a : Nat) (x : T) : M T Nat := do
  let r ← clone a
  remAssign A r x
  return r

/-- `retrieve`, src/tools/secret.rs:396-398 -/
def retrieve (a : Nat) : M T Nat := initWith do return A.retrieve (← expose a)

/-- `pow`, src/tools/secret.rs:405-415 -/
def pow (a : Nat) (e : T) : M T Nat := initWith do return A.pow (← expose a) e

/-- `to_montgomery`, src/tools/secret.rs:422-427. The clone is given to `Monty::new` by value; nothing zeroizes it. -/
def toMontgomery (a : Nat) (params : T) : M T Nat := initWith do
  let copy ← alloc (← expose a)
  let v ← expose copy
  forget copy
  return A.toMontgomery v params

/-- `conditional_select`, src/tools/secret.rs:434-436 -/
def conditionalSelect (a b : Nat) (choice : Bool) : M T Nat := initWith do
  let x ← expose a
  let y ← expose b
  return if choice then y else x

/-- `conditional_negate`, src/tools/secret.rs:443-445 -/
def conditionalNegate (a : Nat) (choice : Bool) : M T Unit := do
  let v ← expose a
  assign a (if choice then A.neg v else v)

/-- The accumulation of `sum`, src/tools/secret.rs:455 -/
def reduceOwned : Nat → List Nat → M T Nat
  | acc, [] => pure acc
  | acc, b :: l => do reduceOwned (← addOwned A acc b) l

/-- `sum` of secrets, src/tools/secret.rs:454-456. The default value is made in any case. -/
def sumOwned (l : List Nat) : M T Nat := do
  let reduced ← match l with
    | [] => pure none
    | a :: l => (some <$> reduceOwned A a l)
  let default ← initWith (pure 0)
  match reduced with
  | some r => do
    wipe default
    return r
  | none => return default

/-- The accumulation of `sum`, src/tools/secret.rs:464 -/
def foldRefs : Nat → List Nat → M T Nat
  | acc, [] => pure acc
  | acc, b :: l => do foldRefs (← addRef A acc b) l

/-- `sum` of references to secrets, src/tools/secret.rs:463-465 -/
def sumRefs (l : List Nat) : M T Nat := do foldRefs A (← initWith (pure 0)) l

/-- `mul_by_generator`, src/tools/secret.rs:472-474; a point is not a secret. -/
def mulByGenerator (a : Nat) : M T T := do return A.smul (← expose a) A.generator

/-- `Point * Secret` and `&Point * Secret`, src/tools/secret.rs:482-484, 502-504 -/
def pointMulOwned (p : T) (a : Nat) : M T T := do
  let v ← expose a
  wipe a
  return A.smul v p

/-- `Point * &Secret` and `&Point * &Secret`, src/tools/secret.rs:492-494, 512-514 -/
def pointMulRef (p : T) (a : Nat) : M T T := do return A.smul (← expose a) p

/-- `secret_scalar_from_wide_uint`, src/params/conversion.rs:102-121. If the bytes are not those of a scalar this panics (`none`), and the local boxes are dropped as well. -/
def scalarFromWideUint (a : Nat) : M T (Option Nat) := do
  let r ← rem A a A.order
  let repr ← alloc (A.encode (← expose r))
  let res ← tryInitWith (do return A.decode (A.lastBytes (← expose repr)))
  wipe repr
  wipe r
  return res

/-- `secret_uint_from_scalar`, src/params/conversion.rs:123-140, with panics as before -/
def uintFromScalar (a : Nat) : M T (Option Nat) := do
  let scalarBytes ← alloc (A.encode (← expose a))
  let repr ← alloc (A.encode 0)
  assign repr (A.putLastBytes (← expose repr) (← expose scalarBytes))
  let res ← tryInitWith (do return A.decode (← expose repr))
  wipe repr
  wipe scalarBytes
  return res

/-- The operations on secrets -/
inductive Op (T : Type) where
  | init (v : T)
  | tryInit (v : Option T)
  | clone (a : Nat)
  | drop (a : Nat)
  | serialize (a : Nat)
  | deserialize (bytes : T)
  | neg (a : Nat)
  | wrappingNeg (a : Nat)
  | wrappingAdd (a b : Nat)
  | wrappingSub (a b : Nat)
  | wrappingMul (a b : Nat)
  | toWide (a : Nat)
  | addAssign (a : Nat) (x : T)
  | addAssignOwned (a b : Nat)
  | addVal (a : Nat) (x : T)
  | refAddVal (a : Nat) (x : T)
  | addOwned (a b : Nat)
  | addRef (a b : Nat)
  | refAddOwned (a b : Nat)
  | refAddRef (a b : Nat)
  | subVal (a : Nat) (x : T)
  | subOwned (a b : Nat)
  | mulAssign (a : Nat) (x : T)
  | mulVal (a : Nat) (x : T)
  | refMulVal (a : Nat) (x : T)
  | mulOwned (a b : Nat)
  | mulRef (a b : Nat)
  | refMulRef (a b : Nat)
  | divAssign (a : Nat) (x : T)
  | div (a : Nat) (x : T)
  | remAssign (a : Nat) (x : T)
  | rem (a : Nat) (x : T)
  | retrieve (a : Nat)
  | pow (a : Nat) (e : T)
  | toMontgomery (a : Nat) (params : T)
  | conditionalSelect (a b : Nat) (choice : Bool)
  | conditionalNegate (a : Nat) (choice : Bool)
  | sumOwned (l : List Nat)
  | sumRefs (l : List Nat)
  | mulByGenerator (a : Nat)
  | pointMulOwned (p : T) (a : Nat)
  | pointMulRef (p : T) (a : Nat)
  | scalarFromWideUint (a : Nat)
  | uintFromScalar (a : Nat)

/-- A new secret is the result. -/
def giving (p : M T Nat) : M T (Option Nat × Option T) := do return (some (← p), none)

/-- A new secret is the result, if there is one. -/
def givingMaybe (p : M T (Option Nat)) : M T (Option Nat × Option T) := do return (← p, none)

/-- Something that is not secret is the result. -/
def showing (p : M T T) : M T (Option Nat × Option T) := do return (none, some (← p))

/-- Nothing is the result. -/
def changing (p : M T Unit) : M T (Option Nat × Option T) := do
  p
  return (none, none)

/-- An operation; the result is a new secret, or something that is not secret, src/tools/secret.rs:31-517 and src/params/conversion.rs:102-140. -/
def Op.run : Op T → M T (Option Nat × Option T)
  | .init v => giving (initWith (pure v))
  | .tryInit v => givingMaybe (tryInitWith (pure v))
  | .clone a => giving (SecretBox.clone a)
  | .drop a => changing (wipe a)
  | .serialize a => showing (SecretBox.serialize A a)
  | .deserialize bytes => givingMaybe (SecretBox.deserialize A bytes)
  | .neg a => giving (SecretBox.neg A a)
  | .wrappingNeg a => giving (SecretBox.wrappingNeg A a)
  | .wrappingAdd a b => giving (SecretBox.wrappingAdd A a b)
  | .wrappingSub a b => giving (SecretBox.wrappingSub A a b)
  | .wrappingMul a b => giving (SecretBox.wrappingMul A a b)
  | .toWide a => giving (SecretBox.toWide A a)
  | .addAssign a x => changing (SecretBox.addAssign A a x)
  | .addAssignOwned a b => changing (SecretBox.addAssignOwned A a b)
  | .addVal a x => giving (SecretBox.addVal A a x)
  | .refAddVal a x => giving (SecretBox.refAddVal A a x)
  | .addOwned a b => giving (SecretBox.addOwned A a b)
  | .addRef a b => giving (SecretBox.addRef A a b)
  | .refAddOwned a b => giving (SecretBox.refAddOwned A a b)
  | .refAddRef a b => giving (SecretBox.refAddRef A a b)
  | .subVal a x => giving (SecretBox.subVal A a x)
  | .subOwned a b => giving (SecretBox.subOwned A a b)
  | .mulAssign a x => changing (SecretBox.mulAssign A a x)
  | .mulVal a x => giving (SecretBox.mulVal A a x)
  | .refMulVal a x => giving (SecretBox.refMulVal A a x)
  | .mulOwned a b => giving (SecretBox.mulOwned A a b)
  | .mulRef a b => giving (SecretBox.mulRef A a b)
  | .refMulRef a b => giving (SecretBox.refMulRef A a b)
  | .divAssign a x => changing (SecretBox.divAssign A a x)
  | .div a x => giving (SecretBox.div A a x)
  | .remAssign a x => changing (SecretBox.remAssign A a x)
  | .rem a x => giving (SecretBox.rem A a x)
  | .retrieve a => giving (SecretBox.retrieve A a)
  | .pow a e => giving (SecretBox.pow A a e)
  | .toMontgomery a params => giving (SecretBox.toMontgomery A a params)
  | .conditionalSelect a b choice => giving (SecretBox.conditionalSelect a b choice)
  | .conditionalNegate a choice => changing (SecretBox.conditionalNegate A a choice)
  | .sumOwned l => giving (SecretBox.sumOwned A l)
  | .sumRefs l => giving (SecretBox.sumRefs A l)
  | .mulByGenerator a => showing (SecretBox.mulByGenerator A a)
  | .pointMulOwned p a => showing (SecretBox.pointMulOwned A p a)
  | .pointMulRef p a => showing (SecretBox.pointMulRef A p a)
  | .scalarFromWideUint a => givingMaybe (SecretBox.scalarFromWideUint A a)
  | .uintFromScalar a => givingMaybe (SecretBox.uintFromScalar A a)

end Synedrion.SecretBox
