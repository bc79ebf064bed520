import Verif.Model.SecretKeys

/-!
# Numbers modulo both primes, in memory

src/paillier/keys.rs:193-262, on the memory of `Model/SecretBox`. The local variables of these functions are not `Secret`s. The numbers given by reference are arguments here, with their values; those that are
returned are where the caller has them. What a Montgomery form contains besides the number is not modelled.
-/

namespace Synedrion.SecretRns

open SecretBox SecretKeys

/-- `p_nonzero`, `q_nonzero`, src/paillier/rsa.rs:183-189, with `p`, `q`, 167-173. The primes of a key are not zero. -/
def nonzeroOf (p : Nat) : M Nat Nat := initWith do
  let wide ← initWith (expose p)
  let v ← expose wide
  wipe wide
  return v

/-- `rns_split`, src/paillier/keys.rs:193-206 -/
def split (k : Key) (elem : Nat) : M Nat (Nat × Nat) := do
  let pNonzero ← nonzeroOf k.p
  let pRem ← alloc (elem % (← expose pNonzero))
  wipe pNonzero
  let qNonzero ← nonzeroOf k.q
  let qRem ← alloc (elem % (← expose qNonzero))
  wipe qNonzero
  let pRemHalf ← alloc (← expose pRem)
  let qRemHalf ← alloc (← expose qRem)
  let pv ← expose k.paramsP
  let pRemMod ← alloc ((← expose pRemHalf) % pv)
  forget pRemHalf
  let qv ← expose k.paramsQ
  let qRemMod ← alloc ((← expose qRemHalf) % qv)
  forget qRemHalf
  forget qRem
  forget pRem
  return (pRemMod, qRemMod)

/-- `sqrt_part`, src/paillier/keys.rs:208-230 -/
def sqrtPart {n : Nat} (primeBits modulus : Nat) (x : ZMod n) : M Nat (Option Nat) := do
  let power ← initWith do return (← expose modulus) / 4 + 1
  let candidate ← alloc (powBounded x (← expose power) (primeBits - 1)).val
  let square ← alloc (((← expose candidate : Nat) : ZMod n) * ((← expose candidate : Nat) : ZMod n)).val
  let v ← expose square
  forget square
  if (v : ZMod n) = x then do
    wipe power
    return some candidate
  else do
    forget candidate
    wipe power
    return none

/-- Giving up an optional value that is not a `Secret` -/
def forgetOption : Option Nat → M Nat Unit
  | some a => forget a
  | none => pure ()

/-- `rns_sqrt`, src/paillier/keys.rs:232-245 -/
def sqrt {p q : Nat} (k : Key) (primeBits : Nat) (rns : ZMod p × ZMod q) : M Nat (Option (Nat × Nat)) := do
  let pRes ← sqrtPart primeBits k.p rns.1
  let qRes ← sqrtPart primeBits k.q rns.2
  match pRes, qRes with
  | some a, some b => return some (a, b)
  | _, _ => do
    forgetOption pRes
    forgetOption qRes
    return none

/-- `rns_join`, src/paillier/keys.rs:247-262; the result is public. `to_montgomery`, `-` and `*` take their arguments by value, `retrieve` and `to_wide` by reference. -/
def join {p q : Nat} (k : Key) (rns : ZMod p × ZMod q) : M Nat Nat := do
  let aHalf ← alloc rns.1.val
  let copy ← alloc (← expose aHalf)
  let aModQ ← alloc ((← expose copy) % (← expose k.paramsQ))
  forget copy
  let b ← alloc rns.2.val
  let difference ← alloc (((← expose b : Nat) : ZMod q) - ((← expose aModQ : Nat) : ZMod q)).val
  forget b
  forget aModQ
  let product ← alloc (((← expose difference : Nat) : ZMod q) * ((← expose k.invPModQ : Nat) : ZMod q)).val
  forget difference
  let x ← alloc (← expose product)
  forget product
  let a ← alloc (← expose aHalf)
  let wide ← alloc ((← expose k.p) * (← expose x))
  let r := (← expose a) + (← expose wide)
  forget wide
  forget a
  forget x
  forget aHalf
  return r

end Synedrion.SecretRns
