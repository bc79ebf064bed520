import Verif.Model.SecretBounded
import Verif.Model.Paillier

/-!
# Paillier secret keys, encryption and decryption in memory

`Model/Paillier` has the values in a precomputed secret key; here are the same functions of src/paillier/rsa.rs, src/paillier/keys.rs and src/paillier/encryption.rs with the boxes and variables they use, as in `Model/SecretBox`. Cells hold
natural numbers; a Montgomery form is the residue it stands for, without its parameters. Memory that the arithmetic of the libraries uses is not modelled, nor are copies made when a value is moved. Where the code
panics the model ends with `.panic` and leaves the memory as it is: dropping what is there is not modelled. The bounds of integer types are not modelled either, so that `checked_add` does not fail and
`SecretUnsigned::new` accepts its argument.
-/

namespace Synedrion.SecretKeys

open SecretBox

/-- `SecretPrimes::new`, src/paillier/rsa.rs:121-141; where the totient is. `p` and `q` less one are variables of the integer type; nothing zeroizes them. -/
def primesNew (p q : Nat) : M Nat (Out Unit Nat) := do
  let pv ← expose p
  if pv = 0 then return .panic
  else do
    let pMinusOne ← alloc (pv - 1)
    let qv ← expose q
    if qv = 0 then return .panic
    else do
      let qMinusOne ← alloc (qv - 1)
      let totient ← initWith do return (← expose pMinusOne) * (← expose qMinusOne)
      forget qMinusOne
      forget pMinusOne
      return .ok totient

/-- `new_params_vartime(primes.p_half_odd().expose_secret().clone())`, src/paillier/keys.rs:79-82, with `p_half_odd`, `q_half_odd`, src/paillier/rsa.rs:159-165. The parameters contain the modulus. -/
def paramsOf (p : Nat) : M Nat Nat := do
  let odd ← initWith (expose p)
  let params ← alloc (← expose odd)
  wipe odd
  return params

/-- `inv_totient`, src/paillier/keys.rs:84-94. `to_montgomery` takes its argument by value; this copy and the result, of which the inverse is taken by reference, are not zeroized. -/
def invTotientOf (N totient : Nat) : M Nat (Option Nat) := tryInitWith do
  let copy ← alloc (← expose totient)
  let reduced ← alloc ((← expose copy) % N)
  forget copy
  let r := invMod? ((← expose reduced : Nat) : ZMod N)
  forget reduced
  return r.map ZMod.val

/-- `inv_modulus`, src/paillier/keys.rs:96-105 -/
def invModulusOf (N totient : Nat) : M Nat (Option Nat) := tryInitWith do
  let t ← expose totient
  return (invMod? ((N : Nat) : ZMod t)).map ZMod.val

/-- `Secret::to_montgomery`, src/tools/secret.rs:422-427, as in `p_mod`, src/paillier/keys.rs:107: the argument is cloned and given by value. -/
def toMontgomery (a n : Nat) : M Nat Nat := initWith do
  let copy ← alloc (← expose a)
  let v ← expose copy
  forget copy
  return v % n

/-- `inv_p_mod_q`, src/paillier/keys.rs:108-113 -/
def invPOf (pMod q : Nat) : M Nat (Option Nat) := tryInitWith do
  let v ← expose pMod
  return (invMod? ((v : Nat) : ZMod q)).map ZMod.val

/-- $2 p^{-1} - 1 \mod q$, src/paillier/keys.rs:119-125; `&a + &a` clones `a`, `- one` takes `one` by value (src/tools/secret.rs:232-234, 256-258), and the difference is a temporary box. -/
def garner (invP q : Nat) : M Nat Nat := do
  let one ← initWith (pure (1 % q))
  let sum ← clone invP
  let v ← expose invP
  assign sum ((((← expose sum) : ZMod q) + (v : ZMod q)).val)
  let o ← expose one
  assign sum ((((← expose sum) : ZMod q) - (o : ZMod q)).val)
  wipe one
  let t ← initWith (expose sum)
  wipe sum
  return t

/-- The constant for sampling non-squares, src/paillier/keys.rs:131-144. `Monty::new` takes a copy by value. -/
def constantOf (N p t : Nat) : M Nat (Option Nat) := do
  let u ← initWith do return (← expose t) * (← expose p)
  let wide ← initWith (expose p)
  let u' ← initWith do return (← expose u) + (← expose wide)
  wipe wide
  let v ← expose u'
  if v = 0 then return none
  else do
    let u'' ← initWith (pure (v - 1))
    let r ← initWith do
      let copy ← alloc (← expose u'')
      let v ← expose copy
      forget copy
      return v % N
    wipe u''
    wipe u'
    wipe u
    return some r

/-- `SecretKeyPaillier`, src/paillier/keys.rs:48-69: where its parts are -/
structure Key where
  p : Nat
  q : Nat
  totient : Nat
  invTotient : Nat
  invModulus : Nat
  invPModQ : Nat
  nonsquareConstant : Nat
  paramsP : Nat
  paramsQ : Nat
  deriving DecidableEq, Repr

/-- The second half of `SecretKeyPaillier::new`, src/paillier/keys.rs:107-157 -/
def keyEnd (N p q totient paramsP paramsQ invTotient invModulus : Nat) : M Nat (Out Unit Key) := do
  let qv ← expose paramsQ
  let pMod ← toMontgomery p qv
  match ← invPOf pMod qv with
  | none => return .panic
  | some invP => do
    let t ← garner invP qv
    match ← constantOf N p t with
    | none => return .panic
    | some constant => do
      wipe t
      wipe pMod
      return .ok ⟨p, q, totient, invTotient, invModulus, invP, constant, paramsP, paramsQ⟩

/-- `SecretKeyPaillier::new`, src/paillier/keys.rs:75-157 -/
def keyNew (p q : Nat) : M Nat (Out Unit Key) := do
  match ← primesNew p q with
  | .ok totient => do
    let N := (← expose p) * (← expose q)
    if N % 2 = 1 then do
      let paramsP ← paramsOf p
      let paramsQ ← paramsOf q
      match ← invTotientOf N totient with
      | none => return .panic
      | some invTotient => do
        match ← invModulusOf N totient with
        | none => return .panic
        | some invModulus => keyEnd N p q totient paramsP paramsQ invTotient invModulus
    else return .panic
  | _ => return .panic

/-- Dropping a `SecretKeyPaillier`, src/paillier/keys.rs:48-69. The parameters of the Montgomery forms are not in a `Secret`. -/
def keyDrop (k : Key) : M Nat Unit := do
  wipe k.p
  wipe k.q
  wipe k.totient
  wipe k.invTotient
  wipe k.invModulus
  wipe k.invPModQ
  wipe k.nonsquareConstant
  forget k.paramsP
  forget k.paramsQ

/-- `Randomizer::new`, src/paillier/encryption.rs:43-49: where the Montgomery form of the randomizer is -/
def randomizerNew (N rho : Nat) : M Nat Nat := toMontgomery rho N

/-- `new_with_randomizer_inner`, src/paillier/encryption.rs:98-133; the secrets are given by reference, and the ciphertext is public. `Secret * &T`, `Secret + &T` and the multiplication of two `Secret`s work in
place (src/tools/secret.rs:277-281, 180-184, 319-321), as does `conditional_negate` (443-445). -/
def encrypt (N absPlaintext rho : Nat) (isNegative : Bool) : M Nat (Ct N) := do
  let factor1 ← toMontgomery absPlaintext (N ^ 2)
  assign factor1 (((← expose factor1 : Nat) : Ct N) * (N : Ct N)).val
  let v ← expose factor1
  assign factor1 (if isNegative then -(v : Ct N) else (v : Ct N)).val
  assign factor1 (((← expose factor1 : Nat) : Ct N) + 1).val
  let randomizer ← initWith (expose rho)
  let reduced ← toMontgomery randomizer (N ^ 2)
  let factor2 ← initWith do return (((← expose reduced : Nat) : Ct N) ^ N).val
  wipe reduced
  let v ← expose factor2
  assign factor1 (((← expose factor1 : Nat) : Ct N) * (v : Ct N)).val
  wipe factor2
  let ciphertext ← expose factor1
  wipe factor1
  wipe randomizer
  return (ciphertext : Ct N)

/-- `decrypt`, src/paillier/encryption.rs:205-235, with `totient_wide_unsigned`, src/paillier/rsa.rs:195-201. `w` is the bit width of `Uint`, `bits` is `MODULUS_BITS`. -/
def decrypt (w bits N totient invTotient : Nat) (c : Ct N) : M Nat (Out Unit SecretBounded.Handle) := do
  let unsigned ← clone totient
  let wide ← initWith (expose unsigned)
  wipe unsigned
  let t ← initWith do return (powUnsigned c (← expose wide) bits).val
  assign t (((← expose t : Nat) : Ct N) - 1).val
  let x ← initWith (expose t)
  wipe t
  assign x ((← expose x) / N)
  let x' ← initWith (expose x)
  let xMod ← toMontgomery x' N
  let inv ← expose invTotient
  assign xMod (((← expose xMod : Nat) : ZMod N) * (inv : ZMod N)).val
  let positive ← initWith (expose xMod)
  wipe xMod
  let r ← SecretBounded.newModulo w positive (BitVec.ofNat w N) bits
  wipe x'
  wipe x
  wipe wide
  return SecretBounded.expect r

/-- `derive_randomizer`, src/paillier/encryption.rs:238-261, with `Randomizer::new_mod`, 35-41: where the randomizer and its Montgomery form are -/
def deriveRandomizer (bits N invModulus : Nat) (c : Ct N) : M Nat (Nat × Nat) := do
  let cModN := ((c.val % N : Nat) : ZMod N)
  let reduced ← initWith do return (powUnsigned cModN (← expose invModulus) bits).val
  let randomizer ← initWith (expose reduced)
  return (randomizer, reduced)

end Synedrion.SecretKeys
