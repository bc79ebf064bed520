import Verif.Model.SecretBox
import Mathlib.Data.ZMod.Basic

/-!
# Splitting and joining secret scalars, in memory

src/curve/arithmetic.rs:158-174 and src/tools/sss.rs:53-149, on the memory of `Model/SecretBox`. A scalar is in memory as its residue. What is drawn, the share IDs and the coefficients of the interpolation are not in
memory: the former go to their boxes directly, the others are public. The library's arithmetic works in place.
-/

namespace Synedrion.SecretSharing

open SecretBox

variable {q : Nat}

/-- `map(|_| Secret::init_with(…))`, src/curve/arithmetic.rs:167-169, and the same in a loop, src/tools/sss.rs:63-65 -/
def boxes : List (ZMod q) → M Nat (List Nat)
  | [] => pure []
  | d :: l => do
    let a ← initWith (pure d.val)
    return a :: (← boxes l)

/-- `Secret += &T`, src/tools/secret.rs:161-163 -/
def addTo (q acc v : Nat) : M Nat Unit := do assign acc (((← expose acc : Nat) : ZMod q) + (v : ZMod q)).val

/-- The accumulation of `sum` over clones, src/tools/secret.rs:455; every clone is made when its turn comes, and dropped. -/
def reduceClones (q : Nat) : Nat → List Nat → M Nat Nat
  | acc, [] => pure acc
  | acc, b :: l => do
    let c ← clone b
    addTo q acc (← expose c)
    wipe c
    reduceClones q acc l

/-- `parts.iter().cloned().sum()`, src/curve/arithmetic.rs:170, with `sum`, src/tools/secret.rs:454-456; the default value is made in any case. -/
def sumClones (q : Nat) : List Nat → M Nat Nat
  | [] => initWith (pure 0)
  | a :: l => do
    let acc ← clone a
    let r ← reduceClones q acc l
    let default ← initWith (pure 0)
    wipe default
    return r

/-- `secret_split`, src/curve/arithmetic.rs:158-174, into one more part than there are draws. `Secret - Secret` works in place and drops the right-hand side. -/
def secretSplit (scalar : Nat) : List (ZMod q) → M Nat (List Nat)
  | [] => return [scalar]
  | d :: l => do
    let parts ← boxes (d :: l)
    let partialSum ← sumClones q parts
    let v ← expose partialSum
    assign scalar (((← expose scalar : Nat) : ZMod q) - (v : ZMod q)).val
    wipe partialSum
    return parts ++ [scalar]

/-- The loop of `Polynomial::evaluate`, src/tools/sss.rs:73-76; `*` and `+` work in place. -/
def hornerLoop (x : ZMod q) : Nat → List Nat → M Nat Nat
  | acc, [] => pure acc
  | acc, c :: l => do
    assign acc (((← expose acc : Nat) : ZMod q) * x).val
    addTo q acc (← expose c)
    hornerLoop x acc l

/-- `Polynomial::evaluate`, src/tools/sss.rs:69-77; `none` if it panics -/
def evaluate (coeffs : List Nat) (x : ZMod q) : M Nat (Option Nat) :=
  match coeffs.reverse with
  | [] => pure none
  | c :: l => do
    let acc ← clone c
    return some (← hornerLoop x acc l)

/-- All shares, src/tools/sss.rs:118 -/
def evaluateAll (coeffs : List Nat) : List (ZMod q) → M Nat (Option (List Nat))
  | [] => pure (some [])
  | x :: l => do
    match ← evaluate coeffs x with
    | none => pure none
    | some s => do
      match ← evaluateAll coeffs l with
      | none => pure none
      | some r => pure (some (s :: r))

/-- Dropping a list or a map of secrets -/
def wipeAll : List Nat → M Nat Unit
  | [] => pure ()
  | a :: l => do
    wipe a
    wipeAll l

/-- `shamir_split`, src/tools/sss.rs:108-119, with `Polynomial::random`, 60-67; the IDs are distinct. The polynomial is dropped at the end. -/
def shamirSplit (secret : Nat) (draws ids : List (ZMod q)) : M Nat (Option (List Nat)) := do
  let coeffs := secret :: (← boxes draws)
  let shares ← evaluateAll coeffs ids
  wipeAll coeffs
  return shares

/-- The loop of `shamir_join_scalars`, src/tools/sss.rs:144-146, with the coefficients next to the shares; `&Secret * T` clones, and `+=` drops the right-hand side. -/
def joinLoop (sum : Nat) : List (Nat × ZMod q) → M Nat Unit
  | [] => pure ()
  | (a, k) :: l => do
    let p ← clone a
    assign p (((← expose p : Nat) : ZMod q) * k).val
    addTo q sum (← expose p)
    wipe p
    joinLoop sum l

/-- `shamir_join_scalars`, src/tools/sss.rs:138-149; the shares are dropped at the end. -/
def shamirJoin (pairs : List (Nat × ZMod q)) : M Nat Nat := do
  let sum ← initWith (pure 0)
  joinLoop sum pairs
  wipeAll (pairs.map Prod.fst)
  return sum

/-- `KeyShare::new_centralized`, src/entities/full.rs:219-249: the secret shares, in the order of the parties. The public shares are not in memory, and the shares are moved to the results. -/
def dealShares (secret : ZMod q) (draws : List (ZMod q)) : M Nat (List Nat) := do
  let a ← initWith (pure secret.val)
  secretSplit a draws

/-- The clones of the shares, src/entities/threshold.rs:101-104 -/
def cloneAll : List Nat → M Nat (List Nat)
  | [] => pure []
  | a :: l => do
    let c ← clone a
    return c :: (← cloneAll l)

/-- `ThresholdKeyShare::new_centralized`, src/entities/threshold.rs:64-117: the secret shares, in the order of the parties, after the threshold was checked. The map of shares is dropped at the end. -/
def dealThreshold (secret : ZMod q) (draws ids : List (ZMod q)) : M Nat (Option (List Nat)) := do
  let a ← initWith (pure secret.val)
  match ← shamirSplit a draws ids with
  | none => pure none
  | some shares => do
    let out ← cloneAll shares
    wipeAll shares
    return some out

/-- `KeyShare::update`, src/entities/full.rs:178-215, when the checks succeed: `Secret + Secret` works in place and drops the right-hand side. -/
def updateShare (q secret change : Nat) : M Nat Nat := do
  addTo q secret (← expose change)
  wipe change
  return secret

/-- The secret shares of `to_key_share` and `from_key_share`, src/entities/threshold.rs:165, 201-204: `self.secret_share.clone() * coeff`, which works in place -/
def convertShare (a : Nat) (coeff : ZMod q) : M Nat Nat := do
  let c ← clone a
  assign c (((← expose c : Nat) : ZMod q) * coeff).val
  return c

/-- The new share of `finalize`, src/protocols/key_resharing.rs:432-443; the payloads with the subshares are dropped later. The coefficients are next to the subshares. -/
def reshareJoin (subshares : List Nat) (coeffs : List (ZMod q)) : M Nat Nat := do
  let copies ← cloneAll subshares
  shamirJoin (copies.zip coeffs)

/-- The accumulation of `sum` over values that are given up, src/tools/secret.rs:455 -/
def reduceOwned (q : Nat) : Nat → List Nat → M Nat Nat
  | acc, [] => pure acc
  | acc, b :: l => do
    addTo q acc (← expose b)
    wipe b
    reduceOwned q acc l

/-- `sum` over values that are given up, src/tools/secret.rs:454-456; the default value is made in any case. -/
def sumOwned (q : Nat) : List Nat → M Nat Nat
  | [] => initWith (pure 0)
  | a :: l => do
    let r ← reduceOwned q a l
    let default ← initWith (pure 0)
    wipe default
    return r

/-- `xs.into_values().sum::<Secret<Scalar<P>>>() + my_x`, src/protocols/key_refresh.rs:1045 -/
def refreshSum (q : Nat) (xs : List Nat) (myX : Nat) : M Nat Nat := do
  let r ← sumOwned q xs
  addTo q r (← expose myX)
  return r

end Synedrion.SecretSharing
