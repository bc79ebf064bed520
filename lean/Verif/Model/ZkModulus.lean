import Verif.Model.Paillier
import Verif.Model.Params

/-!
# Zero-knowledge proofs about the moduli

Models `src/zk/prm.rs` and `src/zk/mod_.rs`.
-/

namespace Synedrion

variable {ε : Type} {Aux : Type}

/-! ## prm -/

/-- What is hashed, src/zk/prm.rs:52-56 (after the tag `P_prm`) -/
structure PrmHash (Aux : Type) where
  commitment : List Nat
  setup : RPParamsWire
  aux : Aux

/-- `PrmProof`, src/zk/prm.rs:62-68 -/
structure PrmProof where
  commitment : List Nat
  challenge : List Bool
  proof : List Nat
  deriving DecidableEq

/-- `PrmProof::new`, src/zk/prm.rs:73-102: `as` are the secret residues modulo the totient (`PrmSecret::random`, 29-34, bound
`MODULUS_BITS`). -/
def PrmProof.prove {N : Nat} (P : Params) (H : PrmHash Aux → List Bool) (totient lambda : Nat) (setup : RPParams N) (aux : Aux) (as : List Nat) :
    PrmProof :=
  let commitment := as.map fun a => (powUnsigned setup.t a P.modBits).val
  let challenge := H ⟨commitment, setup.toWire, aux⟩
  let proof := (as.zip challenge).map fun x => if x.2 then (x.1 + lambda) % totient else x.1
  ⟨commitment, challenge, proof⟩

/-- The check of one challenge bit, src/zk/prm.rs:120-125; `pow_bounded_exp(z, z.bits_vartime())` is the exact power. -/
def prmCheck {N : Nat} (setup : RPParams N) (e : Bool) (z a : Nat) : Bool :=
  let a : ZMod N := (a : ZMod N)
  let pwr := powBounded setup.t z (bitLen z)
  if e then decide (pwr = a * setup.s) else decide (pwr = a)

/-- `PrmProof::verify`, src/zk/prm.rs:105-128. The loop runs over the shortest of the three lists. -/
def PrmProof.verify {N : Nat} (H : PrmHash Aux → List Bool) (self : PrmProof) (setup : RPParams N) (aux : Aux) : Bool :=
  let challenge := H ⟨self.commitment, setup.toWire, aux⟩
  if challenge ≠ self.challenge then false
  else ((challenge.zip self.proof).zip self.commitment).all fun x => prmCheck setup x.1.1 x.1.2 x.2

/-! ## mod -/

/-- What is hashed in `ModChallenge::new`, src/zk/mod_.rs:39-47 (after the tag `P_mod`) -/
structure ModHash (Aux : Type) where
  pk : Nat
  commitment : Nat
  aux : Aux

/-- `ModProofElem`, src/zk/mod_.rs:52-57 -/
structure ModElem where
  x : Nat
  a : Bool
  b : Bool
  z : Nat
  deriving DecidableEq

/-- `ModProof`, src/zk/mod_.rs:68-74 -/
structure ModProof where
  commitment : Nat
  challenge : List Nat
  proof : List ModElem
  deriving DecidableEq

/-- One iteration of the search over sign and factor, src/zk/mod_.rs:91-108: the last combination that has a root wins. -/
def modSearchStep {p q : Nat} (P : Params) (w : Nat) (y : Nat) (found : Option ((ZMod p × ZMod q) × Bool × Bool)) (ab : Bool × Bool) :
    Option ((ZMod p × ZMod q) × Bool × Bool) :=
  let wRns := rnsSplit p q w
  let y0 := rnsSplit p q y
  let y1 := if ab.1 then (-y0.1, -y0.2) else y0
  let y2 := if ab.2 then (y1.1 * wRns.1, y1.2 * wRns.2) else y1
  match rnsSqrt P.primeBits y2 with
  | some root => some (root, ab.1, ab.2)
  | none => found

/-- The answer to one challenge, src/zk/mod_.rs:87-129 -/
def modAnswer {p q : Nat} (P : Params) (sk : SecretKey p q) (w : Nat) (y : Nat) : Out ε ModElem :=
  let found := [(false, false), (false, true), (true, false), (true, true)].foldl (modSearchStep P w y) (none : Option ((ZMod p × ZMod q) × Bool × Bool))
  (Out.ofOptionPanic found).bind fun (root, a, b) =>
  (Out.ofOptionPanic (rnsSqrt P.primeBits root)).bind fun root4 =>
  let x := rnsJoin sk root4
  let z := powUnsigned (y : ZMod (p * q)) sk.invModulus P.modBits
  .ok ⟨x, a, b, z.val⟩

/-- `ModProof::new`, src/zk/mod_.rs:77-137; `w` is the non-square residue drawn by `ModCommitment::random`. -/
def ModProof.prove {p q : Nat} (P : Params) (H : ModHash Aux → List Nat) (sk : SecretKey p q) (aux : Aux) (w : Nat) : Out ε ModProof :=
  let challenge := H ⟨p * q, w, aux⟩
  (Out.mapM' (modAnswer P sk w) challenge).bind fun proof => .ok ⟨w, challenge, proof⟩

/-- The check of one answer, src/zk/mod_.rs:170-194; `pk_modulus` is positive with the bound `MODULUS_BITS`. -/
def modCheck (P : Params) (N : Nat) (w : Nat) (elem : ModElem) (y : Nat) : Bool :=
  let z : ZMod N := (elem.z : ZMod N)
  let y0 : ZMod N := (y : ZMod N)
  if ¬ isInvertible y N then false
  else if powBounded z N P.modBits ≠ y0 then false
  else
    let y1 := if elem.a then -y0 else y0
    let y2 := if elem.b then y1 * (w : ZMod N) else y1
    let x : ZMod N := (elem.x : ZMod N)
    decide (y2 = (x * x) * (x * x))

/-- `ModProof::verify`, src/zk/mod_.rs:139-196. `isPrime` is the (probabilistic) primality test. The loop runs over the shorter of the two
lists. -/
def ModProof.verify (P : Params) (H : ModHash Aux → List Nat) (isPrime : Nat → Bool) (self : ModProof) (N : Nat) (aux : Aux) : Bool :=
  let challenge := H ⟨N, self.commitment, aux⟩
  if challenge ≠ self.challenge then false
  else if isPrime N then false
  else if Nat.gcd N self.commitment ≠ 1 then false
  else (self.proof.zip self.challenge).all fun x => modCheck P N self.commitment x.1 x.2

end Synedrion
