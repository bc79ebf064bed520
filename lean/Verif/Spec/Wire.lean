import Verif.Model.Wire
import Verif.Spec.CurveBytes

/-!
# What can be sent

The model has natural numbers and integers where the messages have integers of a fixed size. `Fits` says that a part of a message is a value of its type in the code: the
integers are below the powers of two given by their types, a signed integer is below its declared bound, and the length of a string of bits has 32 bits. `points` are the curve
points in it.
-/

namespace Synedrion.Spec

variable {I G V : Type} [LinearOrder I] {q : Nat}

/-- The encodings of a scheme: whole bytes, sizes below 2³², enough room for scalars, and the properties of the encodings that come from other crates -/
structure FormatValid [Zero G] (W : WireFormat G V) (q : Nat) : Prop where
  order : 0 < q
  scalar : q ≤ 2 ^ (8 * W.scalarSize)
  uint : 8 ∣ W.P.uint ∧ W.P.uint < 2 ^ 32
  wide : 8 ∣ W.P.wide ∧ W.P.wide < 2 ^ 32
  extra : 8 ∣ W.P.extra ∧ W.P.extra < 2 ^ 32
  points : Sec1Laws W.S
  digest : ∀ v, W.digestOfBytes (W.digestBytes v) = v

/-- A value is encoded, and the decoder gives it back. -/
def RoundTrips {ε α : Type} (c : WireCodec ε I α) (x : α) : Prop := ∃ d, c.enc x = .ok d ∧ c.dec d = some x

/-- A string of bits whose length has 32 bits -/
def BitsFit (b : List Bool) : Prop := b.length < 2 ^ 32

/-- All values of a map -/
def AllValues {α : Type} (p : α → Prop) (m : BMap I α) : Prop := ∀ v ∈ m.values, p v

/-- `RPParamsWire` -/
def RPFits (P : Params) (r : RPParamsWire) : Prop := r.modulus < 2 ^ P.uint ∧ r.baseRandomizer < 2 ^ P.uint ∧ r.baseValue < 2 ^ P.uint

/-- `EncElgProof` -/
structure EncElgFits (P : Params) (p : EncElgProof q G) : Prop where
  capS : p.capS < 2 ^ P.uint
  capD : p.capD < 2 ^ P.wide
  capT : p.capT < 2 ^ P.uint
  z1 : p.z1.WF P.uint
  z2 : p.z2 < 2 ^ P.uint
  z3 : p.z3.WF P.wide

/-- `AffGProof` -/
structure AffGFits (P : Params) (p : AffGProof q G) : Prop where
  capA : p.capA < 2 ^ P.wide
  capBy : p.capBy < 2 ^ P.wide
  capE : p.capE < 2 ^ P.uint
  capS : p.capS < 2 ^ P.uint
  capF : p.capF < 2 ^ P.uint
  capT : p.capT < 2 ^ P.uint
  z1 : p.z1.WF P.uint
  z2 : p.z2.WF P.uint
  z3 : p.z3.WF P.wide
  z4 : p.z4.WF P.wide
  w : p.w < 2 ^ P.uint
  wY : p.wY < 2 ^ P.uint

/-- `AffGStarProof` -/
structure AffGStarFits (P : Params) (p : AffGStarProof G) : Prop where
  e : BitsFit p.e
  commitments : ∀ c ∈ p.commitments, c.capA < 2 ^ P.wide ∧ c.capB < 2 ^ P.wide
  elements : ∀ x ∈ p.elements, x.z.WF P.uint ∧ x.zPrime.WF P.uint ∧ x.w < 2 ^ P.uint ∧ x.lambda < 2 ^ P.uint

/-- `DecProof` -/
structure DecFits (P : Params) (p : DecProof G) : Prop where
  e : BitsFit p.e
  commitments : ∀ c ∈ p.commitments, c.capA < 2 ^ P.wide
  elements : ∀ x ∈ p.elements, x.z.WF P.uint ∧ x.w.WF P.wide ∧ x.nu < 2 ^ P.uint

/-- `FacProof` -/
structure FacFits (P : Params) (p : FacProof) : Prop where
  e : p.e.WF P.uint
  capP : p.capP < 2 ^ P.uint
  capQ : p.capQ < 2 ^ P.uint
  capA : p.capA < 2 ^ P.uint
  capB : p.capB < 2 ^ P.uint
  capT : p.capT < 2 ^ P.uint
  z1 : p.z1.WF P.wide
  z2 : p.z2.WF P.wide
  w1 : p.w1.WF P.wide
  w2 : p.w2.WF P.wide
  v : p.v.WF P.extra

/-- `PrmProof` -/
structure PrmFits (P : Params) (p : PrmProof) : Prop where
  commitment : ∀ x ∈ p.commitment, x < 2 ^ P.uint
  challenge : BitsFit p.challenge
  proof : ∀ x ∈ p.proof, x < 2 ^ P.uint

/-- `ModProof` -/
structure ModFits (P : Params) (p : ModProof) : Prop where
  commitment : p.commitment < 2 ^ P.uint
  challenge : ∀ x ∈ p.challenge, x < 2 ^ P.uint
  proof : ∀ x ∈ p.proof, x.x < 2 ^ P.uint ∧ x.z < 2 ^ P.uint

/-- The points of `ElogProof` -/
def elogPoints (p : ElogProof (ZMod q) G) : List G := [p.capA, p.capN, p.capB]

/-- The points of `DecProof` -/
def decPoints (p : DecProof G) : List G := p.commitments.flatMap fun c => [c.capB, c.capC]

/-- Parts of the messages of key generation -/
def keyInitFits : (p : Part) → (r : Nat) → KeyInit.Parts (ZMod q) G V p r → Prop
  | .echo, 2, rho => BitsFit rho
  | .normal, 2, m => BitsFit m.u
  | _, _, _ => True

/-- Their points -/
def keyInitPoints : (p : Part) → (r : Nat) → KeyInit.Parts (ZMod q) G V p r → List G
  | .normal, 2, m => [m.capX, m.capA]
  | _, _, _ => []

/-- Parts of the messages of auxiliary info generation; they have no points. -/
def auxGenFits (P : Params) : (p : Part) → (r : Nat) → AuxGen.Parts V p r → Prop
  | .echo, 2, m => RPFits P m.rp ∧ BitsFit m.rid
  | .normal, 2, m => m.pk < 2 ^ P.uint ∧ PrmFits P m.psi ∧ BitsFit m.u
  | .normal, 3, psi => ModFits P psi
  | .direct, 3, psi => FacFits P psi
  | _, _, _ => True

/-- Parts of the messages of key refresh -/
def keyRefreshFits (P : Params) : (p : Part) → (r : Nat) → KeyRefresh.Parts I (ZMod q) G V p r → Prop
  | .echo, 2, m => RPFits P m.rp ∧ BitsFit m.rid
  | .normal, 2, m => m.pk < 2 ^ P.uint ∧ PrmFits P m.psi ∧ BitsFit m.u
  | .normal, 3, psi => ModFits P psi
  | .direct, 3, m => FacFits P m.psi
  | _, _, _ => True

/-- Their points -/
def keyRefreshPoints : (p : Part) → (r : Nat) → KeyRefresh.Parts I (ZMod q) G V p r → List G
  | .echo, 2, m => m.capYs.values
  | .normal, 2, m => m.capXs.values ++ m.capAs.values
  | _, _, _ => []

/-- Messages of rounds 5 and 6 of signing -/
def errFits (P : Params) (m : Signing.MsgErr I G) : Prop := DecFits P m.psiStar ∧ AllValues (AffGStarFits P) m.psis

/-- Their points -/
def errPoints (m : Signing.MsgErr I G) : List G := decPoints m.psiStar ++ m.psis.values.flatMap fun p => p.commitments.map AffGStarCommitment.capR

/-- Parts of the messages of signing -/
def signingFits (P : Params) : (p : Part) → (r : Nat) → Signing.Parts q I G p r → Prop
  | .echo, 1, m => m.capK < 2 ^ P.wide ∧ m.capG < 2 ^ P.wide
  | .direct, 1, m => EncElgFits P m.1 ∧ EncElgFits P m.2
  | .echo, 2, m => AllValues (· < 2 ^ P.wide) m.capFs ∧ AllValues (· < 2 ^ P.wide) m.hatCapFs
  | .normal, 2, m => AllValues (· < 2 ^ P.wide) m.capDs ∧ AllValues (· < 2 ^ P.wide) m.hatCapDs ∧ AllValues (AffGFits P) m.psis ∧ AllValues (AffGFits P) m.hatPsis
  | .echo, 5, m | .echo, 6, m | .normal, 5, m | .normal, 6, m => errFits P m
  | _, _, _ => True

/-- Their points -/
def signingPoints : (p : Part) → (r : Nat) → Signing.Parts q I G p r → List G
  | .echo, 1, m => [m.capY, m.capA1, m.capA2, m.capB1, m.capB2]
  | .direct, 1, m => [m.1.capY, m.1.capZ, m.2.capY, m.2.capZ]
  | .echo, 2, m => [m.capGamma]
  | .normal, 2, m => elogPoints m.psiElog ++ m.psis.values.map AffGProof.capBx ++ m.hatPsis.values.map AffGProof.capBx
  | .normal, 3, m => m.capDelta :: elogPoints m.psiPrime ++ [m.capS]
  | .echo, 5, m | .echo, 6, m | .normal, 5, m | .normal, 6, m => errPoints m
  | _, _, _ => []

/-! ### Messages of honest parties -/

/-- All parts of a message of key generation -/
def keyInitMessageFits (m : KeyInit.Message (ZMod q) G V) : Prop := ∀ r p x, m.part r p = some x → keyInitFits p r x

/-- All parts of a message of auxiliary info generation -/
def auxGenMessageFits (P : Params) (m : AuxGen.Message V) : Prop := ∀ r p x, m.part r p = some x → auxGenFits P p r x

/-- All parts of a message of key refresh -/
def keyRefreshMessageFits (P : Params) (m : KeyRefresh.Message I (ZMod q) G V) : Prop := ∀ r p x, m.part r p = some x → keyRefreshFits P p r x

/-- All parts of a message of signing -/
def signingMessageFits (P : Params) (m : Signing.Message q I G) : Prop := ∀ r p x, m.part r p = some x → signingFits P p r x

/-- The states at the beginning of a round that a party can reach from `s₀` if it receives only messages with the property `ok` -/
inductive Machine.Reached {M S E R : Type} (P : Machine I M S E R) (ok : M → Prop) (s₀ : S) : S → Prop
  | start : P.Reached ok s₀ s₀
  | step {s s' : S} {got : List (I × M)} : P.Reached ok s₀ s → (∀ a ∈ got, ok a.2) → P.next s got = .ok (.inl s') → P.Reached ok s₀ s'

/-- Public auxiliary info with moduli of the right size -/
def AuxFits (P : Params) (a : PublicAux) : Prop := a.pk < 2 ^ P.modBits ∧ a.rp.modulus ≤ 2 ^ P.uint

/-- What a signer draws are values of their types, as far as it is not checked when they are used. -/
structure SigningDrawsFit (P : Params) (others : Finset I) (d : Signing.Draws q I) : Prop where
  beta : ∀ j ∈ others, (d.mta.beta j).WF P.uint ∧ (d.hatMta.beta j).WF P.uint
  dec : ∀ eph ∈ d.dec ++ d.hatDec, eph.alpha.WF P.uint ∧ eph.beta.WF P.wide
  star : ∀ j ∈ others, ∀ eph ∈ d.star j ++ d.hatStar j, eph.alpha.WF P.uint ∧ eph.beta.WF P.uint

/-- In signing the hashes return strings of bits that fit, and the order of the curve fits into the integers. -/
structure SigningHashesFit {Ep : Type} (E : Signing.Env q I Ep G) : Prop where
  order : q ≤ 2 ^ E.P.numBits
  decH : ∀ t, BitsFit (E.decH t)
  starH : ∀ t, BitsFit (E.starH t)

/-- The hashes of auxiliary info generation return what fits: strings of bits, residues and integers. -/
structure AuxHashesFit {Sid : Type} (E : AuxEnv I Sid) : Prop where
  prm : ∀ t, BitsFit (E.prmH t)
  mod : ∀ t, ∀ y ∈ E.modH t, y < 2 ^ E.P.uint
  fac : ∀ t, (E.facH t).WF E.P.uint

/-- What a party draws in auxiliary info generation: two moduli of the right size, exponents below the totient, strings of bits. -/
structure AuxDrawsFit (P : Params) (d : AuxDraws I) : Prop where
  key : d.p * d.q ≤ 2 ^ P.uint
  rp : d.rpP * d.rpQ ≤ 2 ^ P.uint
  totient : 0 < (d.rpP - 1) * (d.rpQ - 1)
  prmMasks : ∀ a ∈ d.prmMasks, a < (d.rpP - 1) * (d.rpQ - 1)
  rid : BitsFit d.rid
  u : BitsFit d.u

end Synedrion.Spec
