import Verif.Model.AuxGen
import Verif.Props.ZkFac

/-!
# What honest parties draw for auxiliary info, and what consistent auxiliary info is
-/

namespace Synedrion.Spec

variable {I Sid : Type} [LinearOrder I]

/-- The scheme parameters are consistent and the hashes return what the code's challenge functions return: `k` bits, invertible residues modulo the key,
integers of `±2^L`. -/
structure HashesValid (E : AuxEnv I Sid) (k : Nat) : Prop where
  consistent : E.P.SelfConsistent
  curve : 0 < E.P.numBits
  extra : 2 * E.P.modBits + E.P.L + E.P.EPS + 1 < E.P.extra
  prm : ∀ t, (E.prmH t).length = k
  mod : ∀ t, ∀ y ∈ E.modH t, Nat.Coprime y t.pk
  fac : ∀ t, (E.facH t).IsDraw E.P.L

/-- Two distinct odd primes of full size whose product is a usable modulus. -/
structure FullSizePrimes (P : Params) (p q : Nat) : Prop where
  primes : PaillierPrimes p q
  lowP : 2 ^ (P.primeBits - 1) ≤ p
  lowQ : 2 ^ (P.primeBits - 1) ≤ q
  highP : p < 2 ^ P.primeBits
  highQ : q < 2 ^ P.primeBits

/-- What an honest party draws for itself. -/
structure DrawsValid (E : AuxEnv I Sid) (k : Nat) (d : AuxDraws I) : Prop where
  key : FullSizePrimes E.P d.p d.q
  blumP : d.p % 4 = 3
  blumQ : d.q % 4 = 3
  composite : E.isPrime (d.p * d.q) = false
  rpKey : FullSizePrimes E.P d.rpP d.rpQ
  lambda : d.lambda < 2 ^ (E.P.modBits - 2)
  tDraw : IsInvertibleDraw (d.rpP * d.rpQ) d.tDraw
  prmLen : d.prmMasks.length = k
  prmMasks : ∀ a ∈ d.prmMasks, a < (d.rpP - 1) * (d.rpQ - 1)
  modDraw : IsInvertibleDraw (d.p * d.q) d.modDraw

/-- What an honest party with key `N0` draws for the factoring proof towards a party with ring-Pedersen modulus `Nh`. The last two conditions keep the
masks away from the ends of their interval (by the length of what they mask), so that the range check does not fail. -/
structure FacDrawsValid (P : Params) (N0 Nh : Nat) (mask : FacMasks) : Prop where
  masks : Props.FacMasksValid P N0 Nh mask
  innerAlpha : mask.alpha.val.natAbs + 2 ^ (P.primeBits + P.L - 1) ≤ 2 ^ (P.L + P.EPS + P.primeBits - 2 - 1)
  innerBeta : mask.beta.val.natAbs + 2 ^ (P.primeBits + P.L - 1) ≤ 2 ^ (P.L + P.EPS + P.primeBits - 2 - 1)

/-- Consistent auxiliary info of the parties `ids`: everyone has the same public part, which covers exactly `ids`, and owns the primes of its own public
key. -/
structure ConsistentAux (ids : Finset I) (infos : I → AuxInfo I PaillierKey PublicAux) (pub : I → PublicAux) : Prop where
  owner : ∀ i ∈ ids, (infos i).owner = i
  holders : ∀ i ∈ ids, (infos i).pub.keySet = ids
  public_agree : ∀ i ∈ ids, ∀ j ∈ ids, (infos i).pub.get? j = some (pub j)
  secret_matches : ∀ i ∈ ids, (infos i).secret.p * (infos i).secret.q = (pub i).pk

/-- Auxiliary info as produced by auxiliary info generation: it is consistent, the keys are made of primes of full size, and the ring-Pedersen parameters
`setup` have odd moduli of the right size and invertible bases. -/
structure UsableAux (P : Params) (ids : Finset I) (infos : I → AuxInfo I PaillierKey PublicAux) (setup : I → RPSetup) : Prop where
  consistent : ConsistentAux ids infos fun i => ⟨(infos i).secret.p * (infos i).secret.q, (setup i).rp.toWire⟩
  primes : ∀ i ∈ ids, FullSizePrimes P (infos i).secret.p (infos i).secret.q
  secretKey : ∀ i ∈ ids, (SecretKey.new (infos i).secret.p (infos i).secret.q : Out Unit _) = .ok (infos i).secret.sk
  rpOdd : ∀ i ∈ ids, (setup i).modulus % 2 = 1
  rpSize : ∀ i ∈ ids, (setup i).modulus < 2 ^ P.modBits
  rpValid : ∀ i ∈ ids, (setup i).rp.Valid

end Synedrion.Spec
