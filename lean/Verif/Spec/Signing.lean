import Verif.Model.Signing
import Verif.Spec.AuxInfo
import Verif.Spec.Ecdsa
import Verif.Spec.KeyShares
import Verif.Props.ZkEncElg
import Verif.Props.ZkAffG

/-!
# What honest parties need and draw for signing
-/

namespace Synedrion.Spec

variable {q : Nat} [Fact q.Prime] {I Ep G : Type} [LinearOrder I] [AddCommGroup G] [Module (ZMod q) G] [DecidableEq G]

/-- Consistent parameters, and a curve of odd prime order that fits them. -/
structure SigningSetting (E : Signing.Env q I Ep G) : Prop where
  consistent : E.P.SelfConsistent
  curve : 0 < E.P.numBits
  order : q < 2 ^ E.P.numBits
  odd : q % 2 = 1
  laws : CurveLaws E.C q

/-- Masks for an enc-elg proof that keep away from the ends of their interval (by the length of what they mask), so that the range check does not fail. -/
structure EncElgDrawsValid (P : Params) (N0 Nh : Nat) (mask : EncElgMasks q) : Prop where
  masks : Props.EncElgMasksValid P N0 Nh mask
  inner : mask.alpha.val.natAbs + 2 ^ (2 * P.L - 1) ≤ 2 ^ (P.L + P.EPS - 1)

/-- What a party with key `N1` draws for a multiplication with a party `j` with key `N0` and ring-Pedersen modulus `Nh`. The last two conditions keep the masks
of the proof away from the ends of their intervals. -/
structure MtaDrawsValid (P : Params) (N0 N1 Nh : Nat) (d : Signing.MtaDraws I) (j : I) : Prop where
  beta : (d.beta j).IsDraw P.LP
  r : Nat.Coprime (d.r j) N1
  s : Nat.Coprime (d.s j) N0
  masks : Props.AffGMasksValid P N0 N1 Nh (d.masks j)
  innerAlpha : (d.masks j).alpha.val.natAbs + 2 ^ (P.L + P.L - 1) ≤ 2 ^ (P.L + P.EPS - 1)
  innerBeta : (d.masks j).beta.val.natAbs + 2 ^ (P.LP + P.L - 1) ≤ 2 ^ (P.LP + P.EPS - 1)

/-- What the honest parties `ids` with the Paillier moduli `N` and ring-Pedersen moduli `Nh` draw; the scalars are arbitrary. -/
structure SigningDrawsValid (P : Params) (ids : Finset I) (N Nh : I → Nat) (d : I → Signing.Draws q I) : Prop where
  nu : ∀ i ∈ ids, Nat.Coprime (d i).nu (N i)
  rho : ∀ i ∈ ids, Nat.Coprime (d i).rho (N i)
  enc0 : ∀ i ∈ ids, ∀ j ∈ ids, i ≠ j → EncElgDrawsValid P (N i) (Nh j) ((d i).enc0 j)
  enc1 : ∀ i ∈ ids, ∀ j ∈ ids, i ≠ j → EncElgDrawsValid P (N i) (Nh j) ((d i).enc1 j)
  mta : ∀ i ∈ ids, ∀ j ∈ ids, i ≠ j → MtaDrawsValid P (N j) (N i) (Nh j) (d i).mta j
  hatMta : ∀ i ∈ ids, ∀ j ∈ ids, i ≠ j → MtaDrawsValid P (N j) (N i) (Nh j) (d i).hatMta j

end Synedrion.Spec
