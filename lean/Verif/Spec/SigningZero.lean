import Verif.Model.Signing

/-!
# Draws of a signer that do not lead to an identity point
-/

namespace Synedrion.Spec

variable {q : Nat} {I : Type} [LinearOrder I]

/-- None of the scalars whose multiples of the generator party `i` sends is zero, when the parties `ids` sign with shares of the key `sk` and the draws `d`. -/
structure SigningAvoidsZero (sk : ZMod q) (ids : Finset I) (d : I → Signing.Draws q I) (i : I) : Prop where
  /-- What is drawn in round 1 -/
  drawn : (d i).k ≠ 0 ∧ (d i).gamma ≠ 0 ∧ (d i).y ≠ 0 ∧ (d i).a ≠ 0 ∧ (d i).b ≠ 0
  /-- The encryptions of `k` and `gamma` with the ElGamal key `y` -/
  elgamal : (d i).a * (d i).y + (d i).k ≠ 0 ∧ (d i).b * (d i).y + (d i).gamma ≠ 0
  /-- The masks of the proofs that these and the Paillier encryptions match, for each recipient -/
  encProofs : ∀ j ∈ ids, j ≠ i → ∀ m ∈ [(d i).enc0 j, (d i).enc1 j], m.beta ≠ 0 ∧ m.beta * (d i).y + scalarOfSigned q m.alpha ≠ 0
  /-- The masks of the proofs about discrete logarithms, in rounds 2 and 3 -/
  elogProofs : ∀ m ∈ [((d i).elogAlpha, (d i).elogM), ((d i).elogAlpha', (d i).elogM')], m.1 ≠ 0 ∧ m.2 ≠ 0 ∧ m.2 + m.1 * (d i).y ≠ 0
  /-- The masks of the proofs about the multiplications, for each recipient -/
  affProofs : ∀ j ∈ ids, j ≠ i → ∀ m ∈ [(d i).mta.masks j, (d i).hatMta.masks j], scalarOfSigned q m.alpha ≠ 0
  /-- The share of the product of `k` and the key, which party `i` has after the multiplications -/
  share : sk * (d i).k + ∑ j ∈ ids.erase i, (scalarOfSigned q ((d i).hatMta.beta j) - scalarOfSigned q ((d j).hatMta.beta i)) ≠ 0

end Synedrion.Spec
