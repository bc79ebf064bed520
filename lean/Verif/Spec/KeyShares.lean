import Verif.Model.Entities
import Verif.Spec.Sharing

/-!
# What it means for a set of shares to share a key
-/

namespace Synedrion.Spec

variable {I F G : Type} [LinearOrder I] [Field F] [LinearOrder F] [AddCommGroup G] [Module F G]

/-- The parties `ids` hold an additive sharing of `sk`: each share is owned by its holder, all holders see the same public map, it covers
exactly `ids`, each public share is the public key of the holder's secret share, and the secret shares add up to `sk`. -/
structure SharesKey (g : G) (ids : Finset I) (shares : I → KeyShare I F G) (sk : F) : Prop where
  owner : ∀ i ∈ ids, (shares i).owner = i
  holders : ∀ i ∈ ids, (shares i).pub.keySet = ids
  same_public : ∀ i ∈ ids, ∀ j ∈ ids, (shares i).pub = (shares j).pub
  public_matches : ∀ i ∈ ids, ∀ j ∈ ids, (shares i).pub.get? j = some ((shares j).secret • g)
  sum : ∑ i ∈ ids, (shares i).secret = sk

/-- The changes handed to the parties `ids` re-randomise a sharing without moving the key. -/
structure ZeroSumChange (g : G) (ids : Finset I) (change : I → KeyShareChange I F G) : Prop where
  owner : ∀ i ∈ ids, (change i).owner = i
  holders : ∀ i ∈ ids, (change i).publicShareChanges.keySet = ids
  public_matches : ∀ i ∈ ids, ∀ j ∈ ids, (change i).publicShareChanges.get? j = some ((change j).secretShareChange • g)
  sum : ∑ i ∈ ids, (change i).secretShareChange = 0

/-- The parties `ids` hold a `t`-threshold sharing of `sk`: there are distinct share ids and a polynomial with at most `t` coefficients and
constant term `sk` such that each secret share is its value, and everyone sees the same share ids and public shares. -/
def ThresholdSharing (g : G) (ids : Finset I) (t : Nat) (shares : I → ThresholdKeyShare I F G) (sk : F) : Prop :=
  t ≤ ids.card ∧ ∃ (sid : I → F) (tail : List F), tail.length < t ∧ Set.InjOn sid ids ∧
    ∀ i ∈ ids, (shares i).owner = i ∧ (shares i).threshold = t ∧
      (shares i).secretShare = polyValue (sk :: tail) (sid i) ∧
      (shares i).shareIds.keySet = ids ∧ (∀ j ∈ ids, (shares i).shareIds.get? j = some (sid j)) ∧
      (shares i).publicShares.keySet = ids ∧
      (∀ j ∈ ids, (shares i).publicShares.get? j = some ((shares j).secretShare • g))

end Synedrion.Spec
