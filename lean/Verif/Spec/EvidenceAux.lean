import Verif.Model.AuxGen

/-!
# Auxiliary data that a check of evidence can rely on
-/

namespace Synedrion.Spec

/-- Wire parameters with an odd modulus and invertible bases -/
def WellFormedRP (w : RPParamsWire) : Prop := w.modulus % 2 = 1 ∧ Nat.Coprime w.baseValue w.modulus ∧ Nat.Coprime w.baseRandomizer w.modulus

/-- Every party's modulus is odd and its ring-Pedersen parameters are well-formed, as auxiliary info generation should guarantee. -/
def WellFormedAux {I : Type} [LinearOrder I] (aux : BMap I PublicAux) : Prop := ∀ id a, aux.get? id = some a → a.pk % 2 = 1 ∧ WellFormedRP a.rp

/-- What is wrong with a supplied echo broadcast of round 2, for a factoring proof `psi` of the accused party with the random string `rid` -/
def BadEcho (rid : List Bool) (psi : FacProof) (otherRid : List Bool) (rp : RPParamsWire) : Prop :=
  otherRid.length ≠ rid.length ∨ ¬ WellFormedRP rp ∨ ¬ Nat.Coprime psi.capP rp.modulus ∨ ¬ Nat.Coprime psi.capQ rp.modulus

end Synedrion.Spec
