import Verif.Model.AuxGen

/-!
# What is checked of the public data of another party
-/

namespace Synedrion.Spec

variable {I Sid : Type} [LinearOrder I]

/-- The Paillier and ring-Pedersen moduli of party `j` are odd and not too small, and there are proofs that are accepted for this session and party: that the one base generates the other, that the Paillier
modulus is of the right kind, and that it has no small factor. The last is made with the parameters `rp` of the verifier, the last two with the random string `rid`. -/
def Vetted (E : AuxEnv I Sid) (sid : Sid) (j : I) (rid : List Bool) {N : Nat} (rp : RPParams N) (x : PublicAux) : Prop :=
  ∃ (modulus : Nat) (rpj : RPParams modulus) (prm : PrmProof) (mod : ModProof) (fac : FacProof), x.rp = rpj.toWire ∧
    x.pk % 2 = 1 ∧ E.P.modBits - 2 ≤ bitLen x.pk ∧ modulus % 2 = 1 ∧ E.P.modBits - 2 ≤ bitLen modulus ∧
    prm.verify E.prmH rpj (sid, j) = true ∧ mod.verify E.P E.modH E.isPrime x.pk (sid, j, rid) = true ∧ (fac.verify E.P E.facH x.pk rp (sid, j, rid) : Out Empty _) = .ok true

end Synedrion.Spec
