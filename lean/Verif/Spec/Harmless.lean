import Verif.Model.AuxGen

/-!
# Messages that do not make a party panic

The conditions under which `C47` leaves no panic.
-/

namespace Synedrion.Spec

/-- What a party with a random string of `ridLen` bits can take from a round 2 message of the generation of auxiliary info (or key refresh) without a panic: the public key and the ring-Pedersen modulus
are odd and have at most `modBits` bits, both bases of the ring-Pedersen parameters are invertible, and the random string of the sender has the right length. -/
structure HarmlessAux (modBits ridLen pk : Nat) (rp : RPParamsWire) (rid : List Bool) : Prop where
  odd : pk % 2 = 1
  fits : pk < 2 ^ modBits
  rpOdd : rp.modulus % 2 = 1
  rpFits : rp.modulus < 2 ^ modBits
  ridLength : rid.length = ridLen
  baseValue : Nat.Coprime rp.baseValue rp.modulus
  baseRandomizer : Nat.Coprime rp.baseRandomizer rp.modulus

/-- What a party with the ring-Pedersen modulus `Nh` can take from a factoring proof without a panic: its first two commitments are invertible. -/
def HarmlessFac (Nh : Nat) (psi : FacProof) : Prop := Nat.Coprime psi.capP Nh ∧ Nat.Coprime psi.capQ Nh

end Synedrion.Spec
