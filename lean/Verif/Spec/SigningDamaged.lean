import Verif.Model.Signing

/-!
# What a proof of the first round of signing is bound to
-/

namespace Synedrion.Spec

open Signing

variable {q : Nat} {I Ep G : Type}

/-- What is hashed for the first proof of a round 1 message `m`, by a party for which the session has the id `epid`, the prover `id` has the Paillier modulus
`pk`, and the verifier has the ring-Pedersen parameters `rp`. -/
def encInput (epid : Ep) (id : I) (pk : Nat) (rp : RPParamsWire) (m : Msg1 q G) : EncElgHash G (Ep × I) where
  capS := m.psi0.capS
  capD := m.psi0.capD
  capY := m.psi0.capY
  capZ := m.psi0.capZ
  capT := m.psi0.capT
  pk0 := pk
  capC := ctToWire (ctOfWire pk m.echo.capK)
  capA := m.echo.capY
  capB := m.echo.capA1
  capX := m.echo.capA2
  setup := rp
  aux := (epid, id)

end Synedrion.Spec
