import Verif.Model.Signing
import Verif.Spec.ZeroKnowledge

/-!
# Specification: hiding the scalars of a multiplication, and a signer that does not respect it

In round 2 of signing every signer answers the encrypted nonce shares of the others with its own secret scalars, hidden by a mask. The first definition below describes the choice of the mask. The others
are a program for a dishonest signer. It uses only values it knows: the parameters, its own Paillier key and the public parameters of the one it writes to.
-/

namespace Synedrion.Spec

open Signing

/-- The choices that hide the secret scalar in an answer: the mask in `±2^LP` and the randomizer of its ciphertext under the key with modulus `N`. -/
def answerChoices (P : Params) (N : Nat) : Finset (Int × Nat) := pm P.LP ×ˢ residues N

section
variable {I : Type} [DecidableEq I]

/-- The given draws, with the mask and the randomizer for `j` replaced by the choices `c`. -/
def withChoices (P : Params) (d : MtaDraws I) (j : I) (c : Int × Nat) : MtaDraws I :=
  { d with beta := Function.update d.beta j ⟨P.LP, c.1⟩, s := Function.update d.s j c.2 }
end

section
variable {q : Nat} {G Aux : Type} [AddCommGroup G] [Module (ZMod q) G]

/-- A proof with a zero ciphertext and a zero randomizer; the statement says `B = b g` and `X = x g + b A`, but the ciphertext may be any. -/
def encElgForgery (P : Params) (H : EncElgHash G Aux → ZMod q) (g : G) {N0 Nh : Nat} (pub : EncElgPublic N0 G) (setup : RPParams Nh) (aux : Aux)
    (x alpha : Nat) (b beta : ZMod q) : EncElgProof q G :=
  let capS := (setup.s ^ x).val
  let capT := (setup.s ^ alpha).val
  let capY := beta • pub.capA + (alpha : ZMod q) • g
  let e := H (encElgHash capS 0 capY (beta • g) capT pub setup aux)
  ⟨e, capS, 0, capY, beta • g, capT, ⟨2 * P.L + 1, ((alpha + x * e.val : Nat) : Int)⟩, beta + b * e, 0, ⟨0, 0⟩⟩

/-- The echo broadcast of the dishonest signer with modulus `N`: instead of a nonce share its ciphertext `K` holds `2^LP`; all points are the generator. -/
def greedyEcho (P : Params) (g : G) (N : Nat) : Echo1 G := ⟨(encryption N (2 ^ P.LP) 1).val, (encryption N 0 1).val, g, g, g, g, g⟩

/-- The message of the dishonest signer of round 1, for a receiver with the parameters `setup`. -/
def greedyMessage {I Ep : Type} (E : Env q I Ep G) (N : Nat) (setup : RPSetup) (aux : Ep × I) : Msg1 q G :=
  let echo := greedyEcho E.P E.C.g N
  { echo := echo
    psi0 := encElgForgery E.P E.encH E.C.g (echo.pub0 N) setup.rp aux 0 1 1 1
    psi1 := encElgForgery E.P E.encH E.C.g (echo.pub1 N) setup.rp aux 0 1 1 1 }

/-- How the dishonest signer reads a decrypted answer. -/
def readAnswer (P : Params) (q : Nat) (v : SInt) : ZMod q := (((v.val + 2 ^ (P.LP - 1)) / 2 ^ P.LP : Int) : ZMod q)

end

end Synedrion.Spec
