import Verif.Model.Signing
import Mathlib.Algebra.Module.Basic

/-!
# What it means that the nonce of a signature is fixed by the first round (C71)
-/

namespace Synedrion.Spec

open Synedrion Signing

variable {q : Nat} {G : Type} [AddCommGroup G] [Module (ZMod q) G]

/-- The El Gamal commitment `(B1, B2)` broadcast in round 1, with the key `Y` broadcast beside it, commits its sender to the nonce point `gamma`. -/
def CommitsTo (q : Nat) [Module (ZMod q) G] (g : G) (first : Echo1 G) (gamma : G) : Prop :=
  ∃ b : ZMod q, first.capB1 = b • g ∧ first.capB2 = b • first.capY + gamma

/-- A prover whose proof begins with the points `A`, `N`, `B` and who has to show that `gamma` is the committed nonce point has an answer to the challenge `e`. -/
def NonceAnswerable (g : G) (first : Echo1 G) (gamma capA capN capB : G) (e : ZMod q) : Prop :=
  ∃ z u : ZMod q, z • g = capA + e • first.capB1 ∧ u • g + z • first.capY = capN + e • first.capB2 ∧ u • g = capB + e • gamma

/-- The prover could have answered no challenge but the one the hash gave: the proof was a guess of one value out of `q`. -/
def Guessed {Aux : Type} (H : ElogHash G Aux → ZMod q) (g : G) (first : Echo1 G) (gamma : G) (aux : Aux) (prf : ElogProof (ZMod q) G) : Prop :=
  ∀ e, NonceAnswerable g first gamma prf.capA prf.capN prf.capB e →
    e = H ⟨prf.capA, prf.capN, prf.capB, first.capB1, first.capB2, first.capY, gamma, g, aux⟩

end Synedrion.Spec
