import Verif.Model.Machines
import Verif.Model.Required

/-!
# The parts of the messages

The message of a round is sent as up to three separately signed parts: the echo-broadcast, the normal broadcast and the direct message. Here the parts of the messages of
`Verif/Model/Machines.lean`, as the evidence contains them.
-/

namespace Synedrion

variable {I : Type} [LinearOrder I]

/-- The parts of the messages of key generation, src/protocols/key_init.rs:324-331, 399-425, 510-524 -/
def KeyInit.Message.part {F G V : Type} : KeyInit.Message F G V → (r : Nat) → (p : Part) → Option (KeyInit.Parts F G V p r)
  | .one v, 1, .echo => some v
  | .two m, 2, .echo => some m.rho
  | .two m, 2, .normal => some ⟨m.capX, m.capA, m.u⟩
  | .three psi, 3, .normal => some psi
  | _, _, _ => none

/-- The parts of the messages of auxiliary info generation, src/protocols/aux_gen.rs:422-431, 504-527, 644-671 -/
def AuxGen.Message.part {V : Type} : AuxGen.Message V → (r : Nat) → (p : Part) → Option (AuxGen.Parts V p r)
  | .one v, 1, .echo => some v
  | .two m, 2, .echo => some m.echo
  | .two m, 2, .normal => some ⟨m.pk, m.psi, m.u⟩
  | .three m, 3, .normal => some m.psiPrime
  | .three m, 3, .direct => some m.psi
  | _, _, _ => none

/-- The parts of the messages of key refresh, src/protocols/key_refresh.rs:621-630, 710-736, 903-953 -/
def KeyRefresh.Message.part {F G V : Type} : KeyRefresh.Message I F G V → (r : Nat) → (p : Part) → Option (KeyRefresh.Parts I F G V p r)
  | .one v, 1, .echo => some v
  | .two m, 2, .echo => some m.echo
  | .two m, 2, .normal => some ⟨m.capXs, m.capAs, m.pk, m.psi, m.u⟩
  | .three m, 3, .echo => some m.hatPsis
  | .three m, 3, .normal => some m.psiPrime
  | .three m, 3, .direct => some ⟨m.psi, m.capC⟩
  | _, _, _ => none

/-- The parts of the messages of signing, src/protocols/interactive_signing.rs:1098-1113, 1472-1486, 1826-1836, 2002-2004, 2098-2101, 2316-2319 -/
def Signing.Message.part {q : Nat} {G : Type} : Signing.Message q I G → (r : Nat) → (p : Part) → Option (Signing.Parts q I G p r)
  | .one m, 1, .echo => some m.echo
  | .one m, 1, .direct => some (m.psi0, m.psi1)
  | .two m, 2, .echo => some m.echo
  | .two m, 2, .normal => some ⟨m.capDs, m.hatCapDs, m.psiElog, m.psis, m.hatPsis⟩
  | .three m, 3, .echo => some m.delta
  | .three m, 3, .normal => some ⟨m.capDelta, m.psiPrime, m.capS⟩
  | .four sigma, 4, .normal => some sigma
  | .error m, 5, .echo => some m
  | .error m, 6, .echo => some m
  | _, _, _ => none

end Synedrion
