import Verif.Model.Out
import Mathlib.Algebra.Module.Defs
import Mathlib.Algebra.Field.Defs

/-!
# Zero-knowledge proofs over the curve only

Models `src/zk/sch.rs` and `src/zk/elog.rs`. The hash is a parameter: an arbitrary function of what is hashed.
-/

namespace Synedrion

variable {F G Aux : Type} [Field F] [AddCommGroup G] [Module F G] [DecidableEq F] [DecidableEq G]

/-- What is hashed in `SchChallenge::new`, src/zk/sch.rs:48-55 (after the tag `P_sch`) -/
structure SchHash (G Aux : Type) where
  aux : Aux
  capX : G
  commitment : G

/-- `SchProof`, src/zk/sch.rs:60-64 -/
structure SchProof (F : Type) where
  challenge : F
  proof : F
  deriving DecidableEq

/-- `SchCommitment::new`, src/zk/sch.rs:38-40 -/
def schCommitment (g : G) (alpha : F) : G := alpha • g

/-- `SchProof::new`, src/zk/sch.rs:67-77 -/
def SchProof.prove (H : SchHash G Aux → F) (alpha x : F) (commitment capX : G) (aux : Aux) : SchProof F :=
  let challenge := H ⟨aux, capX, commitment⟩
  ⟨challenge, alpha + x * challenge⟩

/-- `SchProof::verify`, src/zk/sch.rs:79-82 -/
def SchProof.verify (H : SchHash G Aux → F) (g : G) (self : SchProof F) (commitment capX : G) (aux : Aux) : Bool :=
  let challenge := H ⟨aux, capX, commitment⟩
  decide (challenge = self.challenge) && decide (commitment + challenge • capX = self.proof • g)

/-- `ElogPublicInputs`, src/zk/elog.rs:22-33 -/
structure ElogPublic (G : Type) where
  capL : G
  capM : G
  capX : G
  capY : G
  h : G
  deriving DecidableEq

/-- What is hashed, src/zk/elog.rs:61-73, 92-104 (after the tag `P_elog`) -/
structure ElogHash (G Aux : Type) where
  capA : G
  capN : G
  capB : G
  capL : G
  capM : G
  capX : G
  capY : G
  h : G
  aux : Aux

/-- `ElogProof`, src/zk/elog.rs:38-45 -/
structure ElogProof (F G : Type) where
  e : F
  capA : G
  capN : G
  capB : G
  z : F
  u : F

/-- `ElogProof::new`, src/zk/elog.rs:48-89; `alpha` and `m` are the random scalars. -/
def ElogProof.prove (H : ElogHash G Aux → F) (g : G) (y lambda : F) (pub : ElogPublic G) (aux : Aux) (alpha m : F) : ElogProof F G :=
  let capA := alpha • g
  let capN := m • g + alpha • pub.capX
  let capB := m • pub.h
  let e := H ⟨capA, capN, capB, pub.capL, pub.capM, pub.capX, pub.capY, pub.h, aux⟩
  ⟨e, capA, capN, capB, alpha + lambda * e, m + y * e⟩

/-- `ElogProof::verify`, src/zk/elog.rs:91-129 -/
def ElogProof.verify (H : ElogHash G Aux → F) (g : G) (self : ElogProof F G) (pub : ElogPublic G) (aux : Aux) : Bool :=
  let e := H ⟨self.capA, self.capN, self.capB, pub.capL, pub.capM, pub.capX, pub.capY, pub.h, aux⟩
  if e ≠ self.e then false
  else if self.z • g ≠ self.capA + e • pub.capL then false
  else if self.u • g + self.z • pub.capX ≠ self.capN + e • pub.capM then false
  else if self.u • pub.h ≠ self.capB + e • pub.capY then false
  else true

end Synedrion
