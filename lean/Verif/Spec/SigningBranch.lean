import Verif.Model.Signing

/-!
# Which way a signer goes after round 3, and what decides it
-/

namespace Synedrion.Spec

variable {q : Nat} [Fact q.Prime] {I Ep G : Type} [LinearOrder I] [AddCommGroup G] [Module (ZMod q) G] [DecidableEq G]

/-- After round 3 a signer sends its signature share, or shows its innocence in one of the two error rounds. -/
inductive Branch where
  | signatureShares
  | wrongNonce
  | wrongKey
  deriving DecidableEq, Repr

def branchOf : Signing.After3 q I Ep G → Branch
  | .round4 _ => .signatureShares
  | .error r => if r.hat then .wrongKey else .wrongNonce

/-- What a party `j` has broadcast that matters for the way taken -/
structure Announced (q : Nat) (G : Type) where
  /-- the echo broadcast of round 1 -/
  round1 : Signing.Echo1 G
  /-- the nonce point of round 2 (echo broadcast) -/
  capGamma : G
  /-- the masked nonce share of round 3 (echo broadcast) -/
  delta : ZMod q
  /-- the point `S` of round 3 (ordinary broadcast, not echoed) -/
  capS : G

/-- The statement of the proof sent with `capDelta` in round 3: it is the nonce share committed to in round 1, times the combined nonce point. -/
def DeltaTrue (g : G) (e : Signing.Echo1 G) (capDelta capGammaCombined : G) : Prop :=
  ∃ k a : ZMod q, e.capA1 = a • g ∧ e.capA2 = k • g + a • e.capY ∧ capDelta = k • capGammaCombined

/-- The party `me`, which started with `r1` and entered round 3 with `r3`, saw the broadcasts `bc`: it received those of the others, and sent its own. Every proof
of the third round that it accepted is about a true statement. -/
structure Saw (g : G) (bc : I → Announced q G) (me : I) (r1 : Signing.Round1 q I Ep G) (r3 : Signing.Round3 q I Ep G) (in1 : List (I × Signing.Msg1 q G))
    (in2 : List (I × Signing.Msg2 q I G)) (in3 : List (I × Signing.Msg3 q G)) : Prop where
  round1 : ∀ a ∈ in1, a.2.echo = (bc a.1).round1
  round2 : ∀ a ∈ in2, a.2.echo.capGamma = (bc a.1).capGamma
  delta : ∀ a ∈ in3, a.2.delta = (bc a.1).delta
  capS : ∀ a ∈ in3, a.2.capS = (bc a.1).capS
  proofs : ∀ a ∈ in3, DeltaTrue (q := q) g (bc a.1).round1 a.2.capDelta r3.capGammaCombined
  own1 : (bc me).round1 = r1.echo
  own2 : (bc me).capGamma = r1.ctx.d.gamma • g
  own3 : (bc me).delta = r3.msg.delta ∧ (bc me).capS = r3.msg.capS

end Synedrion.Spec
