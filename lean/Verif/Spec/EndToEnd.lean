import Verif.Spec.SigningZero
import Verif.Spec.Wire
import Verif.Spec.Signing
import Verif.Model.HashPoints
import Verif.Model.WireNet

/-!
# Sessions one after the other

What C102 says of a signing session that follows other sessions.
-/

namespace Synedrion.Spec

variable {q : Nat} [Fact q.Prime] {I Ep G V : Type} [LinearOrder I] [AddCommGroup G] [Module (ZMod q) G] [DecidableEq G]

/-- What the signers `ids` with the key `sk` draw for `message`, given their Paillier moduli `N` and ring-Pedersen moduli `Nh`: values of the intervals and types that the code draws them from, with which
neither ECDSA has an exception nor a zero scalar has to be sent. -/
structure SigningReady (E : Signing.Env q I Ep G) (ids : Finset I) (N Nh : I → Nat) (sk message : ZMod q) (d : I → Signing.Draws q I) : Prop where
  valid : SigningDrawsValid E.P ids N Nh d
  fit : ∀ i ∈ ids, SigningDrawsFit E.P (ids.erase i) (d i)
  k : ∑ i ∈ ids, (d i).k ≠ 0
  gamma : ∑ i ∈ ids, (d i).gamma ≠ 0
  r : (E.C.x ((∑ i ∈ ids, (d i).gamma) • E.C.g) : ZMod q) ≠ 0
  s : message + (E.C.x ((∑ i ∈ ids, (d i).gamma) • E.C.g) : ZMod q) * sk ≠ 0
  avoids : ∀ i ∈ ids, SigningAvoidsZero sk ids d i

/-- With these key shares and this auxiliary info every one of the signers `ids` is accepted and starts; over serialized messages, under any schedule, they all finish, with one signature, which is a
normalized, valid signature of the message under `vk`. -/
def SignsAlways (W : WireFormat G V) (E : Signing.Env q I Ep G) (epidOf : BMap I G → BMap I PublicAux → Ep) (ids : Finset I) (shares : I → KeyShare I (ZMod q) G)
    (infos : I → AuxInfo I PaillierKey PublicAux) (message : ZMod q) (d : I → Signing.Draws q I) (vk : G) : Prop :=
  ∃ (r : I → Signing.Round1 q I Ep G) (init : I → Signing.State q I Ep G) (sig : RecoverableSignature q),
    (∀ i ∈ ids, Signing.new (shares i) (infos i) = .ok () ∧ Signing.start E epidOf message (shares i) (infos i) i (d i) = .ok (r i) ∧ Signing.begin E (r i) = .ok (init i)) ∧
    (overWire (Signing.machine E) W.signingTransport (Signing.hashPanics E.C.g)).AlwaysFinishes ids init (ids.card * (4 * (ids.card + 1))) (fun _ => sig) ∧
    EcdsaValid E.C vk message sig.r sig.s ∧ LowS sig.s

end Synedrion.Spec
