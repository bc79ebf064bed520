import Verif.Spec.WireNet

/-!
# Messages without identity points
-/

namespace Synedrion.Spec

variable {I M S E R : Type} [LinearOrder I]

/-- Whatever the schedule, if all parties follow the protocol then all messages that they send have the property `good`. -/
def Machine.SendsOnly (P : Machine I M S E R) (parties : Finset I) (init : I → S) (good : M → Prop) : Prop :=
  ∀ n, P.Reachable (parties : Set I) init n → ∀ i ∈ parties, ∀ j k m, P.Sent n i j k m → good m

variable {G V : Type} [AddCommGroup G] {q : Nat}

/-- No point in a message of key generation is the identity. -/
def keyInitNoIdentity (m : KeyInit.Message (ZMod q) G V) : Prop := ∀ r p x, m.part r p = some x → 0 ∉ keyInitPoints p r x

/-- No point in a message of key refresh is the identity. -/
def keyRefreshNoIdentity (m : KeyRefresh.Message I (ZMod q) G V) : Prop := ∀ r p x, m.part r p = some x → 0 ∉ keyRefreshPoints p r x

/-- No point in a message of key resharing is the identity. -/
def resharingNoIdentity (m : KeyResharing.Msg (ZMod q) G) : Prop := 0 ∉ m.publicPolynomial

/-- No point in a message of signing is the identity. -/
def signingNoIdentity (m : Signing.Message q I G) : Prop := ∀ r p x, m.part r p = some x → 0 ∉ signingPoints p r x

end Synedrion.Spec
