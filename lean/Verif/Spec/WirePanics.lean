import Verif.Spec.WireNet
import Verif.Spec.WireFinish

/-!
# The states parties come to in executions over serialized messages
-/

namespace Synedrion.Spec

variable {I M S E R : Type} [LinearOrder I]

/-- Party `i` has come to the state `s`: `s` results from its initial state and what it has read in the first so many rounds that it has completed. It need not have begun the round, if it could not send the messages. -/
def Machine.ComesTo (P : Machine I M S E R) (T : Transport I M) (init : I → S) (n : Net I (Packet I) S (WireErr E) R) (i : I) (s : S) : Prop :=
  ∃ l got, l <+: n.past i ∧ List.Forall₂ (fun x y => Reads T (P.round x.1) x.2 y) l got ∧ P.replay (init i) got = .ok (.inl s)

/-- No point in a message of signing is the identity, and the scalar `delta` of round 3, whose multiple of the generator is hashed if signing fails, is not zero. -/
def signingNoZero {q : Nat} {I G : Type} [LinearOrder I] [AddCommGroup G] (m : Signing.Message q I G) : Prop := signingNoIdentity m ∧ ∀ m3, m = .three m3 → m3.delta ≠ 0

end Synedrion.Spec
