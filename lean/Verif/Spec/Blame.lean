/-!
# Specification: what honest parties receive from each other

Two honest parties `a` and `b` run a protocol. The network delivers in the name of an honest party only what it sent, and an echo broadcast reaches both in the same form.
Nothing is assumed about the messages of other parties.
-/

namespace Synedrion.Spec

variable {I M Ec : Type}

/-- Whatever arrived in the name of `j` is the message `msg`. -/
def OnlyFrom (j : I) (msg : M) (arrivals : List (I × M)) : Prop := ∀ m, (j, m) ∈ arrivals → m = msg

/-- The parties `a` and `b`, which echo-broadcast `ea` and `eb`, received the same echo-broadcast parts: `a` received the one of `b`, `b` received the one of `a`, and from
every other party they received the same. -/
structure EchoAgreement (echo : M → Ec) (a b : I) (ea eb : Ec) (inA inB : List (I × M)) : Prop where
  fromA : ∀ m, (a, m) ∈ inB → echo m = ea
  fromB : ∀ m, (b, m) ∈ inA → echo m = eb
  fromThird : ∀ k m m', (k, m) ∈ inA → (k, m') ∈ inB → echo m = echo m'

end Synedrion.Spec
