import Verif.Spec.Network
import Verif.Spec.Evidence
import Verif.Model.Required

/-!
# Evidence in executions over the network

A message consists of parts that are signed separately; `part m r p` is part `p` of the message `m` of round `r`, if it has one. Evidence against a party consists of parts of its messages and of
the echo-broadcasts that it confirmed (with its signature) to have received.
-/

namespace Synedrion.Spec

variable {I M S E R : Type} [LinearOrder I] {Mp : Part → Nat → Type}

/-- The echo-broadcasts of round `r` among some messages, with their senders. -/
def echosOf (part : M → (r : Nat) → (p : Part) → Option (Mp p r)) (r : Nat) (got : List (I × M)) : List (I × Mp .echo r) :=
  got.filterMap fun a => (part a.2 r .echo).map fun x => (a.1, x)

/-- What the party `i` can present in its round `s` when it refuses the message `m` of `j`: that message, everything `j` sent it before, and for each round it completed
the echo-broadcasts that it received from the others and its own. (That `j` received the same is what the echo round is for; otherwise `i` would have stopped then.) -/
structure Presents (P : Machine I M S E R) (part : M → (r : Nat) → (p : Part) → Option (Mp p r)) (ids : Finset I) (n : Net I M S E R) (i : I) (s : S) (j : I) (m : M)
    (t : Transcript I Mp) : Prop where
  refused : ∀ p, t.msg (P.round s) p = part m (P.round s) p
  earlier : ∀ x ∈ n.past i, ∀ m', (j, m') ∈ x.2 → ∀ p, t.msg (P.round x.1) p = part m' (P.round x.1) p
  echos : ∀ x ∈ n.past i, ∀ a ∈ P.send x.1, ∀ own, part a.2 (P.round x.1) .echo = some own →
    EchosAgainst ids i j own (echosOf part (P.round x.1) x.2) (t.combined (P.round x.1))

/-- Everything in the evidence was signed by the party `j` during the execution: parts of messages that it sent, to anybody, but direct messages only to `reporter`, and the echo-broadcasts
of rounds that it completed, as it received them. -/
structure SignedBy (P : Machine I M S E R) (part : M → (r : Nat) → (p : Part) → Option (Mp p r)) (n : Net I M S E R) (j reporter : I) {k : Nat} (ev : Package I Mp k) : Prop where
  current : ∀ p x, ev.current p = some x → ∃ i m, P.Sent n j i k m ∧ (p = .direct → i = reporter) ∧ part m k p = some x
  previous : ∀ r msg p x, ev.previous r = some msg → msg p = some x → ∃ i m, P.Sent n j i r m ∧ (p = .direct → i = reporter) ∧ part m r p = some x
  combined : ∀ r echos, ev.combined r = some echos → ∃ x ∈ n.past j, P.round x.1 = r ∧ echos.entries.Perm (echosOf part r x.2)

end Synedrion.Spec
