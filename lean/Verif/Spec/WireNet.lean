import Verif.Model.WireNet
import Verif.Spec.Wire
import Verif.Spec.NetworkWith

/-!
# Executions over serialized messages as executions over messages
-/

namespace Synedrion.Spec

variable {I M S E R : Type} [LinearOrder I]

/-- Serialized messages of round `r` and what they are deserialized to, with their senders -/
def Reads (T : Transport I M) (r : Nat) (got : List (I × Packet I)) (got' : List (I × M)) : Prop :=
  List.Forall₂ (fun a b => a.1 = b.1 ∧ T.unpack r a.2 = some b.2) got got'

/-- Where a party is in an execution over serialized messages and in one over messages. A party that has received something that cannot be read, or that panics because of the
serialization, corresponds to one that stops for reasons of its own. What cannot be read is never from an honest party. -/
inductive StatusMatches (T : Transport I M) (round : S → Nat) (honest : Set I) : Status I (Packet I) S (WireErr E) R → Status I M S E R → Prop
  | running {s : S} {got : List (I × Packet I)} {got' : List (I × M)} : Reads T (round s) got got' → StatusMatches T round honest (.running s got) (.running s got')
  | finished {r : R} : StatusMatches T round honest (.finished r) (.finished r)
  | fault {i : I} {e : E} : StatusMatches T round honest (.stopped (.fault i (.protocol e))) (.stopped (.fault i e))
  | localErr {e : LocalErr} : StatusMatches T round honest (.stopped (.localErr e)) (.stopped (.localErr e))
  | incomplete : StatusMatches T round honest (.stopped .incomplete) (.stopped .incomplete)
  | malformed {j : I} : j ∉ honest → StatusMatches T round honest (.stopped (.fault j .malformed)) .crashed
  | panicked : StatusMatches T round honest .panicked .panicked
  | unserializable : StatusMatches T round honest .panicked .crashed
  | crashed : StatusMatches T round honest .crashed .crashed

/-- An execution over serialized messages and one over messages with the same course: the parties are at the same places, have begun the same rounds and have received the same messages in
the rounds they have completed (but for a round at whose end a party has panicked). -/
structure SameCourse (T : Transport I M) (round : S → Nat) (honest : Set I) (n : Net I (Packet I) S (WireErr E) R) (n' : Net I M S E R) : Prop where
  status : ∀ i, StatusMatches T round honest (n.status i) (n'.status i)
  begun : n'.begun = n.begun
  past : ∀ i, ∃ rest, List.Forall₂ (fun x y => x.1 = y.1 ∧ Reads T (round x.1) x.2 y.2) ((n.past i).take ((n.past i).length - rest)) (n'.past i) ∧
    rest ≤ 1 ∧ (n.status i ≠ .panicked → rest = 0)

/-- Hashing panics only if a message that is received or sent in the round has the property `bad`. -/
structure PanicsOnly (P : Machine I M S E R) (panics : Panics I M S) (bad : M → Prop) : Prop where
  recv : ∀ s j m, panics.recv s j m = true → bad m
  next : ∀ s got, panics.next s got = true → (∃ a ∈ got, bad a.2) ∨ ∃ a ∈ P.send s, bad a.2

/-- What is read as a message has the parts that the message has when it is sent, and no others. -/
def SameParts (T : Transport I M) : Prop :=
  ∀ r d m d', T.unpack r d = some m → T.pack m = .ok d' → d.echo.isSome = d'.echo.isSome ∧ d.normal.isSome = d'.normal.isSome ∧ d.direct.isSome = d'.direct.isSome

end Synedrion.Spec
