import Verif.Model.Wire
import Verif.Spec.Network

/-!
# The protocols over serialized messages

What a party sends in a round are three parts, each of them serialized or absent. `receive_message` deserializes the parts of its round before anything else and insists that the
others are absent; a party whose message cannot be read is blamed. Points are also serialized when they are hashed, and an identity point makes this panic. Which points are
hashed when is left open: it is a parameter (`Panics`) that may be anything.
-/

namespace Synedrion

/-- The parts of a message on the wire -/
structure Packet (I : Type) where
  echo : Option (Data I)
  normal : Option (Data I)
  direct : Option (Data I)

/-- How messages are serialized, and how those of a round are deserialized -/
structure Transport (I M : Type) where
  pack : M → Out Unit (Packet I)
  unpack : Nat → Packet I → Option M

/-- The errors of a protocol and those of deserialization -/
inductive WireErr (E : Type) where
  | protocol (e : E)
  | malformed

/-- Where hashing panics: on receipt of a message, or at the end of a round -/
structure Panics (I M S : Type) where
  recv : S → I → M → Bool
  next : S → List (I × M) → Bool

section Glue

variable {I M S E R α : Type}

/-- An error of the protocol among those of the session -/
def Abort.onWire : Abort I E → Abort I (WireErr E)
  | .fault i e => .fault i (.protocol e)
  | .localErr e => .localErr e
  | .incomplete => .incomplete

/-- An outcome of the protocol as one of the session -/
def Out.onWire : Out (Abort I E) α → Out (Abort I (WireErr E)) α
  | .ok a => .ok a
  | .err e => .err e.onWire
  | .panic => .panic

/-- Deserializing the messages of a round -/
def Transport.unpackAll (T : Transport I M) (r : Nat) : List (I × Packet I) → Option (List (I × M))
  | [] => some []
  | a :: l => (T.unpack r a.2).bind fun m => (T.unpackAll r l).map fun l => (a.1, m) :: l

/-- All messages of a round can be serialized. -/
def Transport.packable (T : Transport I M) (l : List (I × M)) : Bool := l.all fun a => (T.pack a.2).isOk

/-- Serializing the messages of a round -/
def Transport.packAll (T : Transport I M) (l : List (I × M)) : List (I × Packet I) := l.filterMap fun a =>
  match T.pack a.2 with
  | .ok d => some (a.1, d)
  | _ => none

/-- A protocol over serialized messages, as in src/protocols/interactive_signing.rs:1207-1216 (deserialization on receipt) and 1138-1205 (serialization of what a round sends, when it
begins). A party that cannot serialize what it sends
panics. Simplified: in the first round it does so when it receives the first message, whereas in the code it does so at once. -/
def overWire (P : Spec.Machine I M S E R) (T : Transport I M) (panics : Panics I M S) : Spec.Machine I (Packet I) S (WireErr E) R where
  round := P.round
  expected := P.expected
  send s := T.packAll (P.send s)
  recv s j d := if T.packable (P.send s) then
      match T.unpack (P.round s) d with
      | none => .err (.fault j .malformed)
      | some m => if panics.recv s j m then .panic else (P.recv s j m).onWire
    else .panic
  next s got := if T.packable (P.send s) then
      match T.unpackAll (P.round s) got with
      | none => .err .incomplete
      | some got => if panics.next s got then .panic else (P.next s got).onWire.bind fun
        | .inl s' => if T.packable (P.send s') then .ok (.inl s') else .panic
        | .inr r => .ok (.inr r)
    else .panic

end Glue

namespace WireFormat

variable {I G V : Type} [LinearOrder I] {q : Nat} (W : WireFormat G V)

/-- Key generation, src/protocols/key_init.rs:324-341, 399-437, 510-536 -/
def keyInitTransport : Transport I (KeyInit.Message (ZMod q) G V) where
  pack
    | .one v => ((W.keyInit (q := q) .echo 1).enc v).bind fun e => .ok ⟨some e, none, none⟩
    | .two m => ((W.keyInit (q := q) .echo 2).enc m.rho).bind fun e => ((W.keyInit (q := q) .normal 2).enc ⟨m.capX, m.capA, m.u⟩).bind fun n => .ok ⟨some e, some n, none⟩
    | .three psi => ((W.keyInit (q := q) .normal 3).enc psi).bind fun n => .ok ⟨none, some n, none⟩
  unpack
    | 1, ⟨some e, none, none⟩ => ((W.keyInit (ε := Unit) (q := q) .echo 1).dec e).map .one
    | 2, ⟨some e, some n, none⟩ => ((W.keyInit (ε := Unit) (q := q) .normal 2).dec n).bind fun n => ((W.keyInit (ε := Unit) (q := q) .echo 2).dec e).map fun rho =>
        .two ⟨rho, n.capX, n.capA, n.u⟩
    | 3, ⟨none, some n, none⟩ => ((W.keyInit (ε := Unit) (q := q) .normal 3).dec n).map .three
    | _, _ => none

/-- Auxiliary info generation, src/protocols/aux_gen.rs:422-441, 504-539, 644-683 -/
def auxGenTransport : Transport I (AuxGen.Message V) where
  pack
    | .one v => ((W.auxGen .echo 1).enc v).bind fun e => .ok ⟨some e, none, none⟩
    | .two m => ((W.auxGen .echo 2).enc m.echo).bind fun e => ((W.auxGen .normal 2).enc ⟨m.pk, m.psi, m.u⟩).bind fun n => .ok ⟨some e, some n, none⟩
    | .three m => ((W.auxGen .normal 3).enc m.psiPrime).bind fun n => ((W.auxGen .direct 3).enc m.psi).bind fun d => .ok ⟨none, some n, some d⟩
  unpack
    | 1, ⟨some e, none, none⟩ => ((W.auxGen (ε := Unit) .echo 1).dec e).map .one
    | 2, ⟨some e, some n, none⟩ => ((W.auxGen (ε := Unit) .echo 2).dec e).bind fun e => ((W.auxGen (ε := Unit) .normal 2).dec n).map fun n => .two ⟨e, n.pk, n.psi, n.u⟩
    | 3, ⟨none, some n, some d⟩ => ((W.auxGen (ε := Unit) .normal 3).dec n).bind fun psiPrime => ((W.auxGen (ε := Unit) .direct 3).dec d).map fun psi => .three ⟨psiPrime, psi⟩
    | _, _ => none

/-- Key refresh, src/protocols/key_refresh.rs:621-640, 710-750, 903-967 -/
def keyRefreshTransport : Transport I (KeyRefresh.Message I (ZMod q) G V) where
  pack
    | .one v => ((W.keyRefresh (I := I) (q := q) .echo 1).enc v).bind fun e => .ok ⟨some e, none, none⟩
    | .two m => ((W.keyRefresh (q := q) .echo 2).enc m.echo).bind fun e => ((W.keyRefresh (q := q) .normal 2).enc ⟨m.capXs, m.capAs, m.pk, m.psi, m.u⟩).bind fun n =>
        .ok ⟨some e, some n, none⟩
    | .three m => ((W.keyRefresh (q := q) .echo 3).enc m.hatPsis).bind fun e => ((W.keyRefresh (I := I) (q := q) .normal 3).enc m.psiPrime).bind fun n =>
        ((W.keyRefresh (q := q) .direct 3).enc ⟨m.psi, m.capC⟩).bind fun d => .ok ⟨some e, some n, some d⟩
  unpack
    | 1, ⟨some e, none, none⟩ => ((W.keyRefresh (ε := Unit) (q := q) .echo 1).dec e).map .one
    | 2, ⟨some e, some n, none⟩ => ((W.keyRefresh (ε := Unit) (q := q) .echo 2).dec e).bind fun e => ((W.keyRefresh (ε := Unit) (q := q) .normal 2).dec n).map fun n =>
        .two ⟨e, n.capXs, n.capAs, n.pk, n.psi, n.u⟩
    | 3, ⟨some e, some n, some d⟩ => ((W.keyRefresh (ε := Unit) (q := q) .echo 3).dec e).bind fun hatPsis => ((W.keyRefresh (ε := Unit) (q := q) .normal 3).dec n).bind fun psiPrime =>
        ((W.keyRefresh (ε := Unit) (q := q) .direct 3).dec d).map fun d => .three ⟨hatPsis, psiPrime, d.psi, d.capC⟩
    | _, _ => none

/-- Key resharing, src/protocols/key_resharing.rs:300-347 -/
def resharingTransport : Transport I (KeyResharing.Msg (ZMod q) G) where
  pack m := (W.resharingBroadcast.enc (m.publicPolynomial, m.oldShareId)).bind fun e => (W.resharingDirect.enc m.subshare).bind fun d => .ok ⟨some e, none, some d⟩
  unpack
    | 1, ⟨some e, none, some d⟩ => ((W.resharingBroadcast (ε := Unit)).dec e).bind fun e => ((W.resharingDirect (ε := Unit)).dec d).map fun d => ⟨e.1, e.2, d⟩
    | _, _ => none

/-- Signing, src/protocols/interactive_signing.rs:1138-1216, 1511-1553, 1857-1881, 2021-2039, 2120-2222, 2338-2465 -/
def signingTransport : Transport I (Signing.Message q I G) where
  pack
    | .one m => ((W.signing (I := I) (q := q) .echo 1).enc m.echo).bind fun e => ((W.signing (I := I) .direct 1).enc (m.psi0, m.psi1)).bind fun d => .ok ⟨some e, none, some d⟩
    | .two m => ((W.signing (q := q) .echo 2).enc m.echo).bind fun e => ((W.signing .normal 2).enc ⟨m.capDs, m.hatCapDs, m.psiElog, m.psis, m.hatPsis⟩).bind fun n =>
        .ok ⟨some e, some n, none⟩
    | .three m => ((W.signing (I := I) .echo 3).enc m.delta).bind fun e => ((W.signing (I := I) .normal 3).enc ⟨m.capDelta, m.psiPrime, m.capS⟩).bind fun n => .ok ⟨some e, some n, none⟩
    | .four sigma => ((W.signing (I := I) .normal 4).enc sigma).bind fun n => .ok ⟨none, some n, none⟩
    | .error m => ((W.signing (q := q) .echo 5).enc m).bind fun e => .ok ⟨some e, none, none⟩
  unpack
    | 1, ⟨some e, none, some d⟩ => ((W.signing (ε := Unit) (I := I) .direct 1).dec d).bind fun d => ((W.signing (ε := Unit) (I := I) (q := q) .echo 1).dec e).map fun e => .one ⟨e, d.1, d.2⟩
    | 2, ⟨some e, some n, none⟩ => ((W.signing (ε := Unit) (q := q) .echo 2).dec e).bind fun e => ((W.signing (ε := Unit) .normal 2).dec n).map fun n =>
        .two ⟨e, n.capDs, n.hatCapDs, n.psiElog, n.psis, n.hatPsis⟩
    | 3, ⟨some e, some n, none⟩ => ((W.signing (ε := Unit) (I := I) .echo 3).dec e).bind fun delta => ((W.signing (ε := Unit) (I := I) .normal 3).dec n).map fun n =>
        .three ⟨delta, n.capDelta, n.psiPrime, n.capS⟩
    | 4, ⟨none, some n, none⟩ => ((W.signing (ε := Unit) (I := I) .normal 4).dec n).map .four
    | 5, ⟨some e, none, none⟩ | 6, ⟨some e, none, none⟩ => ((W.signing (ε := Unit) (q := q) .echo 5).dec e).map .error
    | _, _ => none

end WireFormat
end Synedrion
