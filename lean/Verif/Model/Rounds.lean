import Mathlib.Data.Finset.Insert
import Mathlib.Data.Finset.Lattice.Basic
import Verif.Model.Out

/-!
# How the protocols are declared to the session layer

Every round declares which rounds precede and follow it (`transition_info`), makes some of the three parts of a message (direct message, echo broadcast, normal broadcast), and on
reception decodes the parts it needs and demands that the others are empty. For a part that cannot be decoded, or is there although it should not be, a third party calls
`verify_*_is_invalid` to confirm the fault.

Decoding is an arbitrary function of the message type and the bytes. The session layer (`manul`) is not part of the repository; what is assumed about it is said at each definition.
-/

namespace Synedrion.Rounds

/-- The three parts of a `ProtocolMessage` -/
inductive Part where
  | direct | echo | normal
  deriving DecidableEq, Repr

/-- The message types. `⟨n, p⟩` stands for the type `Round<n><Part>` of the protocol at hand (`Round1EchoBroadcast`, …). -/
structure MsgType where
  round : Nat
  part : Part
  deriving DecidableEq, Repr

/-- `manul::protocol::TransitionInfo` -/
structure TransitionInfo where
  id : Nat
  parents : Finset Nat
  siblings : Finset Nat
  children : Finset Nat
  mayProduceResult : Bool
  deriving DecidableEq

/-- `TransitionInfo::new_linear` (of `manul`): round `n` follows round `n - 1` and is followed by round `n + 1`. -/
def TransitionInfo.newLinear (n : Nat) : TransitionInfo := ⟨n, if n = 1 then ∅ else {n - 1}, ∅, {n + 1}, false⟩

/-- `TransitionInfo::new_linear_terminating` (of `manul`) -/
def TransitionInfo.newLinearTerminating (n : Nat) : TransitionInfo := ⟨n, if n = 1 then ∅ else {n - 1}, ∅, ∅, true⟩

/-- `TransitionInfo::with_children` (of `manul`), taken to add to the children: otherwise round 3 of signing could not be followed by round 4. -/
def TransitionInfo.withChildren (t : TransitionInfo) (s : Finset Nat) : TransitionInfo := { t with children := t.children ∪ s }

/-- `TransitionInfo::with_siblings` (of `manul`) -/
def TransitionInfo.withSiblings (t : TransitionInfo) (s : Finset Nat) : TransitionInfo := { t with siblings := t.siblings ∪ s }

/-- How `verify_*_is_invalid` treats a part in a round: `message.verify_is_not::<T>`, `message.verify_is_some`, or the error "Invalid round number". -/
inductive InvalidCheck where
  | isNot (t : MsgType)
  | isSome
  | badRound
  deriving DecidableEq

/-- The declarations of one protocol -/
structure Wiring where
  /-- `entry_round_id` -/
  entry : Nat
  /-- `transition_info` of the rounds of the protocol -/
  transitions : List TransitionInfo
  /-- The type of the part made by `make_direct_message`, `make_echo_broadcast`, `make_normal_broadcast`; `none` where the default (an empty part) is left in place -/
  sends : Nat → Part → Option MsgType
  /-- The type `receive_message` decodes the part to; `none` where it calls `assert_is_none` -/
  expects : Nat → Part → Option MsgType
  /-- `verify_direct_message_is_invalid`, `verify_echo_broadcast_is_invalid`, `verify_normal_broadcast_is_invalid`; `none` for `unimplemented!()` -/
  invalid : Nat → Part → Option InvalidCheck

def ty (n : Nat) (p : Part) : Option MsgType := some ⟨n, p⟩
def not_ (n : Nat) (p : Part) : Option InvalidCheck := some (.isNot ⟨n, p⟩)

/-- Key generation: src/protocols/key_init.rs:44-81, 242-244, 316-322, 324-341, 391-437, 502-536 -/
def keyInit : Wiring where
  entry := 1
  transitions := [.newLinear 1, .newLinear 2, .newLinearTerminating 3]
  sends
    | 1, .echo => ty 1 .echo
    | 2, .echo => ty 2 .echo
    | 2, .normal => ty 2 .normal
    | 3, .normal => ty 3 .normal
    | _, _ => none
  expects
    | 1, .normal => none
    | 1, .direct => none
    | 1, .echo => ty 1 .echo
    | 2, .direct => none
    | 2, .normal => ty 2 .normal
    | 2, .echo => ty 2 .echo
    | 3, .echo => none
    | 3, .direct => none
    | 3, .normal => ty 3 .normal
    | _, _ => none
  invalid
    | 1, .direct => some .isSome
    | 2, .direct => some .isSome
    | 3, .direct => some .isSome
    | 1, .echo => not_ 1 .echo
    | 2, .echo => not_ 2 .echo
    | 3, .echo => some .isSome
    | 1, .normal => some .isSome
    | 2, .normal => not_ 2 .normal
    | 3, .normal => not_ 3 .normal
    | _, _ => some .badRound

/-- Auxiliary info generation: src/protocols/aux_gen.rs:47-84, 330-332, 414-441, 496-539, 636-683 -/
def auxGen : Wiring where
  entry := 1
  transitions := [.newLinear 1, .newLinear 2, .newLinearTerminating 3]
  sends
    | 1, .echo => ty 1 .echo
    | 2, .normal => ty 2 .normal
    | 2, .echo => ty 2 .echo
    | 3, .normal => ty 3 .normal
    | 3, .direct => ty 3 .direct
    | _, _ => none
  expects
    | 1, .normal => none
    | 1, .direct => none
    | 1, .echo => ty 1 .echo
    | 2, .direct => none
    | 2, .echo => ty 2 .echo
    | 2, .normal => ty 2 .normal
    | 3, .echo => none
    | 3, .normal => ty 3 .normal
    | 3, .direct => ty 3 .direct
    | _, _ => none
  invalid
    | 1, .direct => some .isSome
    | 2, .direct => some .isSome
    | 3, .direct => not_ 3 .direct
    | 1, .echo => not_ 1 .echo
    | 2, .echo => not_ 2 .echo
    | 3, .echo => some .isSome
    | 1, .normal => some .isSome
    | 2, .normal => not_ 2 .normal
    | 3, .normal => not_ 3 .normal
    | _, _ => some .badRound

/-- Key refresh: src/protocols/key_refresh.rs:57-94, 491-493, 613-640, 702-750, 895-967 -/
def keyRefresh : Wiring where
  entry := 1
  transitions := [.newLinear 1, .newLinear 2, .newLinearTerminating 3]
  sends
    | 1, .echo => ty 1 .echo
    | 2, .normal => ty 2 .normal
    | 2, .echo => ty 2 .echo
    | 3, .echo => ty 3 .echo
    | 3, .normal => ty 3 .normal
    | 3, .direct => ty 3 .direct
    | _, _ => none
  expects
    | 1, .normal => none
    | 1, .direct => none
    | 1, .echo => ty 1 .echo
    | 2, .direct => none
    | 2, .echo => ty 2 .echo
    | 2, .normal => ty 2 .normal
    | 3, .echo => ty 3 .echo
    | 3, .normal => ty 3 .normal
    | 3, .direct => ty 3 .direct
    | _, _ => none
  invalid
    | 1, .direct => some .isSome
    | 2, .direct => some .isSome
    | 3, .direct => not_ 3 .direct
    | 1, .echo => not_ 1 .echo
    | 2, .echo => not_ 2 .echo
    | 3, .echo => not_ 3 .echo
    | 1, .normal => some .isSome
    | 2, .normal => not_ 2 .normal
    | 3, .normal => not_ 3 .normal
    | _, _ => some .badRound

/-- Resharing, for an old holder that sends and a new holder that receives: src/protocols/key_resharing.rs:48-70, 162-164, 288-290, 300-347. The type `Round1BroadcastMessage` is that of the
echo broadcast. -/
def keyResharing : Wiring where
  entry := 1
  transitions := [.newLinearTerminating 1]
  sends
    | 1, .echo => ty 1 .echo
    | 1, .direct => ty 1 .direct
    | _, _ => none
  expects
    | 1, .normal => none
    | 1, .echo => ty 1 .echo
    | 1, .direct => ty 1 .direct
    | _, _ => none
  invalid _ _ := none

/-- Signing: src/protocols/interactive_signing.rs:76-122, 964-966, 1128-1216, 1501-1553, 1847-1881, 2013-2039, 2106-2222, 2324-2465 -/
def signing : Wiring where
  entry := 1
  transitions := [.newLinear 1, .newLinear 2, (TransitionInfo.newLinear 3).withChildren {5, 6}, (TransitionInfo.newLinearTerminating 4).withSiblings {5, 6},
    ⟨5, {3}, ∅, ∅, false⟩, ⟨6, {3}, ∅, ∅, false⟩]
  sends
    | 1, .echo => ty 1 .echo
    | 1, .direct => ty 1 .direct
    | 2, .normal => ty 2 .normal
    | 2, .echo => ty 2 .echo
    | 3, .echo => ty 3 .echo
    | 3, .normal => ty 3 .normal
    | 4, .normal => ty 4 .normal
    | 5, .echo => ty 5 .echo
    | 6, .echo => ty 6 .echo
    | _, _ => none
  expects
    | 1, .normal => none
    | 1, .direct => ty 1 .direct
    | 1, .echo => ty 1 .echo
    | 2, .echo => ty 2 .echo
    | 2, .normal => ty 2 .normal
    | 2, .direct => none
    | 3, .direct => none
    | 3, .echo => ty 3 .echo
    | 3, .normal => ty 3 .normal
    | 4, .echo => none
    | 4, .direct => none
    | 4, .normal => ty 4 .normal
    | 5, .normal => none
    | 5, .direct => none
    | 5, .echo => ty 5 .echo
    | 6, .normal => none
    | 6, .direct => none
    | 6, .echo => ty 6 .echo
    | _, _ => none
  invalid
    | 1, .direct => not_ 1 .direct
    | 2, .direct => some .isSome
    | 3, .direct => some .isSome
    | 4, .direct => some .isSome
    | 5, .direct => some .isSome
    | 6, .direct => some .isSome
    | 1, .echo => not_ 1 .echo
    | 2, .echo => not_ 2 .echo
    | 3, .echo => not_ 3 .echo
    | 4, .echo => some .isSome
    | 5, .echo => not_ 5 .echo
    | 6, .echo => not_ 6 .echo
    | 1, .normal => some .isSome
    | 2, .normal => not_ 2 .normal
    | 3, .normal => not_ 3 .normal
    | 4, .normal => not_ 4 .normal
    | 5, .normal => some .isSome
    | 6, .normal => some .isSome
    | _, _ => some .badRound

variable {Bytes : Type}

/-- `deserialize` of a part of a message (of `manul`): fails on an empty part and on bytes that do not decode. -/
def decodes (D : MsgType → Bytes → Bool) (t : MsgType) (part : Option Bytes) : Bool :=
  match part with
  | none => false
  | some b => D t b

/-- What `receive_message` does with a part before it looks at the contents: `deserialize::<T>()?` or `assert_is_none()?`. -/
def acceptsPart (D : MsgType → Bytes → Bool) (w : Wiring) (round : Nat) (p : Part) (part : Option Bytes) : Bool :=
  match w.expects round p with
  | some t => decodes D t part
  | none => part.isNone

/-- The errors of the check of evidence about a part -/
inductive EvidenceErr where
  | invalidEvidence
  deriving DecidableEq

/-- `verify_*_is_invalid`: `ok` confirms the fault. `verify_is_not` succeeds if the part does not decode, `verify_is_some` if it is not empty (both of `manul`). -/
def verifyIsInvalid (D : MsgType → Bytes → Bool) (w : Wiring) (round : Nat) (p : Part) (part : Option Bytes) : Out EvidenceErr Unit :=
  match w.invalid round p with
  | none => .panic
  | some (.isNot t) => if decodes D t part then .err .invalidEvidence else .ok ()
  | some .isSome => if part.isSome then .ok () else .err .invalidEvidence
  | some .badRound => .err .invalidEvidence

/-- The part an honest party sends: the encoding of a message of the declared type, or nothing -/
def sentPart (enc : MsgType → Bytes) (w : Wiring) (round : Nat) (p : Part) : Option Bytes := (w.sends round p).map enc

/-- The rounds of the protocol -/
def Wiring.roundIds (w : Wiring) : List Nat := w.transitions.map fun t => t.id

end Synedrion.Rounds
