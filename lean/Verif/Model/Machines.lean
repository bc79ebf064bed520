import Verif.Spec.Network
import Verif.Model.KeyInit
import Verif.Model.AuxGen
import Verif.Model.KeyRefresh
import Verif.Model.KeyResharing
import Verif.Model.Signing

/-!
# The protocols as machines

Each protocol as what one party does in its rounds, in the form the session layer (`manul`) drives: the messages of a round are made when the round begins, arriving ones
are handed to `receive_message` one by one, and `finalize` is called with all payloads. The definitions only put the modelled rounds together; the numbers of rounds and their order are
those of `Round::transition_info` of the protocols. A message that is not one of the current round is refused by the session layer.
-/

namespace Synedrion

section Glue

variable {I M A E Pl : Type}

/-- A message of the round is handed to `receive_message` (session layer); anything else is refused. -/
def acceptPart (part : M → Option A) (recv : I → A → Out (RecvErr E) Pl) (j : I) (m : M) : Out (Abort I E) Unit :=
  (Out.ofOption .incomplete (part m)).bind fun a => (received j (recv j a)).bind fun _ => .ok ()

/-- The payloads of a round (session layer). -/
def gather [LinearOrder I] (expected : Finset I) (part : M → Option A) (recv : I → A → Out (RecvErr E) Pl) (got : List (I × M)) : Out (Abort I E) (BMap I Pl) :=
  (Out.mapM' (fun a : I × M => (Out.ofOption Abort.incomplete (part a.2)).bind fun x => .ok (a.1, x)) got).bind (collect expected recv)

/-- A broadcast: the same message to everybody. -/
def toAll [LinearOrder I] (dests : Finset I) (m : M) : List (I × M) := (bsetIter dests).map fun j => (j, m)

end Glue

namespace KeyInit

variable {I F G Sid V : Type} [LinearOrder I] [Field F] [LinearOrder F] [AddCommGroup G] [Module F G] [DecidableEq G] [DecidableEq V]

/-- The messages of the three rounds, src/protocols/key_init.rs:300-303, 369-380, 494-497 -/
inductive Message (F G V : Type) where
  | one (v : V)
  | two (m : Msg2 G)
  | three (psi : SchProof F)

/-- The rounds, src/protocols/key_init.rs:295-299, 363-367, 485-491 -/
inductive State (I F G Sid V : Type) [LinearOrder I] where
  | one (c : Context I F G Sid)
  | two (r : Round2 I F G Sid V)
  | three (r : Round3 I F G Sid)

/-- The round 1 message, src/protocols/key_init.rs:333-345 -/
def Message.one? : Message F G V → Option V
  | .one v => some v
  | _ => none

/-- The round 2 message, src/protocols/key_init.rs:427-456 -/
def Message.two? : Message F G V → Option (Msg2 G)
  | .two m => some m
  | _ => none

/-- The round 3 message, src/protocols/key_init.rs:526-546 -/
def Message.three? : Message F G V → Option (SchProof F)
  | .three psi => some psi
  | _ => none

/-- Key generation, src/protocols/key_init.rs:246-565 -/
def machine (hashV : Sid → I → PublicData G → V) (H : SchHash G (SchAux I Sid) → F) (g : G) :
    Spec.Machine I (Message F G V) (State I F G Sid V) Err (KeyShare I F G) where
  round
    | .one _ => 1
    | .two _ => 2
    | .three _ => 3
  expected
    | .one c => c.otherIds
    | .two r => r.ctx.otherIds
    | .three r => r.ctx.otherIds
  send
    | .one c => toAll c.otherIds (.one (msg1 hashV c))
    | .two r => toAll r.ctx.otherIds (.two (msg2 r.ctx))
    | .three r => toAll r.ctx.otherIds (.three (msg3 H r))
  recv
    | .one _ => acceptPart Message.one? recv1
    | .two r => acceptPart Message.two? (recv2 hashV r)
    | .three r => acceptPart Message.three? (recv3 H g r)
  next
    | .one c, got => (gather c.otherIds Message.one? recv1 got).bind fun capVs => .ok (.inl (.two ⟨c, capVs⟩))
    | .two r, got => (gather r.ctx.otherIds Message.two? (recv2 hashV r) got).bind fun payloads =>
      (finalize2 r payloads).bind fun r3 => .ok (.inl (.three r3))
    | .three r, got => (gather r.ctx.otherIds Message.three? (recv3 H g r) got).bind fun _ =>
      (finalizeResult (finalize3 r)).bind fun share => .ok (.inr share)

end KeyInit

namespace AuxGen

variable {I Sid V : Type} [LinearOrder I] [DecidableEq V]

/-- The messages of the three rounds, src/protocols/aux_gen.rs:402-405, 473-484, 622-631 -/
inductive Message (V : Type) where
  | one (v : V)
  | two (m : Msg2)
  | three (m : Msg3)

/-- The rounds, src/protocols/aux_gen.rs:388-400, 465-471, 613-619; round 3 with its messages, which are made when it begins. -/
inductive State (I Sid V : Type) [LinearOrder I] where
  | one (c : Context I Sid)
  | two (c : Context I Sid) (capVs : BMap I V)
  | three (r : Round3 I Sid) (out : List (I × Msg3))

/-- The round 1 message, src/protocols/aux_gen.rs:433-446 -/
def Message.one? : Message V → Option V
  | .one v => some v
  | _ => none

/-- The round 2 message, src/protocols/aux_gen.rs:529-575 -/
def Message.two? : Message V → Option Msg2
  | .two m => some m
  | _ => none

/-- The round 3 message, src/protocols/aux_gen.rs:673-707 -/
def Message.three? : Message V → Option Msg3
  | .three m => some m
  | _ => none

/-- Generation of auxiliary info, src/protocols/aux_gen.rs:334-733 -/
def machine (E : AuxEnv I Sid) (hashV : Sid → I → Hashed → V) :
    Spec.Machine I (Message V) (State I Sid V) (Err I) (AuxInfo I PaillierKey PublicAux) where
  round
    | .one _ => 1
    | .two .. => 2
    | .three .. => 3
  expected
    | .one c => c.otherIds
    | .two c _ => c.otherIds
    | .three r _ => r.ctx.otherIds
  send
    | .one c => toAll c.otherIds (.one (msg1 hashV c))
    | .two c _ => toAll c.otherIds (.two (msg2 c))
    | .three _ out => out.map fun a => (a.1, .three a.2)
  recv
    | .one _ => acceptPart Message.one? recv1
    | .two c capVs => acceptPart Message.two? (recv2 E hashV c.sid capVs)
    | .three r _ => acceptPart Message.three? (recv3 E r)
  next
    | .one c, got => (gather c.otherIds Message.one? recv1 got).bind fun capVs => .ok (.inl (.two c capVs))
    | .two c capVs, got => (gather c.otherIds Message.two? (recv2 E hashV c.sid capVs) got).bind fun payloads =>
      (finalize2 E c payloads).bind fun r3 => (send3 E r3).bind fun out => .ok (.inl (.three r3 out))
    | .three r _, got => (gather r.ctx.otherIds Message.three? (recv3 E r) got).bind fun _ => .ok (.inr (finalize3 r))

end AuxGen

namespace KeyRefresh

variable {I F G Sid V : Type} [LinearOrder I] [Field F] [LinearOrder F] [AddCommGroup G] [Module F G] [DecidableEq G] [DecidableEq V]

/-- The messages of the three rounds, src/protocols/key_refresh.rs:601-604, 672-688, 869-886 -/
inductive Message (I F G V : Type) [LinearOrder I] where
  | one (v : V)
  | two (m : Msg2 I G)
  | three (m : Msg3 I F)

/-- The rounds, src/protocols/key_refresh.rs:595-599, 664-670, 860-867; round 3 with its messages, which are made when it begins. -/
inductive State (I F G Sid V : Type) [LinearOrder I] where
  | one (c : Context I F G Sid)
  | two (c : Context I F G Sid) (capVs : BMap I V)
  | three (r : Round3 I F G Sid) (out : List (I × Msg3 I F))

/-- The round 1 message, src/protocols/key_refresh.rs:632-645 -/
def Message.one? : Message I F G V → Option V
  | .one v => some v
  | _ => none

/-- The round 2 message, src/protocols/key_refresh.rs:738-808 -/
def Message.two? : Message I F G V → Option (Msg2 I G)
  | .two m => some m
  | _ => none

/-- The round 3 message, src/protocols/key_refresh.rs:955-1026 -/
def Message.three? : Message I F G V → Option (Msg3 I F)
  | .three m => some m
  | _ => none

/-- Key refresh, src/protocols/key_refresh.rs:495-1082 -/
def machine (E : Env I Sid F G) (hashV : Sid → I → Hashed I G → V) :
    Spec.Machine I (Message I F G V) (State I F G Sid V) (Err I F) (KeyShareChange I F G × AuxInfo I PaillierKey PublicAux) where
  round
    | .one _ => 1
    | .two .. => 2
    | .three .. => 3
  expected
    | .one c => c.otherIds
    | .two c _ => c.otherIds
    | .three r _ => r.ctx.otherIds
  send
    | .one c => toAll c.otherIds (.one (msg1 hashV c))
    | .two c _ => toAll c.otherIds (.two (msg2 c))
    | .three _ out => out.map fun a => (a.1, .three a.2)
  recv
    | .one _ => acceptPart Message.one? recv1
    | .two c capVs => acceptPart Message.two? (recv2 E hashV c.sid c.allIds capVs)
    | .three r _ => acceptPart Message.three? (recv3 E r)
  next
    | .one c, got => (gather c.otherIds Message.one? recv1 got).bind fun capVs => .ok (.inl (.two c capVs))
    | .two c capVs, got => (gather c.otherIds Message.two? (recv2 E hashV c.sid c.allIds capVs) got).bind fun payloads =>
      (finalizeResult (finalize2 E c payloads)).bind fun r3 => (send3 E r3).bind fun out => .ok (.inl (.three r3 out))
    | .three r _, got => (gather r.ctx.otherIds Message.three? (recv3 E r) got).bind fun xs =>
      (finalizeResult (finalize3 r xs)).bind fun res => .ok (.inr res)

end KeyRefresh

namespace KeyResharing

variable {I F G : Type} [LinearOrder I] [Field F] [LinearOrder F] [AddCommGroup G] [Module F G] [DecidableEq G]

/-- The only round, src/protocols/key_resharing.rs:255-265, with its messages -/
structure State (I F G : Type) [LinearOrder I] where
  r : Round1 I F G
  out : List (I × Msg F G)

/-- The messages of the round, src/protocols/key_resharing.rs:300-335, to all destinations; a party that is not an old holder has none. -/
def sendAll (r : Round1 I F G) : Out (Abort I Err) (List (I × Msg F G)) :=
  (Out.mapM' (fun dest => (finalizeResult (msg r dest)).bind fun m => .ok (m.map fun m => (dest, m))) (bsetIter r.messageDestinations)).bind fun l =>
  .ok (l.filterMap id)

/-- Beginning the round, src/protocols/key_resharing.rs:300-335 -/
def begin (r : Round1 I F G) : Out (Abort I Err) (State I F G) := (sendAll r).bind fun out => .ok ⟨r, out⟩

/-- Key resharing, src/protocols/key_resharing.rs:166-466 -/
def machine (g : G) : Spec.Machine I (Msg F G) (State I F G) Err (Option (ThresholdKeyShare I F G)) where
  round _ := 1
  expected s := s.r.expectingMessagesFrom
  send s := s.out
  recv s := acceptPart some (recv g s.r)
  next s got := (gather s.r.expectingMessagesFrom some (recv g s.r) got).bind fun payloads =>
    (finalizeResult (finalize s.r payloads)).bind fun res => .ok (.inr res)

end KeyResharing

namespace Signing

variable {q : Nat} [Fact q.Prime] {I Ep G : Type} [LinearOrder I] [AddCommGroup G] [Module (ZMod q) G] [DecidableEq G]

/-- The messages of the rounds, src/protocols/interactive_signing.rs:1098-1113, 1472-1486, 1826-1836, 2002-2004, 2098-2101, 2316-2319; `error` is the one of round 5 or 6. -/
inductive Message (q : Nat) (I G : Type) [LinearOrder I] where
  | one (m : Msg1 q G)
  | two (m : Msg2 q I G)
  | three (m : Msg3 q G)
  | four (sigma : ZMod q)
  | error (m : MsgErr I G)

/-- The rounds, src/protocols/interactive_signing.rs:1087, 1450, 1803, 1994, 2084, 2302, with the messages that are made when they begin where making them can fail -/
inductive State (q : Nat) (I Ep G : Type) [LinearOrder I] where
  | one (r : Round1 q I Ep G) (out : List (I × Msg1 q G))
  | two (r : Round2 q I Ep G)
  | three (r : Round3 q I Ep G)
  | four (r : Round4 q I Ep G)
  | error (r : ErrRound q I Ep G) (m : MsgErr I G)

/-- The round 1 message, src/protocols/interactive_signing.rs:1207-1263 -/
def Message.one? : Message q I G → Option (Msg1 q G)
  | .one m => some m
  | _ => none

/-- The round 2 message, src/protocols/interactive_signing.rs:1541-1674 -/
def Message.two? : Message q I G → Option (Msg2 q I G)
  | .two m => some m
  | _ => none

/-- The round 3 message, src/protocols/interactive_signing.rs:1871-1904 -/
def Message.three? : Message q I G → Option (Msg3 q G)
  | .three m => some m
  | _ => none

/-- The round 4 message, src/protocols/interactive_signing.rs:2029-2056 -/
def Message.four? : Message q I G → Option (ZMod q)
  | .four m => some m
  | _ => none

/-- The message of round 5 or 6, src/protocols/interactive_signing.rs:2212-2287, 2455-2532 -/
def Message.error? : Message q I G → Option (MsgErr I G)
  | .error m => some m
  | _ => none

/-- Beginning round 1: its messages, src/protocols/interactive_signing.rs:1136-1205 -/
def begin (E : Env q I Ep G) (r : Round1 q I Ep G) : Out (Abort I (Err I)) (State q I Ep G) := (send1 E r).bind fun out => .ok (.one r out)

/-- Beginning round 4 or, if a check of the sums failed, the round about the failure, src/protocols/interactive_signing.rs:1906-1990, 2120-2210, 2338-2453 -/
def beginAfter3 (E : Env q I Ep G) : After3 q I Ep G → Out (Abort I (Err I)) (State q I Ep G)
  | .round4 r => .ok (.four r)
  | .error r => (finalizeResult (msgErr E r)).bind fun m => .ok (.error r m)

/-- Signing, src/protocols/interactive_signing.rs:968-2543; the numbers of the rounds are those of 1128, 1501, 1847, 2013, 2106, 2324. -/
def machine (E : Env q I Ep G) : Spec.Machine I (Message q I G) (State q I Ep G) (Err I) (RecoverableSignature q) where
  round
    | .one .. => 1
    | .two _ => 2
    | .three _ => 3
    | .four _ => 4
    | .error r _ => if r.hat then 6 else 5
  expected
    | .one r _ => r.ctx.otherIds
    | .two r => r.ctx.otherIds
    | .three r => r.ctx.otherIds
    | .four r => r.ctx.otherIds
    | .error r _ => r.ctx.otherIds
  send
    | .one _ out => out.map fun a => (a.1, .one a.2)
    | .two r => toAll r.ctx.otherIds (.two (msg2 r))
    | .three r => toAll r.ctx.otherIds (.three r.msg)
    | .four r => toAll r.ctx.otherIds (.four r.sigma)
    | .error r m => toAll r.ctx.otherIds (.error m)
  recv
    | .one r _ => acceptPart Message.one? (recv1 E r.ctx)
    | .two r => acceptPart Message.two? (recv2 E r)
    | .three r => acceptPart Message.three? (recv3 E r)
    | .four r => acceptPart Message.four? (recv4 E r)
    | .error r _ => acceptPart Message.error? (recvErr E r)
  next
    | .one r _, got => (gather r.ctx.otherIds Message.one? (recv1 E r.ctx) got).bind fun payloads =>
      (finalizeResult (finalize1 E r payloads)).bind fun r => .ok (.inl (.two r))
    | .two r, got => (gather r.ctx.otherIds Message.two? (recv2 E r) got).bind fun payloads =>
      (finalizeResult (finalize2 E r payloads)).bind fun r => .ok (.inl (.three r))
    | .three r, got => (gather r.ctx.otherIds Message.three? (recv3 E r) got).bind fun payloads =>
      (finalizeResult (finalize3 E r payloads)).bind fun a => (beginAfter3 E a).bind fun s => .ok (.inl s)
    | .four r, got => (gather r.ctx.otherIds Message.four? (recv4 E r) got).bind fun payloads =>
      (finalizeResult (finalize4 E r payloads)).bind fun sig => .ok (.inr sig)
    | .error r _, got => (gather r.ctx.otherIds Message.error? (recvErr E r) got).bind fun _ =>
      (finalizeResult finalizeErr).bind fun sig => .ok (.inr sig)

end Signing

end Synedrion
