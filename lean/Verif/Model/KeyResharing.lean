import Verif.Model.Session
import Verif.Model.Shamir

/-!
# Key resharing (`src/protocols/key_resharing.rs`)

The protocol has one round. A message consists of an echo broadcast (public polynomial and old share id) and a direct message (subshare).
The functions that check evidence are `unimplemented!()` (lines 48-70, 85-99) and are not modelled further than `evidence` below.
-/

namespace Synedrion.KeyResharing

open Shamir

/-- `KeyResharingError`, src/protocols/key_resharing.rs:75-80 -/
inductive Err where
  | unexpectedSender
  | subshareMismatch
  deriving DecidableEq, Repr

/-- `NewHolder`, src/protocols/key_resharing.rs:112-119 -/
structure NewHolder (I G : Type) where
  verifyingKey : G
  oldThreshold : Nat
  oldHolders : Finset I

/-- `KeyResharing`, src/protocols/key_resharing.rs:123-132; `OldHolder` (105-108) is just its key share. -/
structure Inputs (I F G : Type) [LinearOrder I] where
  oldHolder : Option (ThresholdKeyShare I F G)
  newHolder : Option (NewHolder I G)
  newHolders : Finset I
  newThreshold : Nat

/-- `OldHolderData`, src/protocols/key_resharing.rs:243-247 -/
structure OldData (F G : Type) where
  shareId : F
  polynomial : List F
  publicPolynomial : List G

/-- `Round1`, src/protocols/key_resharing.rs:255-265 -/
structure Round1 (I F G : Type) [LinearOrder I] where
  oldHolder : Option (OldData F G)
  newHolder : Option (NewHolder I G)
  newShareIds : BMap I F
  newThreshold : Nat
  myId : I
  messageDestinations : Finset I
  expectingMessagesFrom : Finset I

variable {I F G : Type} [LinearOrder I] [Field F] [LinearOrder F] [AddCommGroup G] [Module F G] [DecidableEq G]

/-- The share ids of the new holders: 1, 2, … in the order of the party ids, src/protocols/key_resharing.rs:172-181 -/
def newShareIds (F : Type) [Field F] (newHolders : Finset I) : BMap I F :=
  BMap.ofList ((bsetIter newHolders).zip (evaluationPoints F newHolders.card))

/-- `KeyResharing::make_round`, src/protocols/key_resharing.rs:166-239. `draw` supplies the random coefficients. -/
def start (g : G) (inp : Inputs I F G) (id : I) (draw : Nat → F) : Out LocalErr (Round1 I F G) :=
  if inp.oldHolder.isNone && inp.newHolder.isNone then .err .badInputs
  else
    let destinations := if inp.oldHolder.isSome then inp.newHolders.erase id else ∅
    let expecting := match inp.newHolder with
      | some nh => nh.oldHolders.erase id
      | none => ∅
    (match inp.oldHolder with
      | some ks =>
        let polynomial := randomPolynomial ks.secretShare inp.newThreshold draw
        (ofEntity ks.shareId).bind fun shareId => .ok (some (⟨shareId, polynomial, publicPolynomial g polynomial⟩ : OldData F G))
      | none => .ok none).bind fun oldHolder =>
    .ok ⟨oldHolder, inp.newHolder, newShareIds F inp.newHolders, inp.newThreshold, id, destinations, expecting⟩

/-- `Round1BroadcastMessage` and `Round1DirectMessage`, src/protocols/key_resharing.rs:269-278; also `Round1Payload` (279-283) -/
structure Msg (F G : Type) where
  publicPolynomial : List G
  oldShareId : F
  subshare : F
  deriving DecidableEq

/-- The messages to `destination`, src/protocols/key_resharing.rs:300-335 (`none`: both parts are empty) -/
def msg (r : Round1 I F G) (destination : I) : Out LocalErr (Option (Msg F G)) :=
  match r.oldHolder with
  | none => .ok none
  | some oh =>
    (finGet r.newShareIds destination).bind fun theirShareId =>
    (evaluate oh.polynomial theirShareId).bind fun subshare => .ok (some ⟨oh.publicPolynomial, oh.shareId, subshare⟩)

/-- `receive_message`, src/protocols/key_resharing.rs:337-372 -/
def recv (g : G) (r : Round1 I F G) (sender : I) (m : Msg F G) : Out (RecvErr Err) (Msg F G) :=
  match r.newHolder with
  | none => .err (.protocol .unexpectedSender)
  | some nh =>
    if sender ∈ nh.oldHolders then
      (recvGet r.newShareIds r.myId).bind fun myShareId =>
      (publicEvaluate m.publicPolynomial myShareId).bind fun fromPoly =>
      if fromPoly ≠ m.subshare • g then .err (.protocol .subshareMismatch) else .ok m
    else .err (.protocol .unexpectedSender)

/-- The payloads together with the one "as if it sent a message to itself", src/protocols/key_resharing.rs:395-405 -/
def withOwn {ε : Type} (r : Round1 I F G) (shareId : F) (payloads : BMap I (Msg F G)) : Out ε (BMap I (Msg F G)) :=
  match r.oldHolder with
  | none => .ok payloads
  | some oh => (evaluate oh.polynomial shareId).bind fun subshare =>
    .ok (payloads.insert r.myId ⟨oh.publicPolynomial, oh.shareId, subshare⟩)

/-- The sum of the constant coefficients with their interpolation coefficients, src/protocols/key_resharing.rs:410-423 -/
def vkeySum (payloads : BMap I (Msg F G)) : Out LocalErr G :=
  let oldShareIds := payloads.values.map Msg.oldShareId
  (Out.mapM' (fun p : Msg F G =>
    (Out.ofOption LocalErr.missing (coeff0 p.publicPolynomial)).bind fun c0 =>
    (interpolationCoeff oldShareIds p.oldShareId).bind fun c => .ok (c • c0)) payloads.values).bind fun l => .ok l.sum

/-- The new secret share, src/protocols/key_resharing.rs:432-443 -/
def joinSubshares (oldHolders : Finset I) (payloads : BMap I (Msg F G)) : Out LocalErr F :=
  (Out.mapM' (fun id : I => (finGet payloads id).bind fun p => .ok (p.oldShareId, p.subshare)) (bsetIter oldHolders)).bind fun l =>
  joinScalars (BMap.ofList l)

/-- The public share at `shareId`, src/protocols/key_resharing.rs:450-454 -/
def joinPublic (payloads : BMap I (Msg F G)) (shareId : F) : Out LocalErr G :=
  (Out.mapM' (fun p : Msg F G => (publicEvaluate p.publicPolynomial shareId).bind fun v => .ok (p.oldShareId, v)) payloads.values).bind fun l =>
  joinPoints (BMap.ofList l)

/-- `finalize`, src/protocols/key_resharing.rs:374-466. A wrong verifying key is a `panic!` (424-429). (`new_threshold as u32` is not
truncated here.) -/
def finalize (r : Round1 I F G) (payloads : BMap I (Msg F G)) : Out LocalErr (Option (ThresholdKeyShare I F G)) :=
  match r.newHolder with
  | none => .ok none
  | some nh =>
    (finGet r.newShareIds r.myId).bind fun shareId =>
    (withOwn r shareId payloads).bind fun payloads =>
    (vkeySum payloads).bind fun vkey =>
    if nh.verifyingKey ≠ vkey then .panic
    else
      (joinSubshares nh.oldHolders payloads).bind fun secretShare =>
      (Out.mapM' (fun p : I × F => (joinPublic payloads p.2).bind fun s => .ok (p.1, s)) r.newShareIds.entries).bind fun pl =>
      .ok (some ⟨r.myId, r.newThreshold, secretShare, r.newShareIds, BMap.ofList pl⟩)

/-- One party's whole run, given the messages it receives. -/
def run (g : G) (r : Round1 I F G) (inbox : List (I × Msg F G)) : Out (Abort I Err) (Option (ThresholdKeyShare I F G)) :=
  (collect r.expectingMessagesFrom (recv g r) inbox).bind fun payloads => finalizeResult (finalize r payloads)

/-- Checking evidence is `unimplemented!()`, src/protocols/key_resharing.rs:85-99 -/
def evidence (_e : Err) (_guilty : I) (_m : Msg F G) : Evidence := .panic

end Synedrion.KeyResharing
