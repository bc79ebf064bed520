import Verif.Model.Out
import Verif.Model.BMap
import Verif.Model.Encoding
import Verif.Model.Entities

/-!
# One party's view of a protocol round

The session layer (`manul`) is outside the repository. It hands each expected sender's message to `receive_message` in the order of arrival,
collects the returned payloads in a `BTreeMap`, and calls `finalize` once every expected sender has delivered an accepted message. It drops messages
of unknown senders and repeated messages. Messages here are already deserialized; missing or superfluous message parts are rejected by the calls to
`assert_is_none`/`deserialize` before any of the modelled code runs.
-/

namespace Synedrion

/-- Reasons for `LocalError`. -/
inductive LocalErr where
  /-- `safe_get`: a key is not in a map, src/tools/protocol_shortcuts.rs:83-86 -/
  | missing
  /-- this party's id is not among the given ids -/
  | notMember
  /-- key share and auxiliary info belong to different owners -/
  | ownerMismatch
  /-- key share and auxiliary info cover different parties -/
  | partiesMismatch
  /-- an error of an entity constructor -/
  | entity (e : EntErr)
  /-- inputs given to (or missing from) a party that should not (should) have them -/
  | badInputs
  /-- a sum over an empty iterator -/
  | emptySum
  /-- the value of the last step is not what it must be -/
  | finalCheck
  deriving DecidableEq, Repr

/-- `manul::protocol::ReceiveError` as far as the modelled code produces it. -/
inductive RecvErr (E : Type) where
  /-- `ReceiveError::protocol`: an attributable error -/
  | protocol (e : E)
  /-- a `LocalError` propagated with `?` -/
  | localErr (e : LocalErr)
  deriving DecidableEq, Repr

/-- How a party's run of a protocol can stop without a result. -/
inductive Abort (I E : Type) where
  /-- `receive_message` rejected a message of this party -/
  | fault (party : I) (e : E)
  /-- a local error -/
  | localErr (e : LocalErr)
  /-- not every expected sender has delivered exactly one message -/
  | incomplete
  deriving DecidableEq, Repr

variable {I M Pl E : Type}

/-- The result of one call of `receive_message`, tagged with the sender. -/
def received (sender : I) : Out (RecvErr E) Pl → Out (Abort I E) (I × Pl)
  | .ok p => .ok (sender, p)
  | .err (.protocol e) => .err (.fault sender e)
  | .err (.localErr e) => .err (.localErr e)
  | .panic => .panic

/-- Processing the messages of a round in order of arrival (session layer, see the header of this file). -/
def collect [LinearOrder I] (expected : Finset I) (recv : I → M → Out (RecvErr E) Pl) (arrivals : List (I × M)) : Out (Abort I E) (BMap I Pl) :=
  if (arrivals.map Prod.fst).Nodup ∧ (arrivals.map Prod.fst).toFinset = expected then
    (Out.mapM' (fun a : I × M => received a.1 (recv a.1 a.2)) arrivals).bind fun l => .ok (BMap.ofList l)
  else .err .incomplete

/-- A `LocalError` returned by `finalize` or `make_round`. -/
def finalizeResult {α : Type} : Out LocalErr α → Out (Abort I E) α
  | .ok a => .ok a
  | .err e => .err (.localErr e)
  | .panic => .panic

/-- `safe_get`, src/tools/protocol_shortcuts.rs:83-86, inside `receive_message` -/
def recvGet [LinearOrder I] {V : Type} (m : BMap I V) (k : I) : Out (RecvErr E) V := Out.ofOption (.localErr .missing) (m.get? k)

/-- `safe_get`, src/tools/protocol_shortcuts.rs:83-86, inside `finalize` -/
def finGet [LinearOrder I] {V : Type} (m : BMap I V) (k : I) : Out LocalErr V := Out.ofOption .missing (m.get? k)

/-- `?` on a result of an entity constructor -/
def ofEntity {α : Type} : Out EntErr α → Out LocalErr α
  | .ok a => .ok a
  | .err e => .err (.entity e)
  | .panic => .panic

/-- `for x in xs { acc ^= x }`, src/protocols/key_init.rs:466-469 and the same loops elsewhere -/
def xorAll {ε : Type} (acc : List Bool) (xs : List (List Bool)) : Out ε (List Bool) :=
  xs.foldl (fun acc x => acc.bind fun a => bitXorAssign a x) (.ok acc)

/-- Outcome of `verify_messages_constitute_error`: `ok true` confirms the fault, `ok false` is "the reported error cannot be reproduced"
(`verify_that`, src/tools/protocol_shortcuts.rs:129-137), `err ()` is any other validation error. -/
abbrev Evidence := Out Unit Bool

end Synedrion
