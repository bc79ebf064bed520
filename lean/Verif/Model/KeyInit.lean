import Verif.Model.Session
import Verif.Model.ZkCurve

/-!
# Key generation (`src/protocols/key_init.rs`)

`Sid` is the type of session ids (`Sid::new` is a hash of the shared randomness and the ids), `V` the type of hash outputs. `hashV` is
the hash of `PublicData::hash` and `H` the challenge hash of the Schnorr proof; both are arbitrary functions of what is hashed.
-/

namespace Synedrion.KeyInit

/-- `Error`, src/protocols/key_init.rs:106-112 -/
inductive Err where
  | r2HashMismatch
  | r3InvalidSchProof
  deriving DecidableEq, Repr

/-- `PublicData`, src/protocols/key_init.rs:197-203, hashed in 209-218 -/
structure PublicData (G : Type) where
  capX : G
  capA : G
  rho : List Bool
  u : List Bool
  deriving DecidableEq

/-- The auxiliary data of the Schnorr proof, src/protocols/key_init.rs:515, 541 -/
structure SchAux (I Sid : Type) where
  sid : Sid
  id : I
  rho : List Bool
  deriving DecidableEq

/-- `Context`, src/protocols/key_init.rs:285-293 -/
structure Context (I F G Sid : Type) where
  otherIds : Finset I
  myId : I
  x : F
  tau : F
  data : PublicData G
  sid : Sid

/-- The values `make_round` draws, src/protocols/key_init.rs:260-268 -/
structure Draws (F : Type) where
  x : F
  tau : F
  rho : List Bool
  u : List Bool

variable {I F G Sid V : Type} [LinearOrder I] [Field F] [LinearOrder F] [AddCommGroup G] [Module F G] [DecidableEq G] [DecidableEq V]

/-- `KeyInit::make_round`, src/protocols/key_init.rs:246-282; `sid` is `Sid::new(shared_randomness, all_ids)`. -/
def start (g : G) (allIds : Finset I) (sid : Sid) (id : I) (d : Draws F) : Out LocalErr (Context I F G Sid) :=
  if id ∉ allIds then .err .notMember
  else .ok ⟨allIds.erase id, id, d.x, d.tau, ⟨d.x • g, schCommitment g d.tau, d.rho, d.u⟩, sid⟩

/-- Round 1 echo broadcast, src/protocols/key_init.rs:324-331 -/
def msg1 (hashV : Sid → I → PublicData G → V) (c : Context I F G Sid) : V := hashV c.sid c.myId c.data

/-- Round 1 `receive_message`, src/protocols/key_init.rs:333-345 -/
def recv1 (_from : I) (capV : V) : Out (RecvErr Err) V := .ok capV

/-- `Round2`, src/protocols/key_init.rs:363-367. The payloads of round 1 become the map of commitments (347-360). -/
structure Round2 (I F G Sid V : Type) [LinearOrder I] where
  ctx : Context I F G Sid
  capVs : BMap I V

/-- The two round 2 broadcasts, src/protocols/key_init.rs:369-380: `rho` is echoed, the rest is not. -/
structure Msg2 (G : Type) where
  rho : List Bool
  capX : G
  capA : G
  u : List Bool

/-- Round 2 broadcasts, src/protocols/key_init.rs:399-425 -/
def msg2 (c : Context I F G Sid) : Msg2 G := ⟨c.data.rho, c.data.capX, c.data.capA, c.data.u⟩

/-- `Round2Payload`, src/protocols/key_init.rs:382-386 -/
structure Payload2 (G : Type) where
  capX : G
  capA : G
  rho : List Bool

/-- Round 2 `receive_message`, src/protocols/key_init.rs:427-456 -/
def recv2 (hashV : Sid → I → PublicData G → V) (r : Round2 I F G Sid V) (sender : I) (m : Msg2 G) : Out (RecvErr Err) (Payload2 G) :=
  (recvGet r.capVs sender).bind fun capV =>
  let data : PublicData G := ⟨m.capX, m.capA, m.rho, m.u⟩
  if hashV r.ctx.sid sender data ≠ capV then .err (.protocol .r2HashMismatch)
  else .ok ⟨data.capX, data.capA, data.rho⟩

/-- `Round3`, src/protocols/key_init.rs:485-491 -/
structure Round3 (I F G Sid : Type) [LinearOrder I] where
  ctx : Context I F G Sid
  capXs : BMap I G
  capAs : BMap I G
  rhoCombined : List Bool

/-- Round 2 `finalize`, src/protocols/key_init.rs:458-482 -/
def finalize2 {ε : Type} (r : Round2 I F G Sid V) (payloads : BMap I (Payload2 G)) : Out ε (Round3 I F G Sid) :=
  (xorAll r.ctx.data.rho (payloads.values.map Payload2.rho)).bind fun rhoCombined =>
  .ok ⟨r.ctx, payloads.mapVals fun _ p => p.capX, payloads.mapVals fun _ p => p.capA, rhoCombined⟩

/-- Round 3 broadcast, src/protocols/key_init.rs:510-524 -/
def msg3 (H : SchHash G (SchAux I Sid) → F) (r : Round3 I F G Sid) : SchProof F :=
  SchProof.prove H r.ctx.tau r.ctx.x r.ctx.data.capA r.ctx.data.capX ⟨r.ctx.sid, r.ctx.myId, r.rhoCombined⟩

/-- Round 3 `receive_message`, src/protocols/key_init.rs:526-546 -/
def recv3 (H : SchHash G (SchAux I Sid) → F) (g : G) (r : Round3 I F G Sid) (sender : I) (psi : SchProof F) : Out (RecvErr Err) Unit :=
  (recvGet r.capAs sender).bind fun capA =>
  (recvGet r.capXs sender).bind fun capX =>
  if psi.verify H g capA capX ⟨r.ctx.sid, sender, r.rhoCombined⟩ then .ok () else .err (.protocol .r3InvalidSchProof)

/-- Round 3 `finalize`, src/protocols/key_init.rs:548-565 -/
def finalize3 (r : Round3 I F G Sid) : Out LocalErr (KeyShare I F G) :=
  ofEntity (KeyShare.new r.ctx.myId r.ctx.x (r.capXs.insert r.ctx.myId r.ctx.data.capX))

/-- One party's run up to the start of round 3, given the messages of the first two rounds in order of arrival. -/
def toRound3 (hashV : Sid → I → PublicData G → V) (c : Context I F G Sid) (in1 : List (I × V)) (in2 : List (I × Msg2 G)) :
    Out (Abort I Err) (Round3 I F G Sid) :=
  (collect c.otherIds recv1 in1).bind fun capVs =>
  let r2 : Round2 I F G Sid V := ⟨c, capVs⟩
  (collect c.otherIds (recv2 hashV r2) in2).bind fun payloads => finalize2 r2 payloads

/-- One party's whole run, given all messages it receives. -/
def run (hashV : Sid → I → PublicData G → V) (H : SchHash G (SchAux I Sid) → F) (g : G) (c : Context I F G Sid) (in1 : List (I × V))
    (in2 : List (I × Msg2 G)) (in3 : List (I × SchProof F)) : Out (Abort I Err) (KeyShare I F G) :=
  (toRound3 hashV c in1 in2).bind fun r3 =>
  (collect c.otherIds (recv3 H g r3) in3).bind fun _ => finalizeResult (finalize3 r3)

/-! ### Evidence -/

/-- Evidence for `R2HashMismatch`, src/protocols/key_init.rs:152-168: the guilty party's round 1 echo and round 2 broadcasts -/
def evidence2 (hashV : Sid → I → PublicData G → V) (sid : Sid) (guilty : I) (m1 : V) (m2 : Msg2 G) : Evidence :=
  .ok (decide (hashV sid guilty ⟨m2.capX, m2.capA, m2.rho, m2.u⟩ ≠ m1))

/-- Evidence for `R3InvalidSchProof`, src/protocols/key_init.rs:169-193: the guilty party's round 2 and round 3 broadcasts and the echoed `rho`
of the other parties -/
def evidence3 (H : SchHash G (SchAux I Sid) → F) (g : G) (sid : Sid) (guilty : I) (m2 : Msg2 G) (psi : SchProof F) (echos : BMap I (List Bool)) :
    Evidence :=
  (xorAll m2.rho echos.values).bind fun rho =>
  .ok (!psi.verify H g m2.capA m2.capX ⟨sid, guilty, rho⟩)

end Synedrion.KeyInit
