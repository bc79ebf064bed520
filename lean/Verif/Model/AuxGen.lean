import Verif.Model.Session
import Verif.Model.ZkModulus
import Verif.Model.ZkPaillier

/-!
# Generation of auxiliary info (`src/protocols/aux_gen.rs`)

`Sid` is the type of session ids, `V` the type of hash outputs. All hashes are arbitrary functions of what is hashed. The pieces that
`src/protocols/key_refresh.rs` shares with this protocol are used by `Verif/Model/KeyRefresh.lean` too.
-/

namespace Synedrion

/-- The scheme parameters, the challenge hashes of the three proofs (with the auxiliary data of src/protocols/aux_gen.rs:353, 590) and the primality test. -/
structure AuxEnv (I Sid : Type) where
  P : Params
  prmH : PrmHash (Sid × I) → List Bool
  modH : ModHash (Sid × I × List Bool) → List Nat
  isPrime : Nat → Bool
  facH : FacHash (Sid × I × List Bool) → SInt

/-- `SecretKeyPaillier` together with its primes, src/paillier/keys.rs:48-69 -/
structure PaillierKey where
  p : Nat
  q : Nat
  sk : SecretKey p q

/-- `RPParams` with its modulus, src/paillier/ring_pedersen.rs:75-84 -/
structure RPSetup where
  modulus : Nat
  rp : RPParams modulus

/-- `PublicAuxInfo`, src/entities/full.rs:65-74 -/
structure PublicAux where
  pk : Nat
  rp : RPParamsWire
  deriving DecidableEq

/-- The values drawn for one party's auxiliary info, src/protocols/aux_gen.rs:346-357 (`p`, `q`, the ring-Pedersen primes, `λ`, the square root of `t`, the masks
of the proof `prm`, `rid`, `u`), 591 (the draws of `ModProof::new`) and 666 (the masks of `FacProof::new` for each destination) -/
structure AuxDraws (I : Type) where
  p : Nat
  q : Nat
  rpP : Nat
  rpQ : Nat
  lambda : Nat
  tDraw : Nat
  prmMasks : List Nat
  rid : List Bool
  u : List Bool
  modDraw : Nat
  modBit : Bool
  facMasks : I → FacMasks

variable {I Sid V : Type} [LinearOrder I] [DecidableEq V]

namespace AuxGen

/-- `Error`, src/protocols/aux_gen.rs:122-132 -/
inductive Err (I : Type) where
  | r2HashMismatch
  | r2PaillierModulusTooSmall
  | r2RPModulusTooSmall
  | r2PrmFailed
  | r3ModFailed
  | r3FacFailed (reportedBy : I)
  deriving DecidableEq

/-- `PublicData`, src/protocols/aux_gen.rs:283-289, hashed in 292-302 -/
structure PublicData where
  pk : Nat
  rp : RPSetup
  psi : PrmProof
  rid : List Bool
  u : List Bool

/-- What `PublicData::hash` hashes besides the session id and the party id, src/protocols/aux_gen.rs:292-302: the parameters in wire form -/
structure Hashed where
  pk : Nat
  rp : RPParamsWire
  psi : PrmProof
  rid : List Bool
  u : List Bool
  deriving DecidableEq

/-- `PublicData::hash`, src/protocols/aux_gen.rs:292-302 -/
def PublicData.hashed (d : PublicData) : Hashed := ⟨d.pk, d.rp.rp.toWire, d.psi, d.rid, d.u⟩

/-- `Context` and `public_data` of `Round1`, src/protocols/aux_gen.rs:388-400; the last two fields are the draws of the later rounds. -/
structure Context (I Sid : Type) where
  key : PaillierKey
  rp : RPSetup
  myId : I
  otherIds : Finset I
  sid : Sid
  data : PublicData
  modDraw : Nat
  modBit : Bool
  facMasks : I → FacMasks

/-- The generation of keys and parameters in `make_round`, src/protocols/aux_gen.rs:346-377 -/
def makeData {ε : Type} (E : AuxEnv I Sid) (sid : Sid) (id : I) (d : AuxDraws I) : Out ε (PaillierKey × PublicData) :=
  (SecretKey.new d.p d.q).bind fun sk =>
  (publicModulusNew (d.rpP * d.rpQ)).bind fun _ =>
  let rp := RPParams.withSecret (d.rpP * d.rpQ) E.P.modBits d.lambda d.tDraw
  let psi := PrmProof.prove E.P E.prmH ((d.rpP - 1) * (d.rpQ - 1)) d.lambda rp (sid, id) d.prmMasks
  .ok (⟨d.p, d.q, sk⟩, ⟨d.p * d.q, ⟨_, rp⟩, psi, d.rid, d.u⟩)

/-- `AuxGen::make_round`, src/protocols/aux_gen.rs:334-384; `sid` is `Sid::new(shared_randomness, all_ids)`. -/
def start (E : AuxEnv I Sid) (allIds : Finset I) (sid : Sid) (id : I) (d : AuxDraws I) : Out LocalErr (Context I Sid) :=
  if id ∉ allIds then .err .notMember
  else (makeData E sid id d).bind fun x =>
    .ok ⟨x.1, x.2.rp, id, allIds.erase id, sid, x.2, d.modDraw, d.modBit, d.facMasks⟩

/-- Round 1 echo broadcast, src/protocols/aux_gen.rs:422-431 -/
def msg1 (hashV : Sid → I → Hashed → V) (c : Context I Sid) : V := hashV c.sid c.myId c.data.hashed

/-- Round 1 `receive_message`, src/protocols/aux_gen.rs:433-446 -/
def recv1 (_from : I) (capV : V) : Out (RecvErr (Err I)) V := .ok capV

/-- The echoed part of the round 2 message, src/protocols/aux_gen.rs:481-484 -/
structure Echo2 where
  rp : RPParamsWire
  rid : List Bool
  deriving DecidableEq

/-- The two round 2 broadcasts, src/protocols/aux_gen.rs:474-484 -/
structure Msg2 where
  echo : Echo2
  pk : Nat
  psi : PrmProof
  u : List Bool

/-- Round 2 broadcasts, src/protocols/aux_gen.rs:504-527 -/
def PublicData.msg2 (d : PublicData) : Msg2 := ⟨⟨d.rp.rp.toWire, d.rid⟩, d.pk, d.psi, d.u⟩

/-- Round 2 broadcasts, src/protocols/aux_gen.rs:504-527 -/
def msg2 (c : Context I Sid) : Msg2 := c.data.msg2

/-- The received `PublicData`, src/protocols/aux_gen.rs:541-547: both moduli are converted first, which panics if they are even. -/
def Msg2.open {ε : Type} (m : Msg2) : Out ε PublicData :=
  (publicModulusNew m.pk).bind fun pk =>
  (m.echo.rp.toPrecomputed).bind fun rp => .ok ⟨pk, ⟨_, rp⟩, m.psi, m.echo.rid, m.u⟩

/-- `Round2Payload`, src/protocols/aux_gen.rs:487-491 -/
structure Payload2 where
  pk : Nat
  rp : RPSetup
  rid : List Bool

/-- The payload made from the public data, src/protocols/aux_gen.rs:568-572, 594-598 -/
def PublicData.payload (d : PublicData) : Payload2 := ⟨d.pk, d.rp, d.rid⟩

/-- Round 2 `receive_message`, src/protocols/aux_gen.rs:529-575 -/
def recv2 (E : AuxEnv I Sid) (hashV : Sid → I → Hashed → V) (sid : Sid) (capVs : BMap I V) (sender : I) (m : Msg2) : Out (RecvErr (Err I)) Payload2 :=
  m.open.bind fun data =>
  (recvGet capVs sender).bind fun capV =>
  if hashV sid sender data.hashed ≠ capV then .err (.protocol .r2HashMismatch)
  else if bitLen data.pk < E.P.modBits - 2 then .err (.protocol .r2PaillierModulusTooSmall)
  else if bitLen data.rp.modulus < E.P.modBits - 2 then .err (.protocol .r2RPModulusTooSmall)
  else if ¬ data.psi.verify E.prmH data.rp.rp (sid, sender) then .err (.protocol .r2PrmFailed)
  else .ok data.payload

/-- `Round3`, src/protocols/aux_gen.rs:614-619 -/
structure Round3 (I Sid : Type) [LinearOrder I] where
  ctx : Context I Sid
  payloads : BMap I Payload2
  rid : List Bool
  psiPrime : ModProof

/-- `ModProof::new` with the draws of the context, src/protocols/aux_gen.rs:589-591 -/
def makeMod {ε : Type} (E : AuxEnv I Sid) (key : PaillierKey) (modDraw : Nat) (modBit : Bool) (aux : Sid × I × List Bool) : Out ε ModProof :=
  ModProof.prove E.P E.modH key.sk aux (nonsquareResidue key.sk modDraw modBit)

/-- Round 2 `finalize`, src/protocols/aux_gen.rs:577-610 -/
def finalize2 {ε : Type} (E : AuxEnv I Sid) (c : Context I Sid) (payloads : BMap I Payload2) : Out ε (Round3 I Sid) :=
  (xorAll c.data.rid (payloads.values.map Payload2.rid)).bind fun rid =>
  (makeMod E c.key c.modDraw c.modBit (c.sid, c.myId, rid)).bind fun psiPrime =>
  .ok ⟨c, payloads.insert c.myId c.data.payload, rid, psiPrime⟩

/-- The round 3 normal broadcast and direct message, src/protocols/aux_gen.rs:623-631 -/
structure Msg3 where
  psiPrime : ModProof
  psi : FacProof

/-- `FacProof::new` for another party's ring-Pedersen parameters, src/protocols/aux_gen.rs:661-666 -/
def makeFac {ε : Type} (E : AuxEnv I Sid) (key : PaillierKey) (rp : RPSetup) (aux : Sid × I × List Bool) (masks : FacMasks) : Out ε FacProof :=
  FacProof.prove E.P E.facH key.p key.q rp.rp aux masks

/-- Round 3 messages to one destination, src/protocols/aux_gen.rs:644-671 -/
def msg3 (E : AuxEnv I Sid) (r : Round3 I Sid) (dest : I) : Out LocalErr Msg3 :=
  (finGet r.payloads dest).bind fun pl =>
  (makeFac E r.ctx.key pl.rp (r.ctx.sid, r.ctx.myId, r.rid) (r.ctx.facMasks dest)).bind fun psi =>
  .ok ⟨r.psiPrime, psi⟩

/-- Round 3 `receive_message`, src/protocols/aux_gen.rs:673-707 -/
def recv3 (E : AuxEnv I Sid) (r : Round3 I Sid) (sender : I) (m : Msg3) : Out (RecvErr (Err I)) Unit :=
  (recvGet r.payloads sender).bind fun pl =>
  let aux := (r.ctx.sid, sender, r.rid)
  if ¬ m.psiPrime.verify E.P E.modH E.isPrime pl.pk aux then .err (.protocol .r3ModFailed)
  else (m.psi.verify E.P E.facH pl.pk r.ctx.rp.rp aux).bind fun ok =>
    if ¬ ok then .err (.protocol (.r3FacFailed r.ctx.myId)) else .ok ()

/-- The public part of the result for one party, src/protocols/aux_gen.rs:717-720 -/
def Payload2.toAux (p : Payload2) : PublicAux := ⟨p.pk, p.rp.rp.toWire⟩

/-- Round 3 `finalize`, src/protocols/aux_gen.rs:709-733 -/
def finalize3 (r : Round3 I Sid) : AuxInfo I PaillierKey PublicAux :=
  ⟨r.ctx.myId, r.ctx.key, r.payloads.mapVals fun _ p => p.toAux⟩

/-- One party's run up to the start of round 3, given the messages of the first two rounds in order of arrival. -/
def toRound3 (E : AuxEnv I Sid) (hashV : Sid → I → Hashed → V) (c : Context I Sid) (in1 : List (I × V)) (in2 : List (I × Msg2)) :
    Out (Abort I (Err I)) (Round3 I Sid) :=
  (collect c.otherIds recv1 in1).bind fun capVs =>
  (collect c.otherIds (recv2 E hashV c.sid capVs) in2).bind fun payloads => finalize2 E c payloads

/-- All messages of round 3; the session layer makes them, in the order of the destinations, before it processes what arrives. -/
def send3 (E : AuxEnv I Sid) (r : Round3 I Sid) : Out (Abort I (Err I)) (List (I × Msg3)) :=
  Out.mapM' (fun dest => (finalizeResult (msg3 E r dest)).bind fun m => .ok (dest, m)) (bsetIter r.ctx.otherIds)

/-- One party's whole run, given all messages it receives. -/
def run (E : AuxEnv I Sid) (hashV : Sid → I → Hashed → V) (c : Context I Sid) (in1 : List (I × V)) (in2 : List (I × Msg2)) (in3 : List (I × Msg3)) :
    Out (Abort I (Err I)) (AuxInfo I PaillierKey PublicAux) :=
  (toRound3 E hashV c in1 in2).bind fun r3 =>
  (send3 E r3).bind fun _ =>
  (collect c.otherIds (recv3 E r3) in3).bind fun _ => .ok (finalize3 r3)

/-! ### Evidence -/

/-- Evidence for the errors of round 2, src/protocols/aux_gen.rs:206-247, from the guilty party's round 1 echo and round 2 broadcasts -/
def evidence2 (E : AuxEnv I Sid) (hashV : Sid → I → Hashed → V) (sid : Sid) (guilty : I) (m1 : V) (m2 : Msg2) : Err I → Evidence
  | .r2HashMismatch => m2.open.bind fun data => .ok (decide (hashV sid guilty data.hashed ≠ m1))
  | .r2PaillierModulusTooSmall => .ok (decide (bitLen m2.pk < E.P.modBits - 2))
  | .r2RPModulusTooSmall => .ok (decide (bitLen m2.echo.rp.modulus < E.P.modBits - 2))
  | .r2PrmFailed => (m2.echo.rp.toPrecomputed).bind fun rp => .ok (!m2.psi.verify E.prmH rp (sid, guilty))
  | _ => .err ()

/-- `reconstruct_rid`, src/protocols/aux_gen.rs:135-152: the guilty party's `rid` and the echoed ones of all others -/
def reconstructRid (own : List Bool) (echos : BMap I (List Bool)) : Out Unit (List Bool) := xorAll own echos.values

/-- Evidence for the errors of round 3, src/protocols/aux_gen.rs:248-277, from the guilty party's round 2 and round 3 messages and the echoed round 2
broadcasts of the other parties -/
def evidence3 (E : AuxEnv I Sid) (sid : Sid) (guilty : I) (m2 : Msg2) (m3 : Msg3) (echos : BMap I Echo2) : Err I → Evidence
  | .r3ModFailed =>
    (reconstructRid m2.echo.rid (echos.mapVals fun _ e => e.rid)).bind fun rid =>
    (publicModulusNew m2.pk).bind fun pk =>
    .ok (!m3.psiPrime.verify E.P E.modH E.isPrime pk (sid, guilty, rid))
  | .r3FacFailed reportedBy =>
    (reconstructRid m2.echo.rid (echos.mapVals fun _ e => e.rid)).bind fun rid =>
    (Out.ofOption () (echos.get? reportedBy)).bind fun echo =>
    (publicModulusNew m2.pk).bind fun pk =>
    (echo.rp.toPrecomputed).bind fun rp =>
    (m3.psi.verify E.P E.facH pk rp (sid, guilty, rid)).bind fun ok => .ok (!ok)
  | _ => .err ()

end AuxGen
end Synedrion
