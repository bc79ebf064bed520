import Verif.Model.AuxGen
import Verif.Model.Shamir
import Verif.Model.ZkCurve

/-!
# Key refresh (`src/protocols/key_refresh.rs`)

The part of the protocol that generates auxiliary info is the same code as in `src/protocols/aux_gen.rs`, so its model is reused: a record of this protocol
contains the corresponding record of `AuxGen` as the field `base`. `rhoH` is the hash `"KeyRefresh Round3"` read as a scalar (`Scalar::from_xof_reader`; its
debug assertion that the scalar is not zero is not modelled). All hashes are arbitrary functions of what is hashed.
-/

namespace Synedrion.KeyRefresh

/-- The parameters and hashes of the proofs about the Paillier keys, the generator, the challenge hash of the Schnorr proofs (with the auxiliary data of
src/protocols/key_refresh.rs:823, 971) and the hash of src/protocols/key_refresh.rs:938-944, 970-976 -/
structure Env (I Sid F G : Type) where
  aux : AuxEnv I Sid
  g : G
  schH : SchHash G (Sid × I × List Bool) → F
  rhoH : Sid → List Bool → I → G → F

/-- `Error`, src/protocols/key_refresh.rs:150-180 -/
inductive Err (I F : Type) where
  | r2HashMismatch
  | r2WrongIdsX
  | r2WrongIdsY
  | r2WrongIdsA
  | r2PaillierModulusTooSmall
  | r2RPModulusTooSmall
  | r2NonZeroSumOfChanges
  | r2PrmFailed
  | r3ShareChangeMismatch (reportedBy : I) (y : F)
  | r3ModFailed
  | r3FacFailed (reportedBy : I)
  | r3WrongIdsHatPsi
  | r3SchFailed (failedFor : I)
  deriving DecidableEq

/-- The values drawn by a party, src/protocols/key_refresh.rs:512-558: those for the auxiliary info, the parts of zero, `y_{i,j}` and the Schnorr secrets -/
structure Draws (I F : Type) where
  aux : AuxDraws I
  split : Nat → F
  ys : I → F
  taus : I → F

/-- `PublicData`, src/protocols/key_refresh.rs:442-451 -/
structure PublicData (I G : Type) [LinearOrder I] where
  base : AuxGen.PublicData
  capXs : BMap I G
  capYs : BMap I G
  capAs : BMap I G

/-- What `PublicData::hash` hashes besides the session id and the party id, src/protocols/key_refresh.rs:453-467 -/
structure Hashed (I G : Type) [LinearOrder I] where
  capXs : BMap I G
  capYs : BMap I G
  capAs : BMap I G
  base : AuxGen.Hashed
  deriving DecidableEq

variable {I F G Sid V : Type} [LinearOrder I] [Field F] [LinearOrder F] [AddCommGroup G] [Module F G] [DecidableEq G] [DecidableEq V]

/-- `PublicData::hash`, src/protocols/key_refresh.rs:453-467 -/
def PublicData.hashed (d : PublicData I G) : Hashed I G := ⟨d.capXs, d.capYs, d.capAs, d.base.hashed⟩

/-- `Context` and `public_data` of `Round1`, src/protocols/key_refresh.rs:583-599; the last three fields are the draws of the later rounds. -/
structure Context (I F G Sid : Type) [LinearOrder I] where
  key : PaillierKey
  rp : RPSetup
  xs : BMap I F
  ys : BMap I F
  taus : BMap I F
  myId : I
  otherIds : Finset I
  allIds : Finset I
  sid : Sid
  data : PublicData I G
  modDraw : Nat
  modBit : Bool
  facMasks : I → FacMasks

/-- `KeyRefresh::make_round`, src/protocols/key_refresh.rs:495-579; `sid` is `Sid::new(shared_randomness, all_ids)`. -/
def start (E : Env I Sid F G) (allIds : Finset I) (sid : Sid) (id : I) (d : Draws I F) : Out LocalErr (Context I F G Sid) :=
  if id ∉ allIds then .err .notMember
  else (AuxGen.makeData E.aux sid id d.aux).bind fun x =>
    let ys := BMap.tabulate allIds d.ys
    let capYs := ys.mapVals fun _ y => y • E.g
    (Shamir.secretSplit (0 : F) allIds.card d.split).bind fun splitZero =>
    let xs := BMap.ofList ((bsetIter allIds).zip splitZero)
    let capXs := xs.mapVals fun _ x => x • E.g
    let taus := BMap.tabulate allIds d.taus
    let capAs := taus.mapVals fun _ tau => schCommitment E.g tau
    .ok ⟨x.1, x.2.rp, xs, ys, taus, id, allIds.erase id, allIds, sid, ⟨x.2, capXs, capYs, capAs⟩, d.aux.modDraw, d.aux.modBit, d.aux.facMasks⟩

/-- Round 1 echo broadcast, src/protocols/key_refresh.rs:621-630 -/
def msg1 (hashV : Sid → I → Hashed I G → V) (c : Context I F G Sid) : V := hashV c.sid c.myId c.data.hashed

/-- Round 1 `receive_message`, src/protocols/key_refresh.rs:632-645 -/
def recv1 (_from : I) (capV : V) : Out (RecvErr (Err I F)) V := .ok capV

/-- `Round2EchoBroadcast`, src/protocols/key_refresh.rs:682-688 -/
structure Echo2 (I G : Type) [LinearOrder I] where
  rp : RPParamsWire
  capYs : BMap I G
  rid : List Bool

/-- `Round2NormalBroadcast` and `Round2EchoBroadcast`, src/protocols/key_refresh.rs:672-688 -/
structure Msg2 (I G : Type) [LinearOrder I] where
  echo : Echo2 I G
  capXs : BMap I G
  capAs : BMap I G
  pk : Nat
  psi : PrmProof
  u : List Bool

/-- Round 2 broadcasts, src/protocols/key_refresh.rs:710-736 -/
def PublicData.msg2 (d : PublicData I G) : Msg2 I G :=
  ⟨⟨d.base.rp.rp.toWire, d.capYs, d.base.rid⟩, d.capXs, d.capAs, d.base.pk, d.base.psi, d.base.u⟩

/-- Round 2 broadcasts, src/protocols/key_refresh.rs:710-736 -/
def msg2 (c : Context I F G Sid) : Msg2 I G := c.data.msg2

/-- The part of the message that is the message of auxiliary info generation -/
def Msg2.base (m : Msg2 I G) : AuxGen.Msg2 := ⟨⟨m.echo.rp, m.echo.rid⟩, m.pk, m.psi, m.u⟩

/-- The received `PublicData`, src/protocols/key_refresh.rs:752-761: both moduli are converted first, which panics if they are even. -/
def Msg2.open {ε : Type} (m : Msg2 I G) : Out ε (PublicData I G) := m.base.open.bind fun b => .ok ⟨b, m.capXs, m.echo.capYs, m.capAs⟩

/-- `Round2Payload`, src/protocols/key_refresh.rs:690-698 -/
structure Payload2 (I G : Type) [LinearOrder I] where
  capXs : BMap I G
  capAs : BMap I G
  capYs : BMap I G
  base : AuxGen.Payload2

/-- The payload made from the public data, src/protocols/key_refresh.rs:798-805, 838-845 -/
def PublicData.payload (d : PublicData I G) : Payload2 I G := ⟨d.capXs, d.capAs, d.capYs, d.base.payload⟩

/-- Round 2 `receive_message`, src/protocols/key_refresh.rs:738-808 -/
def recv2 (E : Env I Sid F G) (hashV : Sid → I → Hashed I G → V) (sid : Sid) (allIds : Finset I) (capVs : BMap I V) (sender : I) (m : Msg2 I G) :
    Out (RecvErr (Err I F)) (Payload2 I G) :=
  m.open.bind fun data =>
  (recvGet capVs sender).bind fun capV =>
  if hashV sid sender data.hashed ≠ capV then .err (.protocol .r2HashMismatch)
  else if data.capXs.keySet ≠ allIds then .err (.protocol .r2WrongIdsX)
  else if data.capYs.keySet ≠ allIds then .err (.protocol .r2WrongIdsY)
  else if data.capAs.keySet ≠ allIds then .err (.protocol .r2WrongIdsA)
  else if bitLen data.base.pk < E.aux.P.modBits - 2 then .err (.protocol .r2PaillierModulusTooSmall)
  else if bitLen data.base.rp.modulus < E.aux.P.modBits - 2 then .err (.protocol .r2RPModulusTooSmall)
  else if data.capXs.values.sum ≠ 0 then .err (.protocol .r2NonZeroSumOfChanges)
  else if ¬ data.base.psi.verify E.aux.prmH data.base.rp.rp (sid, sender) then .err (.protocol .r2PrmFailed)
  else .ok data.payload

/-- `Round3`, src/protocols/key_refresh.rs:860-867 -/
structure Round3 (I F G Sid : Type) [LinearOrder I] where
  ctx : Context I F G Sid
  rid : List Bool
  payloads : BMap I (Payload2 I G)
  psiPrime : ModProof
  hatPsis : BMap I (SchProof F)

/-- The Schnorr proof for one share change, src/protocols/key_refresh.rs:827-835 -/
def makeSch (E : Env I Sid F G) (c : Context I F G Sid) (rid : List Bool) (id : I) : Out LocalErr (I × SchProof F) :=
  (finGet c.xs id).bind fun x =>
  (finGet c.taus id).bind fun tau =>
  (finGet c.data.capAs id).bind fun capA =>
  (finGet c.data.capXs id).bind fun capX =>
  .ok (id, SchProof.prove E.schH tau x capA capX (c.sid, c.myId, rid))

/-- Round 2 `finalize`, src/protocols/key_refresh.rs:810-857 -/
def finalize2 (E : Env I Sid F G) (c : Context I F G Sid) (payloads : BMap I (Payload2 I G)) : Out LocalErr (Round3 I F G Sid) :=
  (xorAll c.data.base.rid (payloads.values.map fun p => p.base.rid)).bind fun rid =>
  (AuxGen.makeMod E.aux c.key c.modDraw c.modBit (c.sid, c.myId, rid)).bind fun psiPrime =>
  (Out.mapM' (makeSch E c rid) (bsetIter c.allIds)).bind fun hatPsis =>
  .ok ⟨c, rid, payloads.insert c.myId c.data.payload, psiPrime, BMap.ofList hatPsis⟩

/-- `Round3DirectMessage`, `Round3NormalBroadcast` and `Round3EchoBroadcast`, src/protocols/key_refresh.rs:869-886 -/
structure Msg3 (I F : Type) [LinearOrder I] where
  hatPsis : BMap I (SchProof F)
  psiPrime : ModProof
  psi : FacProof
  capC : F

/-- Round 3 messages to one destination, src/protocols/key_refresh.rs:903-953 -/
def msg3 (E : Env I Sid F G) (r : Round3 I F G Sid) (dest : I) : Out LocalErr (Msg3 I F) :=
  (finGet r.payloads dest).bind fun pl =>
  (AuxGen.makeFac E.aux r.ctx.key pl.base.rp (r.ctx.sid, r.ctx.myId, r.rid) (r.ctx.facMasks dest)).bind fun psi =>
  (finGet pl.capYs r.ctx.myId).bind fun capY =>
  (finGet r.ctx.ys dest).bind fun y =>
  let rho := E.rhoH r.ctx.sid r.rid r.ctx.myId (y • capY)
  (finGet r.ctx.xs dest).bind fun x =>
  .ok ⟨r.hatPsis, r.psiPrime, psi, x + rho⟩

/-- The loop over the Schnorr proofs, src/protocols/key_refresh.rs:1015-1023 -/
def checkSch (E : Env I Sid F G) (pl : Payload2 I G) (aux : Sid × I × List Bool) : List (I × SchProof F) → Out (RecvErr (Err I F)) Unit
  | [] => .ok ()
  | (id, hatPsi) :: rest =>
    (recvGet pl.capAs id).bind fun capA =>
    (recvGet pl.capXs id).bind fun capX =>
    if ¬ hatPsi.verify E.schH E.g capA capX aux then .err (.protocol (.r3SchFailed id)) else checkSch E pl aux rest

/-- Round 3 `receive_message`, src/protocols/key_refresh.rs:955-1026. The payload is the received share change. -/
def recv3 (E : Env I Sid F G) (r : Round3 I F G Sid) (sender : I) (m : Msg3 I F) : Out (RecvErr (Err I F)) F :=
  (recvGet r.payloads sender).bind fun pl =>
  (recvGet pl.capYs r.ctx.myId).bind fun capY =>
  (recvGet r.ctx.ys sender).bind fun y =>
  let rho := E.rhoH r.ctx.sid r.rid sender (y • capY)
  let x := m.capC - rho
  (recvGet pl.capXs r.ctx.myId).bind fun myCapX =>
  if x • E.g ≠ myCapX then .err (.protocol (.r3ShareChangeMismatch r.ctx.myId y))
  else
    let aux := (r.ctx.sid, sender, r.rid)
    if ¬ m.psiPrime.verify E.aux.P E.aux.modH E.aux.isPrime pl.base.pk aux then .err (.protocol .r3ModFailed)
    else (m.psi.verify E.aux.P E.aux.facH pl.base.pk r.ctx.rp.rp aux).bind fun ok =>
      if ¬ ok then .err (.protocol (.r3FacFailed r.ctx.myId))
      else if m.hatPsis.keySet ≠ r.ctx.allIds then .err (.protocol .r3WrongIdsHatPsi)
      else (checkSch E pl aux m.hatPsis.entries).bind fun _ => .ok x

/-- The public change of one party, src/protocols/key_refresh.rs:1050-1057: the sum over the senders -/
def sumChanges (payloads : List (Payload2 I G)) (k : I) : Out LocalErr (I × G) :=
  (payloads.foldl (fun (acc : Out LocalErr G) p => acc.bind fun result => (finGet p.capXs k).bind fun capX => .ok (result + capX)) (.ok 0)).bind fun r => .ok (k, r)

/-- Round 3 `finalize`, src/protocols/key_refresh.rs:1028-1081 -/
def finalize3 (r : Round3 I F G Sid) (payloads : BMap I F) : Out LocalErr (KeyShareChange I F G × AuxInfo I PaillierKey PublicAux) :=
  (finGet r.ctx.xs r.ctx.myId).bind fun myX =>
  let xStar := payloads.values.sum + myX
  (Out.mapM' (sumChanges r.payloads.values) (bsetIter r.ctx.allIds)).bind fun capXStar =>
  .ok (⟨r.ctx.myId, xStar, BMap.ofList capXStar⟩, ⟨r.ctx.myId, r.ctx.key, r.payloads.mapVals fun _ p => p.base.toAux⟩)

/-- One party's run up to the start of round 3, given the messages of the first two rounds in order of arrival. -/
def toRound3 (E : Env I Sid F G) (hashV : Sid → I → Hashed I G → V) (c : Context I F G Sid) (in1 : List (I × V)) (in2 : List (I × Msg2 I G)) :
    Out (Abort I (Err I F)) (Round3 I F G Sid) :=
  (collect c.otherIds recv1 in1).bind fun capVs =>
  (collect c.otherIds (recv2 E hashV c.sid c.allIds capVs) in2).bind fun payloads => finalizeResult (finalize2 E c payloads)

/-- All messages of round 3; the session layer makes them, in the order of the destinations, before it processes what arrives. -/
def send3 (E : Env I Sid F G) (r : Round3 I F G Sid) : Out (Abort I (Err I F)) (List (I × Msg3 I F)) :=
  Out.mapM' (fun dest => (finalizeResult (msg3 E r dest)).bind fun m => .ok (dest, m)) (bsetIter r.ctx.otherIds)

/-- One party's whole run, given all messages it receives. -/
def run (E : Env I Sid F G) (hashV : Sid → I → Hashed I G → V) (c : Context I F G Sid) (in1 : List (I × V)) (in2 : List (I × Msg2 I G))
    (in3 : List (I × Msg3 I F)) : Out (Abort I (Err I F)) (KeyShareChange I F G × AuxInfo I PaillierKey PublicAux) :=
  (toRound3 E hashV c in1 in2).bind fun r3 =>
  (send3 E r3).bind fun _ =>
  (collect c.otherIds (recv3 E r3) in3).bind fun xs => finalizeResult (finalize3 r3 xs)

/-! ### Evidence -/

/-- Evidence for the errors of round 2, src/protocols/key_refresh.rs:269-343, from the guilty party's round 1 echo and round 2 broadcasts -/
def evidence2 (E : Env I Sid F G) (hashV : Sid → I → Hashed I G → V) (sid : Sid) (ids : Finset I) (guilty : I) (m1 : V) (m2 : Msg2 I G) : Err I F → Evidence
  | .r2HashMismatch => m2.open.bind fun data => .ok (decide (hashV sid guilty data.hashed ≠ m1))
  | .r2WrongIdsX => .ok (decide (m2.capXs.keySet ≠ ids))
  | .r2WrongIdsY => .ok (decide (m2.echo.capYs.keySet ≠ ids))
  | .r2WrongIdsA => .ok (decide (m2.capAs.keySet ≠ ids))
  | .r2PaillierModulusTooSmall => .ok (decide (bitLen m2.pk < E.aux.P.modBits - 2))
  | .r2RPModulusTooSmall => .ok (decide (bitLen m2.echo.rp.modulus < E.aux.P.modBits - 2))
  | .r2NonZeroSumOfChanges => .ok (decide (m2.capXs.values.sum ≠ 0))
  | .r2PrmFailed => (m2.echo.rp.toPrecomputed).bind fun rp => .ok (!m2.psi.verify E.aux.prmH rp (sid, guilty))
  | _ => .err ()

/-- `reconstruct_rid`, src/protocols/key_refresh.rs:183-200: the guilty party's `rid` and the echoed ones of all others -/
def reconstructRid (own : Echo2 I G) (echos : BMap I (Echo2 I G)) : Out Unit (List Bool) := xorAll own.rid (echos.values.map Echo2.rid)

/-- Evidence for the errors of round 3, src/protocols/key_refresh.rs:344-437, from the guilty party's round 2 and round 3 messages and the echoed round 2
broadcasts of the other parties -/
def evidence3 (E : Env I Sid F G) (sid : Sid) (ids : Finset I) (guilty : I) (m2 : Msg2 I G) (m3 : Msg3 I F) (echos : BMap I (Echo2 I G)) : Err I F → Evidence
  | .r3ShareChangeMismatch reportedBy y =>
    (Out.ofOption () (echos.get? reportedBy)).bind fun echoI =>
    (Out.ofOption () (echoI.capYs.get? guilty)).bind fun capYij =>
    if y • E.g ≠ capYij then .err ()
    else
      (reconstructRid m2.echo echos).bind fun rid =>
      (Out.ofOption () (m2.echo.capYs.get? reportedBy)).bind fun capYji =>
      let rho := E.rhoH sid rid guilty (y • capYji)
      let x := m3.capC - rho
      (Out.ofOption () (m2.capXs.get? reportedBy)).bind fun capXji => .ok (decide (x • E.g ≠ capXji))
  | .r3ModFailed =>
    (reconstructRid m2.echo echos).bind fun rid =>
    (publicModulusNew m2.pk).bind fun pk =>
    .ok (!m3.psiPrime.verify E.aux.P E.aux.modH E.aux.isPrime pk (sid, guilty, rid))
  | .r3FacFailed reportedBy =>
    (reconstructRid m2.echo echos).bind fun rid =>
    (Out.ofOption () (echos.get? reportedBy)).bind fun echo =>
    (publicModulusNew m2.pk).bind fun pk =>
    (echo.rp.toPrecomputed).bind fun rp =>
    (m3.psi.verify E.aux.P E.aux.facH pk rp (sid, guilty, rid)).bind fun ok => .ok (!ok)
  | .r3WrongIdsHatPsi => .ok (decide (m3.hatPsis.keySet ≠ ids))
  | .r3SchFailed failedFor =>
    (reconstructRid m2.echo echos).bind fun rid =>
    (Out.ofOption () (m2.capAs.get? failedFor)).bind fun capA =>
    (Out.ofOption () (m2.capXs.get? failedFor)).bind fun capX =>
    (Out.ofOption () (m3.hatPsis.get? failedFor)).bind fun hatPsi =>
    .ok (!hatPsi.verify E.schH E.g capA capX (sid, guilty, rid))
  | _ => .err ()

end Synedrion.KeyRefresh
