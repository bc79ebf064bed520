import Verif.Model.CurveBytes
import Verif.Model.KeyRefresh
import Verif.Model.Signing

/-!
# Where received points are hashed

The protocol models take the digests as functions of points. The code serializes the points for that, which panics for the identity
(`Model/CurveBytes`). Here the rounds of key refresh and signing that hash points received from a peer are given with that panic.
-/

namespace Synedrion

variable {ε : Type} {G : Type}

/-- Serializing several points, one after the other (`Chain::chain`, src/tools/hashing.rs:26-28, 82-101) -/
def pointsToBytes (S : Sec1 G) (pts : List G) : Out ε (List (List Byte)) := Out.mapM' (pointToBytes S) pts

namespace KeyRefresh

variable {I F Sid V : Type} [LinearOrder I] [Field F] [LinearOrder F] [AddCommGroup G] [Module F G] [DecidableEq G] [DecidableEq V]

/-- The points hashed by `PublicData::hash`, src/protocols/key_refresh.rs:458-460, in order -/
def PublicData.points (d : PublicData I G) : List G := d.capXs.values ++ d.capYs.values ++ d.capAs.values

/-- Round 1 echo broadcast with the serialization of the points, src/protocols/key_refresh.rs:453-467, 621-630 -/
def msg1Checked (S : Sec1 G) (hashV : Sid → I → Hashed I G → V) (c : Context I F G Sid) : Out ε V :=
  (pointsToBytes S c.data.points).bind fun _ => .ok (msg1 hashV c)

/-- Round 2 `receive_message` with the serialization of the points, src/protocols/key_refresh.rs:738-808: the digest is computed after the commitment is looked up (765). -/
def recv2Checked (S : Sec1 G) (E : Env I Sid F G) (hashV : Sid → I → Hashed I G → V) (sid : Sid) (allIds : Finset I) (capVs : BMap I V) (sender : I)
    (m : Msg2 I G) : Out (RecvErr (Err I F)) (Payload2 I G) :=
  m.open.bind fun data =>
  (recvGet capVs sender).bind fun _ =>
  (pointsToBytes S data.points).bind fun _ =>
  recv2 E hashV sid allIds capVs sender m

end KeyRefresh

namespace Signing

variable {q : Nat} {I Ep : Type} [LinearOrder I] [AddCommGroup G] [Fact q.Prime] [Module (ZMod q) G] [DecidableEq G]

/-- The points hashed when a range encryption proof is verified, src/zk/enc_elg.rs:133-147, in order -/
def encElgPoints {N0 : Nat} (psi : EncElgProof q G) (pub : EncElgPublic N0 G) : List G := [psi.capY, psi.capZ, pub.capA, pub.capB, pub.capX]

/-- `EncElgProof::verify` with the serialization of the points, src/zk/enc_elg.rs:125-190: the digest is computed before anything is compared. -/
def encElgVerifyChecked (S : Sec1 G) {Aux : Type} (P : Params) (H : EncElgHash G Aux → ZMod q) (g : G) {N0 Nh : Nat} (psi : EncElgProof q G)
    (pub : EncElgPublic N0 G) (setup : RPParams Nh) (aux : Aux) : Out ε Bool :=
  (pointsToBytes S (encElgPoints psi pub)).bind fun _ => psi.verify P H g pub setup aux

/-- Round 1 `receive_message` with the serialization of the points, src/protocols/interactive_signing.rs:1207-1263 -/
def recv1Checked (S : Sec1 G) (E : Env q I Ep G) (c : Context q I Ep G) (sender : I) (m : Msg1 q G) : Out (RecvErr (Err I)) (Payload1 G) :=
  (recvGet c.pubAux c.myId).bind fun mine =>
  (recvGet c.pubAux sender).bind fun theirs =>
  let aux := (c.epid, sender)
  (encElgVerifyChecked S E.P E.encH E.C.g m.psi0 (m.echo.pub0 theirs.pk) mine.rp.rp aux).bind fun ok0 =>
  if ¬ ok0 then .err (.protocol .r1EncElg0Failed)
  else (encElgVerifyChecked S E.P E.encH E.C.g m.psi1 (m.echo.pub1 theirs.pk) mine.rp.rp aux).bind fun ok1 =>
    if ¬ ok1 then .err (.protocol .r1EncElg1Failed)
    else .ok (m.echo.payload theirs.pk)

end Signing
end Synedrion
