import Verif.Model.Machines
import Verif.Model.WireNet
import Verif.Model.PointHashing

/-!
# Which points are hashed when

Whatever is hashed is serialized (src/tools/hashing.rs:82-101), and serializing an identity point panics (`Model/CurveBytes`). Here the points are listed that a party hashes in a round: those it
hashes to make the messages of the round, and those it hashes when it receives a message. Simplified: a party that panics when it makes the messages of a round does so at its first step in the round, and a
receiver for which one of several checks would panic does so even if one of the checks before it fails.
-/

namespace Synedrion

section

variable {I M S G : Type} [Zero G] [DecidableEq G]

/-- Panics because of identity points: `own` are the points hashed to make the messages of a round, `read` those hashed on receipt of a message, src/tools/hashing.rs:96 -/
def hashPanics (own : S → List G) (read : S → I → M → List G) : Panics I M S where
  recv s j m := decide (0 ∈ own s ++ read s j m)
  next s _ := decide (0 ∈ own s)

/-- The entry of a map, if there is one (`BTreeMap::get`) -/
def BMap.at [LinearOrder I] (m : BMap I G) (i : I) : List G := (m.get? i).toList

end

/-- The points hashed for a Schnorr proof, src/zk/sch.rs:48-53, in order -/
def schPoints {G : Type} (capA capX : G) : List G := [capX, capA]

/-- The points hashed for `ElogProof`, src/zk/elog.rs:61-73, 92-104, in order -/
def ElogProof.hashed {F G : Type} (psi : ElogProof F G) (pub : ElogPublic G) : List G := [psi.capA, psi.capN, psi.capB, pub.capL, pub.capM, pub.capX, pub.capY, pub.h]

/-- The points hashed for `AffGProof`, src/zk/aff_g.rs:108-126, 175-193, in order -/
def AffGProof.hashed {q : Nat} {G : Type} (psi : AffGProof q G) (capX : G) : List G := [psi.capBx, capX]

/-- The points hashed for `AffGStarProof`, src/zk/aff_g_star.rs:114-125, 180-191, in order -/
def AffGStarProof.hashed {G : Type} (psi : AffGStarProof G) (capX : G) : List G := psi.commitments.map AffGStarCommitment.capR ++ [capX]

/-- The points hashed for `DecProof`, src/zk/dec.rs:135-147, 184-196, in order -/
def DecProof.hashed {G : Type} (psi : DecProof G) (capX capS capG : G) : List G := (psi.commitments.flatMap fun c => [c.capB, c.capC]) ++ [capX, capS, capG]

namespace KeyInit

variable {I F G Sid V : Type} [LinearOrder I] [AddCommGroup G] [DecidableEq G]

/-- Round 1: `PublicData::hash`, src/protocols/key_init.rs:209-218, 324-331; round 3: the proof, 510-524 -/
def ownPoints : State I F G Sid V → List G
  | .one c => [c.data.capX, c.data.capA]
  | .two _ => []
  | .three r => schPoints r.ctx.data.capA r.ctx.data.capX

/-- Round 2: `PublicData::hash` of the received data, src/protocols/key_init.rs:440-448; round 3: the proof, 538-546 -/
def readPoints : State I F G Sid V → I → Message F G V → List G
  | .two _, _, .two m => [m.capX, m.capA]
  | .three r, j, .three _ => r.capXs.at j ++ r.capAs.at j
  | _, _, _ => []

/-- The panics of key generation because of identity points, src/protocols/key_init.rs:209-218, 510-546 -/
def hashPanics : Panics I (Message F G V) (State I F G Sid V) := Synedrion.hashPanics ownPoints readPoints

end KeyInit

namespace KeyRefresh

variable {I F G Sid V : Type} [LinearOrder I] [AddCommGroup G] [DecidableEq G] [Field F] [Module F G]

/-- The point `cap_y * y` that masks a share change, src/protocols/key_refresh.rs:936-944, 969-978 -/
def maskPoints (r : Round3 I F G Sid) (id : I) : List G :=
  match r.payloads.get? id, r.ctx.ys.get? id with
  | some pl, some y => (pl.capYs.at r.ctx.myId).map (y • ·)
  | _, _ => []

/-- Round 1: `PublicData::hash`, src/protocols/key_refresh.rs:453-467, 621-630; round 3: the proofs, 824-836, and the masks, 936-947 -/
def ownPoints : State I F G Sid V → List G
  | .one c => c.data.points
  | .two .. => []
  | .three r _ => r.ctx.data.capXs.values ++ r.ctx.data.capAs.values ++ (bsetIter r.ctx.otherIds).flatMap (maskPoints r)

/-- Round 2: `PublicData::hash` of the received data, src/protocols/key_refresh.rs:752-768; round 3: the mask, 969-981, and the proofs, 1015-1023 -/
def readPoints : State I F G Sid V → I → Message I F G V → List G
  | .two .., _, .two m => m.capXs.values ++ m.echo.capYs.values ++ m.capAs.values
  | .three r _, j, .three m => maskPoints r j ++ m.hatPsis.entries.flatMap fun e =>
    match r.payloads.get? j with
    | some pl => pl.capXs.at e.1 ++ pl.capAs.at e.1
    | none => []
  | _, _, _ => []

/-- The panics of key refresh because of identity points, src/protocols/key_refresh.rs:453-467, 824-836, 936-981, 1015-1023 -/
def hashPanics : Panics I (Message I F G V) (State I F G Sid V) := Synedrion.hashPanics ownPoints readPoints

end KeyRefresh

namespace Signing

variable {q : Nat} {I Ep G : Type} [LinearOrder I] [AddCommGroup G] [DecidableEq G]

/-- The points hashed for the two range encryption proofs of round 1, src/protocols/interactive_signing.rs:1155-1199, 1222-1253 -/
def Msg1.hashed (m : Msg1 q G) : List G := encElgPoints m.psi0 (m.echo.pub0 0) ++ encElgPoints m.psi1 (m.echo.pub1 0)

/-- Beginning (round 1): the execution id, src/protocols/interactive_signing.rs:249-261, and the proofs; round 2: 1290-1307 and 1362-1417; round 3: 1709-1724; rounds 5 and 6: 2160-2207, 2376-2444 -/
def ownPoints (g : G) : State q I Ep G → List G
  | .one r out => r.ctx.keyShare.pub.values ++ out.flatMap fun a => a.2.hashed
  | .two r => (match r.payloads1.get? r.ctx.myId with
      | some p => r.psiElog.hashed (p.elogPub g r.capGamma)
      | none => []) ++
    r.outs.values.flatMap fun o => o.1.psi.hashed r.capGamma ++ (r.ctx.keyShare.pub.at r.ctx.myId).flatMap o.2.psi.hashed
  | .three r => match r.payloads1.get? r.ctx.myId with
      | some p => r.msg.psiPrime.hashed (p.elogPub' r.msg.capDelta r.capGammaCombined)
      | none => []
  | .four _ => []
  | .error r m => match r.capXs.get? r.ctx.myId, r.capSs.get? r.ctx.myId with
      | some capX, some capS => m.psiStar.hashed capX capS r.capG ++ m.psis.values.flatMap fun psi => psi.hashed capX
      | _, _ => []

/-- Round 1: the proofs, src/protocols/interactive_signing.rs:1222-1253; round 2: 1574-1656; round 3: 1885-1897; rounds 5 and 6: 2244-2284, 2487-2529 -/
def readPoints (g : G) : State q I Ep G → I → Message q I G → List G
  | .one .., _, .one m => m.hashed
  | .two r, j, .two m => (m.psis.values.flatMap fun psi => psi.hashed m.echo.capGamma) ++
    (m.hatPsis.values.flatMap fun psi => (r.ctx.keyShare.pub.at j).flatMap psi.hashed) ++
    match r.payloads1.get? j with
      | some p => m.psiElog.hashed (p.elogPub g m.echo.capGamma)
      | none => []
  | .three r, j, .three m => match r.payloads1.get? j with
      | some p => m.psiPrime.hashed (p.elogPub' m.capDelta r.capGammaCombined)
      | none => []
  | .error r _, j, .error m => match r.capXs.get? j, r.capSs.get? j with
      | some capX, some capS => m.psiStar.hashed capX capS r.capG ++ m.psis.entries.flatMap fun e => if e.1 = r.ctx.myId then [] else e.2.hashed capX
      | _, _ => []
  | _, _, _ => []

/-- The panics of signing because of identity points, src/protocols/interactive_signing.rs:249-261, 1155-1253, 1290-1307, 1362-1417, 1574-1656, 1709-1724, 1885-1897, 2160-2284, 2376-2529 -/
def hashPanics (g : G) : Panics I (Message q I G) (State q I Ep G) := Synedrion.hashPanics (ownPoints g) (readPoints g)

end Signing

end Synedrion
