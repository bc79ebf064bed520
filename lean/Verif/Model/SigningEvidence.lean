import Verif.Model.Signing

/-!
# Checking the evidence of interactive signing (`src/protocols/interactive_signing.rs`, 262-916)

The functions get the messages that the session layer supplies according to `required_messages` (266-351), already parsed: a message that was received was
parsed before. The supplied echo broadcasts of a round are those of all parties except for the accused one. `.ok true` is accepted evidence (`verify_that` of a
true condition), `.ok false` and `.err ()` are rejected evidence, `.panic` a failed assertion.
-/

namespace Synedrion.Signing

variable {q : Nat} [Fact q.Prime] {I Ep G : Type} [LinearOrder I] [AddCommGroup G] [Module (ZMod q) G] [DecidableEq G]

/-- `InteractiveSigningAssociatedData`, src/protocols/interactive_signing.rs:206-215, with the epoch id made from it (363) and the reduced message (611) -/
structure AssocData (q : Nat) (I Ep G : Type) [LinearOrder I] where
  epid : Ep
  shares : BMap I G
  aux : BMap I PublicAux
  message : ZMod q

/-- `associated_data.aux.as_map().try_get(…)` -/
def AssocData.auxOf (a : AssocData q I Ep G) (id : I) : Out Unit PublicAux := Out.ofOption () (a.aux.get? id)

/-- The parties other than the accused one, src/protocols/interactive_signing.rs:414-419 and the same lines elsewhere -/
def AssocData.others (a : AssocData q I Ep G) (guilty : I) : Finset I := a.aux.keySet.erase guilty

/-- Evidence for the errors of round 1, src/protocols/interactive_signing.rs:366-409, from the guilty party's messages of round 1. The ring-Pedersen parameters are
those of the accused party. -/
def evidence1 (E : Env q I Ep G) (a : AssocData q I Ep G) (guilty : I) (m : Msg1 q G) : Err I → Evidence
  | .r1EncElg0Failed =>
    (a.auxOf guilty).bind fun pub => (precompute pub).bind fun pub =>
    (m.psi0.verify E.P E.encH E.C.g (m.echo.pub0 pub.pk) pub.rp.rp (a.epid, guilty)).bind fun ok => .ok (!ok)
  | .r1EncElg1Failed =>
    (a.auxOf guilty).bind fun pub => (precompute pub).bind fun pub =>
    (m.psi1.verify E.P E.encH E.C.g (m.echo.pub1 pub.pk) pub.rp.rp (a.epid, guilty)).bind fun ok => .ok (!ok)
  | _ => .err ()

/-- The common part of `R2AffGPsiFailed` and `R2AffGHatPsiFailed`, src/protocols/interactive_signing.rs:446-484 and 485-531 -/
def evidenceAffG (E : Env q I Ep G) (a : AssocData q I Ep G) (guilty failedFor : I) (echos1 : BMap I (Echo1 G)) (capX : Out Unit G)
    (psis : BMap I (AffGProof q G)) (capDs capFs : BMap I Nat) : Evidence :=
  (Out.ofOption () (echos1.get? failedFor)).bind fun r1 =>
  capX.bind fun capX =>
  (a.auxOf failedFor).bind fun forAux =>
  (a.auxOf guilty).bind fun fromAux =>
  (forAux.rp.toPrecomputed).bind fun rp =>
  (publicModulusNew forAux.pk).bind fun forPk =>
  (publicModulusNew fromAux.pk).bind fun fromPk =>
  (Out.ofOption () (capDs.get? failedFor)).bind fun capD =>
  (Out.ofOption () (capFs.get? failedFor)).bind fun capF =>
  (Out.ofOption () (psis.get? failedFor)).bind fun psi =>
  (affGVerify E forPk fromPk psi (.ofWire forPk r1.capK) (.ofWire forPk capD) (.ofWire fromPk capF) capX ⟨_, rp⟩ (a.epid, guilty)).bind fun ok => .ok (!ok)

/-- Evidence for the errors of round 2, src/protocols/interactive_signing.rs:410-555, from the guilty party's round 1 echo, its round 2 broadcasts and the echo
broadcasts of round 1 of the other parties. For `R2AffGHatPsiFailed` the public share is the one of `failed_for` (497). -/
def evidence2 (E : Env q I Ep G) (a : AssocData q I Ep G) (guilty : I) (e1 : Echo1 G) (m : Msg2 q I G) (echos1 : BMap I (Echo1 G)) : Err I → Evidence
  | .r2WrongIdsD => .ok (decide (m.capDs.keySet ≠ a.others guilty))
  | .r2WrongIdsF => .ok (decide (m.echo.capFs.keySet ≠ a.others guilty))
  | .r2WrongIdsPsi => .ok (decide (m.psis.keySet ≠ a.others guilty))
  | .r2AffGPsiFailed failedFor => evidenceAffG E a guilty failedFor echos1 (.ok m.echo.capGamma) m.psis m.capDs m.echo.capFs
  | .r2AffGHatPsiFailed failedFor =>
    evidenceAffG E a guilty failedFor echos1 (Out.ofOption () (a.shares.get? failedFor)) m.hatPsis m.hatCapDs m.echo.hatCapFs
  | .r2ElogFailed =>
    .ok (!m.psiElog.verify E.elogH E.C.g (⟨e1.capB1, e1.capB2, e1.capY, m.echo.capGamma, E.C.g⟩ : ElogPublic G) (a.epid, guilty))
  | _ => .err ()

/-- Evidence for `R3ElogFailed`, src/protocols/interactive_signing.rs:556-580, from the guilty party's echo broadcasts of rounds 1 and 2 and its message of round 3.
The second base is the share of `Γ` of the accused party (576). -/
def evidence3 (E : Env q I Ep G) (a : AssocData q I Ep G) (guilty : I) (e1 : Echo1 G) (e2 : Echo2 I G) (m : Msg3 q G) : Err I → Evidence
  | .r3ElogFailed => .ok (!m.psiPrime.verify E.elogH E.C.g (⟨e1.capA1, e1.capA2, e1.capY, m.capDelta, e2.capGamma⟩ : ElogPublic G) (a.epid, guilty))
  | _ => .err ()

/-- Evidence for `R4InvalidSignatureShare`, src/protocols/interactive_signing.rs:581-614, from the guilty party's messages of rounds 2 to 4 and the echo broadcasts of
rounds 2 and 3 of the other parties -/
def evidence4 (E : Env q I Ep G) (a : AssocData q I Ep G) (e2 : Echo2 I G) (m3 : Msg3 q G) (sigma : ZMod q) (echos2 : BMap I (Echo2 I G))
    (echos3 : BMap I (ZMod q)) : Err I → Evidence
  | .r4InvalidSignatureShare =>
    let capGamma := e2.capGamma + (echos2.values.map fun e => e.capGamma).sum
    let nonce := E.C.xCoordinate q capGamma
    let delta := m3.delta + echos3.values.sum
    if delta = 0 then .err ()
    else .ok (decide (sigma • capGamma ≠ a.message • delta⁻¹ • m3.capDelta + nonce • delta⁻¹ • m3.capS))
  | _ => .err ()

/-- The ciphertext checked by `R5DecFailed` and `R6DecFailed`, src/protocols/interactive_signing.rs:659-673, 807-821: the sum of the `capDs` made by the accused party
and of the `capFs` that the others made for it, all of them taken as ciphertexts under the key of the accused party. -/
def evidenceAggregate (pk : Nat) (ids : Finset I) (capDs : BMap I Nat) (capFs : I → Out Unit Nat) : Out Unit Cipher :=
  (Cipher.sumNonEmpty () ((bsetIter ids).map fun id => (Out.ofOption () (capDs.get? id)).bind fun d => .ok (Cipher.ofWire pk d))).bind fun d =>
  (Cipher.sumNonEmpty () ((bsetIter ids).map fun id => (capFs id).bind fun f => .ok (Cipher.ofWire pk f))).bind fun f => d.add f

/-- The common part of `R5DecFailed` and `R6DecFailed`, src/protocols/interactive_signing.rs:615-689, 763-841. As in `recvErr`, the keys of the ciphertexts are asserted
first. -/
def evidenceDec (E : Env q I Ep G) (a : AssocData q I Ep G) (guilty : I) (e1 : Echo1 G) (capDs : BMap I Nat) (capFs : I → Out Unit Nat) (capX : Out Unit G)
    (capS capG : G) (psiStar : DecProof G) : Evidence :=
  (a.auxOf guilty).bind fun pub => (precompute pub).bind fun pub =>
  (evidenceAggregate pub.pk (a.others guilty) capDs capFs).bind fun capD =>
  capX.bind fun capX =>
  (capD.under pub.pk).bind fun d =>
  (psiStar.verify E.P E.decH E.C.g q (⟨ctOfWire pub.pk e1.capK, capX, d, capS, capG, a.aux.keySet.card⟩ : DecPublic pub.pk G) pub.rp.rp (a.epid, guilty)).bind fun ok =>
  .ok (!ok)

/-- `R5AffGStarFailed`, src/protocols/interactive_signing.rs:703-762: the keys and the ciphertexts `D` and `K` are exchanged, and `F` is the one that `failed_for` made. -/
def evidenceStar (E : Env q I Ep G) (a : AssocData q I Ep G) (guilty failedFor : I) (m2 : Msg2 q I G) (m : MsgErr I G) (echos1 : BMap I (Echo1 G))
    (echos2 : BMap I (Echo2 I G)) : Evidence :=
  (a.auxOf failedFor).bind fun forAux =>
  (a.auxOf guilty).bind fun fromAux =>
  (publicModulusNew forAux.pk).bind fun forPk =>
  (publicModulusNew fromAux.pk).bind fun fromPk =>
  (Out.ofOption () (m2.capDs.get? failedFor)).bind fun capD =>
  (Out.ofOption () (echos1.get? failedFor)).bind fun r1 =>
  (Out.ofOption () (echos2.get? failedFor)).bind fun r2 =>
  (Out.ofOption () (r2.capFs.get? guilty)).bind fun capF =>
  (Out.ofOption () (m.psis.get? failedFor)).bind fun psi =>
  (starVerify E fromPk forPk psi (.ofWire forPk capD) (.ofWire forPk r1.capK) (.ofWire fromPk capF) m2.echo.capGamma (a.epid, guilty)).bind fun ok => .ok (!ok)

/-- Evidence for the errors of rounds 5 and 6, src/protocols/interactive_signing.rs:615-913, from the guilty party's messages of rounds 1, 2, 3 and 5 or 6 and the echo
broadcasts of rounds 1 and 2 of the other parties. `R5WrongIdsPsi` (690-702) and `R6WrongIdsPsi` (842-854) parse the normal broadcast of the message, which is not
among the required parts (326, 344) and not sent in these rounds. `R6AffGStarFailed` (855-913) looks for a message of round 2, which is not required (345-349).
`R6DecFailed` (763-841) parses the message of round 6 as one of round 5, whose fields have other names: `named` tells whether the serialization format depends on
the names of the fields. -/
def evidenceErr (E : Env q I Ep G) (named : Bool) (a : AssocData q I Ep G) (guilty : I) (e1 : Echo1 G) (m2 : Msg2 q I G) (m3 : Msg3 q G) (m : MsgErr I G)
    (echos1 : BMap I (Echo1 G)) (echos2 : BMap I (Echo2 I G)) : Err I → Evidence
  | .decFailed false =>
    evidenceDec E a guilty e1 m2.capDs (fun id => (Out.ofOption () (echos2.get? id)).bind fun e => Out.ofOption () (e.capFs.get? guilty)) (.ok m2.echo.capGamma)
      m3.capDelta E.C.g m.psiStar
  | .decFailed true =>
    if named then .err ()
    else evidenceDec E a guilty e1 m2.hatCapDs (fun id => (Out.ofOption () (echos2.get? id)).bind fun e => Out.ofOption () (e.hatCapFs.get? guilty))
      (Out.ofOption () (a.shares.get? guilty)) m3.capS (m2.echo.capGamma + (echos2.values.map fun e => e.capGamma).sum) m.psiStar
  | .affGStarFailed false failedFor => evidenceStar E a guilty failedFor m2 m echos1 echos2
  | _ => .err ()

end Synedrion.Signing
