import Verif.Model.WireNet
import Verif.Model.MessageParts
import Verif.Model.HashPoints

/-!
# Checking evidence in its serialized form

Evidence contains the parts of messages as they were signed, that is, serialized. `verify_messages_constitute_error` deserializes those it needs, repeats the check, and hashes points for this like
the receiver of a message; it returns an error if something is missing or cannot be read, and panics if it has to hash an identity point.
-/

namespace Synedrion

/-- The three serialized parts of a message, src/protocols/key_init.rs:324-331 -/
def Packet.part {I : Type} (d : Packet I) : Part → Option (Data I)
  | .echo => d.echo
  | .normal => d.normal
  | .direct => d.direct

/-- The parts of the serialized messages of all rounds, src/protocols/key_init.rs:324-331 -/
abbrev packetPart {I : Type} (d : Packet I) (_ : Nat) (p : Part) : Option (Data I) := d.part p

/-- Serialized evidence against a party for an error of round `n` -/
abbrev Exhibit (I : Type) [LinearOrder I] (n : Nat) : Type := Package I (fun _ _ => Data I) n

/-- The values of a list of entries, deserialized, src/tools/protocol_shortcuts.rs:123-130 -/
def decodeEntries {K α β : Type} (f : α → Option β) : List (K × α) → Option (List (K × β))
  | [] => some []
  | e :: l => (f e.2).bind fun x => (decodeEntries f l).map fun l => (e.1, x) :: l

/-- `deserialize_all`, src/tools/protocol_shortcuts.rs:112-134 (and the entries of a map in general): nothing if one of the values cannot be read -/
def BMap.decodeAll {K α β : Type} [LinearOrder K] (f : α → Option β) (m : BMap K α) : Option (BMap K β) := (decodeEntries f m.entries).map BMap.ofList

section

variable {I : Type} [LinearOrder I] {M : Part → Nat → Type} {n : Nat}

/-- The evidence after deserialization, src/protocols/key_init.rs:153-183. A part that cannot be read counts as missing: both give a validation error. Simplified: everything is deserialized at once, not
when it is needed. -/
def Package.decode (dec : (p : Part) → (r : Nat) → Data I → Option (M p r)) (ev : Exhibit I n) : Package I M n where
  current p := (ev.current p).bind (dec p n)
  previous r := (ev.previous r).map fun m p => (m p).bind (dec p r)
  combined r := (ev.combined r).bind (BMap.decodeAll (dec .echo r))

/-- A check for which the points `pts` are hashed, src/tools/hashing.rs:82-101. Simplified: if something else fails, this counts even if an identity point was hashed before. -/
def Evidence.hashing {G : Type} [Zero G] [DecidableEq G] (pts : List G) (check : Evidence) : Evidence := check.bind fun b => if 0 ∈ pts then .panic else .ok b

end

variable {I G V Sid : Type} [LinearOrder I] [AddCommGroup G] {q : Nat} [DecidableEq G] [DecidableEq V]

namespace KeyInit

/-- The points that are hashed to check evidence, src/protocols/key_init.rs:161-167, 190-191 -/
def evidencePoints {F : Type} : (e : Err) → Package I (Parts F G V) e.round → List G
  | .r2HashMismatch, p => match p.current .normal with
    | some (nb : Normal2 G) => [nb.capX, nb.capA]
    | none => []
  | .r3InvalidSchProof, p => match (p.previous 2).bind (· .normal) with
    | some (nb : Normal2 G) => schPoints nb.capA nb.capX
    | none => []

/-- `verify_messages_constitute_error` on serialized evidence, src/protocols/key_init.rs:139-194 -/
def checkExhibit [Fact q.Prime] [LinearOrder (ZMod q)] [Module (ZMod q) G] (W : WireFormat G V) (hashV : Sid → I → PublicData G → V) (H : SchHash G (SchAux I Sid) → ZMod q) (g : G) (sid : Sid)
    (guilty : I) (e : Err) (ev : Exhibit I e.round) : Evidence :=
  let p := ev.decode fun p r => (W.keyInit (ε := Unit) p r).dec
  (verifyMessages hashV H g sid guilty e p).hashing (evidencePoints e p)

end KeyInit

namespace AuxGen

/-- `verify_messages_constitute_error` on serialized evidence, src/protocols/aux_gen.rs:193-279. No points are hashed. -/
def checkExhibit (W : WireFormat G V) (E : AuxEnv I Sid) (hashV : Sid → I → Hashed → V) (sid : Sid) (guilty : I) (e : Err I) (ev : Exhibit I e.round) : Evidence :=
  verifyMessages E hashV sid guilty e (ev.decode fun p r => (W.auxGen (ε := Unit) p r).dec)

end AuxGen

namespace KeyRefresh

/-- The points that are hashed to check evidence, src/protocols/key_refresh.rs:290-306 (the commitment), 343-370 (the mask) and 418-437 (the proof) -/
def evidencePoints {F : Type} [Field F] [Module F G] : (e : Err I F) → Package I (Parts I F G V) e.round → List G
  | .r2HashMismatch, p => (match p.current .normal with
      | some (nb : Normal2 I G) => nb.capXs.values ++ nb.capAs.values
      | none => []) ++
    match p.current .echo with
      | some (eb : Echo2 I G) => eb.capYs.values
      | none => []
  | .r3ShareChangeMismatch reportedBy y, p => match (p.previous 2).bind (· .echo) with
    | some (eb : Echo2 I G) => (eb.capYs.at reportedBy).map (y • ·)
    | none => []
  | .r3SchFailed failedFor, p => match (p.previous 2).bind (· .normal) with
    | some (nb : Normal2 I G) => nb.capXs.at failedFor ++ nb.capAs.at failedFor
    | none => []
  | _, _ => []

/-- `verify_messages_constitute_error` on serialized evidence, src/protocols/key_refresh.rs:256-439 -/
def checkExhibit [Fact q.Prime] [LinearOrder (ZMod q)] [Module (ZMod q) G] (W : WireFormat G V) (E : Env I Sid (ZMod q) G) (hashV : Sid → I → Hashed I G → V) (sid : Sid) (ids : Finset I)
    (guilty : I) (e : Err I (ZMod q)) (ev : Exhibit I e.round) : Evidence :=
  let p := ev.decode fun p r => (W.keyRefresh (ε := Unit) p r).dec
  (verifyMessages E hashV sid ids guilty e p).hashing (evidencePoints e p)

end KeyRefresh

namespace Signing

variable {Ep : Type}

/-- The points that are hashed to check evidence: the execution id (src/protocols/interactive_signing.rs:249-261, 363) hashes the key shares; the proofs (src/protocols/interactive_signing.rs:366-409, 446-580,
615-689, 703-841, 855-913) hash their commitments and public inputs. -/
def evidencePoints (g : G) (a : AssocData q I Ep G) (guilty : I) (e : Err I) (p : Package I (Parts q I G) e.round) : List G := a.shares.values ++
  match e, p with
  | .r1EncElg0Failed, p => (p.current .direct).toList.flatMap fun (dm : EncElgProof q G × EncElgProof q G) => (p.current .echo).toList.flatMap fun (eb : Echo1 G) => encElgPoints dm.1 (eb.pub0 0)
  | .r1EncElg1Failed, p => (p.current .direct).toList.flatMap fun (dm : EncElgProof q G × EncElgProof q G) => (p.current .echo).toList.flatMap fun (eb : Echo1 G) => encElgPoints dm.2 (eb.pub1 0)
  | .r2AffGPsiFailed failedFor, p => (p.current .echo).toList.flatMap fun (eb : Echo2 I G) => (p.current .normal).toList.flatMap fun (nb : Normal2 q I G) =>
      (nb.psis.at failedFor).flatMap fun psi => psi.hashed eb.capGamma
  | .r2AffGHatPsiFailed failedFor, p => (p.current .normal).toList.flatMap fun (nb : Normal2 q I G) => (nb.hatPsis.at failedFor).flatMap fun psi => (a.shares.at failedFor).flatMap psi.hashed
  | .r2ElogFailed, p => ((p.previous 1).bind (· .echo)).toList.flatMap fun (e1 : Echo1 G) => (p.current .normal).toList.flatMap fun (nb : Normal2 q I G) =>
      (p.current .echo).toList.flatMap fun (eb : Echo2 I G) => nb.psiElog.hashed ⟨e1.capB1, e1.capB2, e1.capY, eb.capGamma, g⟩
  | .r3ElogFailed, p => ((p.previous 1).bind (· .echo)).toList.flatMap fun (e1 : Echo1 G) => ((p.previous 2).bind (· .echo)).toList.flatMap fun (e2 : Echo2 I G) =>
      (p.current .normal).toList.flatMap fun (nb : Normal3 q G) => nb.psiPrime.hashed ⟨e1.capA1, e1.capA2, e1.capY, nb.capDelta, e2.capGamma⟩
  | .decFailed false, p => ((p.previous 2).bind (· .echo)).toList.flatMap fun (e2 : Echo2 I G) => ((p.previous 3).bind (· .normal)).toList.flatMap fun (nb3 : Normal3 q G) =>
      (p.current .echo).toList.flatMap fun (m : MsgErr I G) => m.psiStar.hashed e2.capGamma nb3.capDelta g
  | .decFailed true, p => ((p.previous 2).bind (· .echo)).toList.flatMap fun (e2 : Echo2 I G) => (p.combined 2).toList.flatMap fun (echos2 : BMap I (Echo2 I G)) =>
      ((p.previous 3).bind (· .normal)).toList.flatMap fun (nb3 : Normal3 q G) => (p.current .echo).toList.flatMap fun (m : MsgErr I G) =>
      (a.shares.at guilty).flatMap fun capX => m.psiStar.hashed capX nb3.capS (e2.capGamma + (echos2.values.map fun e => e.capGamma).sum)
  | .affGStarFailed false failedFor, p => ((p.previous 2).bind (· .echo)).toList.flatMap fun (e2 : Echo2 I G) => (p.current .echo).toList.flatMap fun (m : MsgErr I G) =>
      (m.psis.at failedFor).flatMap fun psi => psi.hashed e2.capGamma
  | .affGStarFailed true failedFor, p => (p.current .echo).toList.flatMap fun (m : MsgErr I G) => (m.psis.at failedFor).flatMap fun psi => (a.shares.at failedFor).flatMap psi.hashed
  | _, _ => []

/-- `verify_messages_constitute_error` on serialized evidence, src/protocols/interactive_signing.rs:353-915 -/
def checkExhibit [Fact q.Prime] [Module (ZMod q) G] (W : WireFormat G V) (E : Env q I Ep G) (named : Bool) (a : AssocData q I Ep G) (guilty : I) (e : Err I) (ev : Exhibit I e.round) : Evidence :=
  let p := ev.decode fun p r => (W.signing (ε := Unit) p r).dec
  (verifyMessages E named a guilty e p).hashing (evidencePoints E.C.g a guilty e p)

end Signing

end Synedrion
