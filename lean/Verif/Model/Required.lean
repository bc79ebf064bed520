import Verif.Model.KeyInit
import Verif.Model.AuxGen
import Verif.Model.KeyRefresh
import Verif.Model.SigningEvidence

/-!
# Which messages are attached to evidence, and how they are read (`required_messages`, `verify_messages_constitute_error`)

The session layer attaches to the evidence the parts of the accused party's messages that `required_messages` declares, and nothing else is available when the
evidence is checked. The parts of the messages of round `n` have the types `M p n`; a part that is present is taken as already deserialized (a received message was
deserialized before), a part that is absent gives a validation error. The combined echos of a round are the echo broadcasts that the accused party received from the
other parties.
-/

namespace Synedrion

/-- The three parts of a message of a round: `echo_broadcast`, `normal_broadcast` and `direct_message`, as in src/protocols/key_init.rs:124-137 -/
inductive Part where
  | echo
  | normal
  | direct
  deriving DecidableEq, Repr

/-- `RequiredMessages::new`, as in src/protocols/key_init.rs:126-135: the parts of the message that triggered the error, those of the messages of earlier rounds and
the rounds whose combined echos are needed -/
structure Required where
  current : List Part
  previous : List (Nat × List Part) := []
  echos : List Nat := []
  deriving DecidableEq

/-- Everything that the accused party signed in a session: the parts of its messages by round, and the echo broadcasts it received by round -/
structure Transcript (I : Type) [LinearOrder I] (M : Part → Nat → Type) where
  msg : (n : Nat) → (p : Part) → Option (M p n)
  combined : (n : Nat) → BMap I (M .echo n)

/-- The arguments `message`, `previous_messages` and `combined_echos` of `verify_messages_constitute_error`, src/protocols/key_init.rs:139-148 -/
structure Package (I : Type) [LinearOrder I] (M : Part → Nat → Type) (n : Nat) where
  current : (p : Part) → Option (M p n)
  previous : (r : Nat) → Option ((p : Part) → Option (M p r))
  combined : (r : Nat) → Option (BMap I (M .echo r))

variable {I : Type} [LinearOrder I] {M : Part → Nat → Type}

/-- What the session layer attaches for an error of round `n` -/
def supply (t : Transcript I M) (n : Nat) (req : Required) : Package I M n where
  current p := if p ∈ req.current then t.msg n p else none
  previous r := (req.previous.lookup r).map fun ps p => if p ∈ ps then t.msg r p else none
  combined r := if r ∈ req.echos then some (t.combined r) else none

/-- All that the accused party signed, attached to an error of round `n` -/
def everything (t : Transcript I M) (n : Nat) : Package I M n := ⟨t.msg n, fun r => some (t.msg r), fun r => some (t.combined r)⟩

namespace Package
variable {n : Nat}

/-- `message.<part>.deserialize(…)?`, as in src/protocols/key_init.rs:157-160 -/
def cur (p : Package I M n) (part : Part) : Out Unit (M part n) := Out.ofOption () (p.current part)

/-- `previous_messages.get_round(r)?.<part>.deserialize(…)?`, as in src/protocols/key_init.rs:153-156 -/
def prev (p : Package I M n) (r : Nat) (part : Part) : Out Unit (M part r) := (Out.ofOption () (p.previous r)).bind fun m => Out.ofOption () (m part)

/-- `combined_echos.get_round(r)?.deserialize_all(…)?`, as in src/protocols/key_init.rs:170-172 -/
def echos (p : Package I M n) (r : Nat) : Out Unit (BMap I (M .echo r)) := Out.ofOption () (p.combined r)

end Package

/-! ### Key initialization -/

namespace KeyInit
variable {F G Sid V : Type} [Field F] [LinearOrder F] [AddCommGroup G] [Module F G] [DecidableEq G] [DecidableEq V]

/-- `Round2NormalBroadcast`, src/protocols/key_init.rs:376-380 -/
structure Normal2 (G : Type) where
  capX : G
  capA : G
  u : List Bool

/-- The messages of the rounds, src/protocols/key_init.rs:301-303, 370-380, 495-497 -/
abbrev Parts (F G V : Type) : Part → Nat → Type
  | .echo, 1 => V
  | .echo, 2 => List Bool
  | .normal, 2 => Normal2 G
  | .normal, 3 => SchProof F
  | _, _ => Unit

/-- The round in which an error is found, src/protocols/key_init.rs:448, 543 -/
def Err.round : Err → Nat
  | .r2HashMismatch => 2
  | .r3InvalidSchProof => 3

/-- `required_messages`, src/protocols/key_init.rs:124-137 -/
def Err.required : Err → Required
  | .r2HashMismatch => ⟨[.echo, .normal], [(1, [.echo])], []⟩
  | .r3InvalidSchProof => ⟨[.normal], [(2, [.echo, .normal])], [2]⟩

/-- `verify_messages_constitute_error`, src/protocols/key_init.rs:139-194 -/
def verifyMessages (hashV : Sid → I → PublicData G → V) (H : SchHash G (SchAux I Sid) → F) (g : G) (sid : Sid) (guilty : I) :
    (e : Err) → Package I (Parts F G V) e.round → Evidence
  | .r2HashMismatch, p =>
    (p.prev 1 .echo).bind fun capV =>
    (p.cur .normal).bind fun (nb : Normal2 G) =>
    (p.cur .echo).bind fun (rho : List Bool) =>
    .ok (decide (hashV sid guilty ⟨nb.capX, nb.capA, rho, nb.u⟩ ≠ capV))
  | .r3InvalidSchProof, p =>
    (p.echos 2).bind fun (rhos : BMap I (List Bool)) =>
    (p.prev 2 .normal).bind fun (nb : Normal2 G) =>
    (p.prev 2 .echo).bind fun (rho : List Bool) =>
    (p.cur .normal).bind fun (psi : SchProof F) =>
    (xorAll rho rhos.values).bind fun rho =>
    .ok (!psi.verify H g nb.capA nb.capX ⟨sid, guilty, rho⟩)

/-- The messages of a party in the rounds 1 to 3, src/protocols/key_init.rs:324-331, 399-425, 510-524 -/
def transcript (m1 : V) (m2 : Msg2 G) (psi : SchProof F) (echos1 : BMap I V) (echos2 : BMap I (List Bool)) : Transcript I (Parts F G V) where
  msg
    | 1, .echo => some m1
    | 2, .echo => some m2.rho
    | 2, .normal => some ⟨m2.capX, m2.capA, m2.u⟩
    | 3, .normal => some psi
    | _, _ => none
  combined
    | 1 => echos1
    | 2 => echos2
    | _ => .empty

end KeyInit

/-! ### Auxiliary info generation -/

namespace AuxGen
variable {Sid V : Type} [DecidableEq V]

/-- `Round2NormalBroadcast`, src/protocols/aux_gen.rs:474-479 -/
structure Normal2 where
  pk : Nat
  psi : PrmProof
  u : List Bool

/-- The messages of the rounds, src/protocols/aux_gen.rs:402-405, 474-484, 623-631 -/
abbrev Parts (V : Type) : Part → Nat → Type
  | .echo, 1 => V
  | .echo, 2 => Echo2
  | .normal, 2 => Normal2
  | .normal, 3 => ModProof
  | .direct, 3 => FacProof
  | _, _ => Unit

/-- The round in which an error is found, src/protocols/aux_gen.rs:552-565, 691-699 -/
def Err.round : Err I → Nat
  | .r2HashMismatch | .r2PaillierModulusTooSmall | .r2RPModulusTooSmall | .r2PrmFailed => 2
  | .r3ModFailed | .r3FacFailed _ => 3

/-- `required_messages`, src/protocols/aux_gen.rs:164-191 -/
def Err.required : Err I → Required
  | .r2HashMismatch => ⟨[.normal, .echo], [(1, [.echo])], []⟩
  | .r2PaillierModulusTooSmall => ⟨[.normal], [], []⟩
  | .r2RPModulusTooSmall => ⟨[.echo], [], []⟩
  | .r2PrmFailed => ⟨[.echo, .normal], [], []⟩
  | .r3ModFailed => ⟨[.normal], [(2, [.echo, .normal])], [2]⟩
  | .r3FacFailed _ => ⟨[.direct], [(2, [.echo, .normal])], [2]⟩

/-- `reconstruct_rid`, src/protocols/aux_gen.rs:135-152 -/
def ridFrom {n : Nat} (p : Package I (Parts V) n) : Out Unit (List Bool) :=
  (p.echos 2).bind fun (ebs : BMap I Echo2) =>
  (p.prev 2 .echo).bind fun (eb : Echo2) => xorAll eb.rid (ebs.values.map Echo2.rid)

/-- `verify_messages_constitute_error`, src/protocols/aux_gen.rs:193-279 -/
def verifyMessages (E : AuxEnv I Sid) (hashV : Sid → I → Hashed → V) (sid : Sid) (guilty : I) : (e : Err I) → Package I (Parts V) e.round → Evidence
  | .r2HashMismatch, p =>
    (p.prev 1 .echo).bind fun capV =>
    (p.cur .normal).bind fun (nb : Normal2) =>
    (p.cur .echo).bind fun (eb : Echo2) =>
    (publicModulusNew nb.pk).bind fun pk =>
    (eb.rp.toPrecomputed).bind fun rp =>
    .ok (decide (hashV sid guilty (⟨pk, ⟨_, rp⟩, nb.psi, eb.rid, nb.u⟩ : PublicData).hashed ≠ capV))
  | .r2PaillierModulusTooSmall, p => (p.cur .normal).bind fun (nb : Normal2) => .ok (decide (bitLen nb.pk < E.P.modBits - 2))
  | .r2RPModulusTooSmall, p => (p.cur .echo).bind fun (eb : Echo2) => .ok (decide (bitLen eb.rp.modulus < E.P.modBits - 2))
  | .r2PrmFailed, p =>
    (p.cur .echo).bind fun (eb : Echo2) =>
    (p.cur .normal).bind fun (nb : Normal2) =>
    (eb.rp.toPrecomputed).bind fun rp => .ok (!nb.psi.verify E.prmH rp (sid, guilty))
  | .r3ModFailed, p =>
    (ridFrom p).bind fun rid =>
    (p.prev 2 .normal).bind fun (nb : Normal2) =>
    (p.cur .normal).bind fun (psiPrime : ModProof) =>
    (publicModulusNew nb.pk).bind fun pk =>
    .ok (!psiPrime.verify E.P E.modH E.isPrime pk (sid, guilty, rid))
  | .r3FacFailed reportedBy, p =>
    (ridFrom p).bind fun rid =>
    (p.echos 2).bind fun (ebs : BMap I Echo2) =>
    (Out.ofOption () (ebs.get? reportedBy)).bind fun eb =>
    (p.prev 2 .normal).bind fun (nb : Normal2) =>
    (p.cur .direct).bind fun (psi : FacProof) =>
    (publicModulusNew nb.pk).bind fun pk =>
    (eb.rp.toPrecomputed).bind fun rp =>
    (psi.verify E.P E.facH pk rp (sid, guilty, rid)).bind fun ok => .ok (!ok)

/-- The messages of a party in the rounds 1 to 3, src/protocols/aux_gen.rs:422-431, 504-527, 644-671 -/
def transcript (m1 : V) (m2 : Msg2) (m3 : Msg3) (echos1 : BMap I V) (echos2 : BMap I Echo2) : Transcript I (Parts V) where
  msg
    | 1, .echo => some m1
    | 2, .echo => some m2.echo
    | 2, .normal => some ⟨m2.pk, m2.psi, m2.u⟩
    | 3, .normal => some m3.psiPrime
    | 3, .direct => some m3.psi
    | _, _ => none
  combined
    | 1 => echos1
    | 2 => echos2
    | _ => .empty

end AuxGen

/-! ### Key refresh -/

namespace KeyRefresh
variable {F G Sid V : Type} [Field F] [LinearOrder F] [AddCommGroup G] [Module F G] [DecidableEq G] [DecidableEq V]

/-- `Round2NormalBroadcast`, src/protocols/key_refresh.rs:673-680 -/
structure Normal2 (I G : Type) [LinearOrder I] where
  capXs : BMap I G
  capAs : BMap I G
  pk : Nat
  psi : PrmProof
  u : List Bool

/-- `Round3DirectMessage`, src/protocols/key_refresh.rs:883-886 -/
structure Direct3 (F : Type) where
  psi : FacProof
  capC : F

/-- The messages of the rounds, src/protocols/key_refresh.rs:602-604, 673-688, 871-886 -/
abbrev Parts (I F G V : Type) [LinearOrder I] : Part → Nat → Type
  | .echo, 1 => V
  | .echo, 2 => Echo2 I G
  | .normal, 2 => Normal2 I G
  | .echo, 3 => BMap I (SchProof F)
  | .normal, 3 => ModProof
  | .direct, 3 => Direct3 F
  | _, _ => Unit

/-- The round in which an error is found, src/protocols/key_refresh.rs:766-795, 986-1020 -/
def Err.round : Err I F → Nat
  | .r2HashMismatch | .r2WrongIdsX | .r2WrongIdsY | .r2WrongIdsA | .r2PaillierModulusTooSmall | .r2RPModulusTooSmall | .r2NonZeroSumOfChanges | .r2PrmFailed => 2
  | .r3ShareChangeMismatch _ _ | .r3ModFailed | .r3FacFailed _ | .r3WrongIdsHatPsi | .r3SchFailed _ => 3

/-- `required_messages`, src/protocols/key_refresh.rs:212-254 -/
def Err.required : Err I F → Required
  | .r2HashMismatch => ⟨[.normal, .echo], [(1, [.echo])], []⟩
  | .r2WrongIdsX => ⟨[.normal], [], []⟩
  | .r2WrongIdsY => ⟨[.echo], [], []⟩
  | .r2WrongIdsA => ⟨[.normal], [], []⟩
  | .r2PaillierModulusTooSmall => ⟨[.normal], [], []⟩
  | .r2RPModulusTooSmall => ⟨[.echo], [], []⟩
  | .r2NonZeroSumOfChanges => ⟨[.normal], [], []⟩
  | .r2PrmFailed => ⟨[.echo, .normal], [], []⟩
  | .r3ShareChangeMismatch _ _ => ⟨[.direct], [(2, [.echo, .normal])], [2]⟩
  | .r3ModFailed => ⟨[.normal], [(2, [.echo, .normal])], [2]⟩
  | .r3FacFailed _ => ⟨[.direct], [(2, [.echo, .normal])], [2]⟩
  | .r3WrongIdsHatPsi => ⟨[.echo], [], []⟩
  | .r3SchFailed _ => ⟨[.echo], [(2, [.echo, .normal])], [2]⟩

/-- `reconstruct_rid`, src/protocols/key_refresh.rs:183-200 -/
def ridFrom {n : Nat} (p : Package I (Parts I F G V) n) : Out Unit (List Bool) :=
  (p.echos 2).bind fun (ebs : BMap I (Echo2 I G)) =>
  (p.prev 2 .echo).bind fun (eb : Echo2 I G) => xorAll eb.rid (ebs.values.map Echo2.rid)

/-- `verify_messages_constitute_error`, src/protocols/key_refresh.rs:256-439 -/
def verifyMessages (E : Env I Sid F G) (hashV : Sid → I → Hashed I G → V) (sid : Sid) (ids : Finset I) (guilty : I) :
    (e : Err I F) → Package I (Parts I F G V) e.round → Evidence
  | .r2HashMismatch, p =>
    (p.prev 1 .echo).bind fun capV =>
    (p.cur .normal).bind fun (nb : Normal2 I G) =>
    (p.cur .echo).bind fun (eb : Echo2 I G) =>
    (publicModulusNew nb.pk).bind fun pk =>
    (eb.rp.toPrecomputed).bind fun rp =>
    .ok (decide (hashV sid guilty (⟨⟨pk, ⟨_, rp⟩, nb.psi, eb.rid, nb.u⟩, nb.capXs, eb.capYs, nb.capAs⟩ : PublicData I G).hashed ≠ capV))
  | .r2WrongIdsX, p => (p.cur .normal).bind fun (nb : Normal2 I G) => .ok (decide (nb.capXs.keySet ≠ ids))
  | .r2WrongIdsY, p => (p.cur .echo).bind fun (eb : Echo2 I G) => .ok (decide (eb.capYs.keySet ≠ ids))
  | .r2WrongIdsA, p => (p.cur .normal).bind fun (nb : Normal2 I G) => .ok (decide (nb.capAs.keySet ≠ ids))
  | .r2PaillierModulusTooSmall, p => (p.cur .normal).bind fun (nb : Normal2 I G) => .ok (decide (bitLen nb.pk < E.aux.P.modBits - 2))
  | .r2RPModulusTooSmall, p => (p.cur .echo).bind fun (eb : Echo2 I G) => .ok (decide (bitLen eb.rp.modulus < E.aux.P.modBits - 2))
  | .r2NonZeroSumOfChanges, p => (p.cur .normal).bind fun (nb : Normal2 I G) => .ok (decide (nb.capXs.values.sum ≠ 0))
  | .r2PrmFailed, p =>
    (p.cur .echo).bind fun (eb : Echo2 I G) =>
    (p.cur .normal).bind fun (nb : Normal2 I G) =>
    (eb.rp.toPrecomputed).bind fun rp => .ok (!nb.psi.verify E.aux.prmH rp (sid, guilty))
  | .r3ShareChangeMismatch reportedBy y, p =>
    (p.echos 2).bind fun (ebs : BMap I (Echo2 I G)) =>
    (Out.ofOption () (ebs.get? reportedBy)).bind fun ebI =>
    (Out.ofOption () (ebI.capYs.get? guilty)).bind fun capYij =>
    if y • E.g ≠ capYij then .err ()
    else
      (ridFrom p).bind fun rid =>
      (p.prev 2 .echo).bind fun (eb : Echo2 I G) =>
      (Out.ofOption () (eb.capYs.get? reportedBy)).bind fun capYji =>
      let rho := E.rhoH sid rid guilty (y • capYji)
      (p.prev 2 .normal).bind fun (nb : Normal2 I G) =>
      (p.cur .direct).bind fun (dm : Direct3 F) =>
      let x := dm.capC - rho
      (Out.ofOption () (nb.capXs.get? reportedBy)).bind fun capXji => .ok (decide (x • E.g ≠ capXji))
  | .r3ModFailed, p =>
    (ridFrom p).bind fun rid =>
    (p.prev 2 .normal).bind fun (nb : Normal2 I G) =>
    (p.cur .normal).bind fun (psiPrime : ModProof) =>
    (publicModulusNew nb.pk).bind fun pk =>
    .ok (!psiPrime.verify E.aux.P E.aux.modH E.aux.isPrime pk (sid, guilty, rid))
  | .r3FacFailed reportedBy, p =>
    (ridFrom p).bind fun rid =>
    (p.echos 2).bind fun (ebs : BMap I (Echo2 I G)) =>
    (Out.ofOption () (ebs.get? reportedBy)).bind fun eb =>
    (p.prev 2 .normal).bind fun (nb : Normal2 I G) =>
    (p.cur .direct).bind fun (dm : Direct3 F) =>
    (publicModulusNew nb.pk).bind fun pk =>
    (eb.rp.toPrecomputed).bind fun rp =>
    (dm.psi.verify E.aux.P E.aux.facH pk rp (sid, guilty, rid)).bind fun ok => .ok (!ok)
  | .r3WrongIdsHatPsi, p => (p.cur .echo).bind fun (hatPsis : BMap I (SchProof F)) => .ok (decide (hatPsis.keySet ≠ ids))
  | .r3SchFailed failedFor, p =>
    (ridFrom p).bind fun rid =>
    (p.prev 2 .normal).bind fun (nb : Normal2 I G) =>
    (p.cur .echo).bind fun (hatPsis : BMap I (SchProof F)) =>
    (Out.ofOption () (nb.capAs.get? failedFor)).bind fun capA =>
    (Out.ofOption () (nb.capXs.get? failedFor)).bind fun capX =>
    (Out.ofOption () (hatPsis.get? failedFor)).bind fun hatPsi =>
    .ok (!hatPsi.verify E.schH E.g capA capX (sid, guilty, rid))

/-- The messages of a party in the rounds 1 to 3, src/protocols/key_refresh.rs:621-630, 710-736, 903-953 -/
def transcript (m1 : V) (m2 : Msg2 I G) (m3 : Msg3 I F) (echos1 : BMap I V) (echos2 : BMap I (Echo2 I G)) (echos3 : BMap I (BMap I (SchProof F))) :
    Transcript I (Parts I F G V) where
  msg
    | 1, .echo => some m1
    | 2, .echo => some m2.echo
    | 2, .normal => some ⟨m2.capXs, m2.capAs, m2.pk, m2.psi, m2.u⟩
    | 3, .echo => some m3.hatPsis
    | 3, .normal => some m3.psiPrime
    | 3, .direct => some ⟨m3.psi, m3.capC⟩
    | _, _ => none
  combined
    | 1 => echos1
    | 2 => echos2
    | 3 => echos3
    | _ => .empty

end KeyRefresh

/-! ### Interactive signing -/

namespace Signing
variable {q : Nat} [Fact q.Prime] {Ep G : Type} [AddCommGroup G] [Module (ZMod q) G] [DecidableEq G]

/-- `Round2NormalBroadcast`, src/protocols/interactive_signing.rs:1472-1480 -/
structure Normal2 (q : Nat) (I G : Type) [LinearOrder I] where
  capDs : BMap I Nat
  hatCapDs : BMap I Nat
  psiElog : ElogProof (ZMod q) G
  psis : BMap I (AffGProof q G)
  hatPsis : BMap I (AffGProof q G)

/-- `Round3NormalBroadcast`, src/protocols/interactive_signing.rs:1832-1836 -/
structure Normal3 (q : Nat) (G : Type) where
  capDelta : G
  psiPrime : ElogProof (ZMod q) G
  capS : G

/-- The messages of the rounds, src/protocols/interactive_signing.rs:1098-1113, 1472-1486, 1826-1836, 2002-2004, 2098-2101, 2316-2319. In the rounds 5 and 6 no normal
broadcast is sent; its type is the one that the checks of `R5WrongIdsPsi` and `R6WrongIdsPsi` expect there (692-694, 844-846). -/
abbrev Parts (q : Nat) (I G : Type) [LinearOrder I] : Part → Nat → Type
  | .echo, 1 => Echo1 G
  | .direct, 1 => EncElgProof q G × EncElgProof q G
  | .echo, 2 => Echo2 I G
  | .normal, 2 => Normal2 q I G
  | .echo, 3 => ZMod q
  | .normal, 3 => Normal3 q G
  | .normal, 4 => ZMod q
  | .echo, 5 => MsgErr I G
  | .echo, 6 => MsgErr I G
  | .normal, 5 => MsgErr I G
  | .normal, 6 => MsgErr I G
  | _, _ => Unit

/-- The round in which an error is found, src/protocols/interactive_signing.rs:1238-1252, 1561-1652, 1896, 2050, 2255-2281, 2500-2526 -/
def Err.round : Err I → Nat
  | .r1EncElg0Failed | .r1EncElg1Failed => 1
  | .r2WrongIdsD | .r2WrongIdsF | .r2WrongIdsPsi | .r2AffGPsiFailed _ | .r2AffGHatPsiFailed _ | .r2ElogFailed => 2
  | .r3ElogFailed => 3
  | .r4InvalidSignatureShare => 4
  | .decFailed false | .wrongIdsPsi false | .affGStarFailed false _ => 5
  | .decFailed true | .wrongIdsPsi true | .affGStarFailed true _ => 6

/-- `required_messages`, src/protocols/interactive_signing.rs:266-351 -/
def Err.required : Err I → Required
  | .r1EncElg0Failed => ⟨[.echo, .direct], [], []⟩
  | .r1EncElg1Failed => ⟨[.echo, .direct], [], []⟩
  | .r2WrongIdsD => ⟨[.normal], [], []⟩
  | .r2WrongIdsF => ⟨[.echo], [], []⟩
  | .r2WrongIdsPsi => ⟨[.normal], [], []⟩
  | .r2AffGPsiFailed _ => ⟨[.echo, .normal], [], [1]⟩
  | .r2AffGHatPsiFailed _ => ⟨[.echo, .normal], [], [1]⟩
  | .r2ElogFailed => ⟨[.echo, .normal], [(1, [.echo])], []⟩
  | .r3ElogFailed => ⟨[.normal], [(1, [.echo]), (2, [.echo])], []⟩
  | .r4InvalidSignatureShare => ⟨[.normal], [(2, [.echo]), (3, [.echo, .normal])], [2, 3]⟩
  | .decFailed false => ⟨[.echo], [(1, [.echo]), (2, [.echo, .normal]), (3, [.normal])], [2]⟩
  | .wrongIdsPsi false => ⟨[.echo], [], []⟩
  | .affGStarFailed false _ => ⟨[.echo], [(2, [.echo, .normal])], [1, 2]⟩
  | .decFailed true => ⟨[.echo], [(1, [.echo]), (2, [.echo, .normal]), (3, [.normal])], [2]⟩
  | .wrongIdsPsi true => ⟨[.echo], [], []⟩
  | .affGStarFailed true _ => ⟨[.echo], [], [1, 2]⟩

/-- The message of round 6 deserialized as one of round 5, src/protocols/interactive_signing.rs:784-786: the fields have other names, `named` tells whether the
serialization format depends on the names of the fields. -/
def asRound5 (named : Bool) (m : MsgErr I G) : Out Unit (MsgErr I G) := if named then .err () else .ok m

/-- `verify_messages_constitute_error`, src/protocols/interactive_signing.rs:353-915 -/
def verifyMessages (E : Env q I Ep G) (named : Bool) (a : AssocData q I Ep G) (guilty : I) : (e : Err I) → Package I (Parts q I G) e.round → Evidence
  | .r1EncElg0Failed, p =>
    (p.cur .direct).bind fun (dm : EncElgProof q G × EncElgProof q G) =>
    (p.cur .echo).bind fun (eb : Echo1 G) =>
    (a.auxOf guilty).bind fun pub => (precompute pub).bind fun pub =>
    (dm.1.verify E.P E.encH E.C.g (eb.pub0 pub.pk) pub.rp.rp (a.epid, guilty)).bind fun ok => .ok (!ok)
  | .r1EncElg1Failed, p =>
    (p.cur .direct).bind fun (dm : EncElgProof q G × EncElgProof q G) =>
    (p.cur .echo).bind fun (eb : Echo1 G) =>
    (a.auxOf guilty).bind fun pub => (precompute pub).bind fun pub =>
    (dm.2.verify E.P E.encH E.C.g (eb.pub1 pub.pk) pub.rp.rp (a.epid, guilty)).bind fun ok => .ok (!ok)
  | .r2WrongIdsD, p => (p.cur .normal).bind fun (nb : Normal2 q I G) => .ok (decide (nb.capDs.keySet ≠ a.others guilty))
  | .r2WrongIdsF, p => (p.cur .echo).bind fun (eb : Echo2 I G) => .ok (decide (eb.capFs.keySet ≠ a.others guilty))
  | .r2WrongIdsPsi, p => (p.cur .normal).bind fun (nb : Normal2 q I G) => .ok (decide (nb.psis.keySet ≠ a.others guilty))
  | .r2AffGPsiFailed failedFor, p =>
    (p.echos 1).bind fun (echos1 : BMap I (Echo1 G)) =>
    (Out.ofOption () (echos1.get? failedFor)).bind fun _ =>
    (p.cur .echo).bind fun (eb : Echo2 I G) =>
    (p.cur .normal).bind fun (nb : Normal2 q I G) =>
    evidenceAffG E a guilty failedFor echos1 (.ok eb.capGamma) nb.psis nb.capDs eb.capFs
  | .r2AffGHatPsiFailed failedFor, p =>
    (p.echos 1).bind fun (echos1 : BMap I (Echo1 G)) =>
    (Out.ofOption () (echos1.get? failedFor)).bind fun _ =>
    (p.cur .echo).bind fun (eb : Echo2 I G) =>
    (p.cur .normal).bind fun (nb : Normal2 q I G) =>
    evidenceAffG E a guilty failedFor echos1 (Out.ofOption () (a.shares.get? failedFor)) nb.hatPsis nb.hatCapDs eb.hatCapFs
  | .r2ElogFailed, p =>
    (p.prev 1 .echo).bind fun (e1 : Echo1 G) =>
    (p.cur .normal).bind fun (nb : Normal2 q I G) =>
    (p.cur .echo).bind fun (eb : Echo2 I G) =>
    .ok (!nb.psiElog.verify E.elogH E.C.g (⟨e1.capB1, e1.capB2, e1.capY, eb.capGamma, E.C.g⟩ : ElogPublic G) (a.epid, guilty))
  | .r3ElogFailed, p =>
    (p.prev 1 .echo).bind fun (e1 : Echo1 G) =>
    (p.prev 2 .echo).bind fun (e2 : Echo2 I G) =>
    (p.cur .normal).bind fun (nb : Normal3 q G) =>
    .ok (!nb.psiPrime.verify E.elogH E.C.g (⟨e1.capA1, e1.capA2, e1.capY, nb.capDelta, e2.capGamma⟩ : ElogPublic G) (a.epid, guilty))
  | .r4InvalidSignatureShare, p =>
    (p.echos 2).bind fun (echos2 : BMap I (Echo2 I G)) =>
    (p.prev 2 .echo).bind fun (e2 : Echo2 I G) =>
    (p.prev 3 .normal).bind fun (nb3 : Normal3 q G) =>
    (p.echos 3).bind fun (echos3 : BMap I (ZMod q)) =>
    (p.prev 3 .echo).bind fun (delta3 : ZMod q) =>
    (p.cur .normal).bind fun (sigma : ZMod q) =>
    let capGamma := e2.capGamma + (echos2.values.map fun e => e.capGamma).sum
    let nonce := E.C.xCoordinate q capGamma
    let delta := delta3 + echos3.values.sum
    if delta = 0 then .err ()
    else .ok (decide (sigma • capGamma ≠ a.message • delta⁻¹ • nb3.capDelta + nonce • delta⁻¹ • nb3.capS))
  | .decFailed false, p =>
    (p.prev 1 .echo).bind fun (e1 : Echo1 G) =>
    (p.echos 2).bind fun (echos2 : BMap I (Echo2 I G)) =>
    (p.prev 2 .normal).bind fun (nb2 : Normal2 q I G) =>
    (p.prev 2 .echo).bind fun (e2 : Echo2 I G) =>
    (p.prev 3 .normal).bind fun (nb3 : Normal3 q G) =>
    (p.cur .echo).bind fun (m : MsgErr I G) =>
    evidenceDec E a guilty e1 nb2.capDs (fun id => (Out.ofOption () (echos2.get? id)).bind fun e => Out.ofOption () (e.capFs.get? guilty)) (.ok e2.capGamma)
      nb3.capDelta E.C.g m.psiStar
  | .wrongIdsPsi false, p => (p.cur .normal).bind fun (m : MsgErr I G) => .ok (decide (m.psis.keySet ≠ a.others guilty))
  | .affGStarFailed false failedFor, p =>
    (p.echos 1).bind fun (echos1 : BMap I (Echo1 G)) =>
    (p.echos 2).bind fun (echos2 : BMap I (Echo2 I G)) =>
    (p.prev 2 .normal).bind fun (nb2 : Normal2 q I G) =>
    (p.prev 2 .echo).bind fun (e2 : Echo2 I G) =>
    (p.cur .echo).bind fun (m : MsgErr I G) =>
    (a.auxOf failedFor).bind fun forAux =>
    (a.auxOf guilty).bind fun fromAux =>
    (publicModulusNew forAux.pk).bind fun forPk =>
    (publicModulusNew fromAux.pk).bind fun fromPk =>
    (Out.ofOption () (nb2.capDs.get? failedFor)).bind fun capD =>
    (Out.ofOption () (echos1.get? failedFor)).bind fun r1 =>
    (Out.ofOption () (echos2.get? failedFor)).bind fun r2 =>
    (Out.ofOption () (r2.capFs.get? guilty)).bind fun capF =>
    (Out.ofOption () (m.psis.get? failedFor)).bind fun psi =>
    (starVerify E fromPk forPk psi (.ofWire forPk capD) (.ofWire forPk r1.capK) (.ofWire fromPk capF) e2.capGamma (a.epid, guilty)).bind fun ok => .ok (!ok)
  | .decFailed true, p =>
    (p.prev 1 .echo).bind fun (e1 : Echo1 G) =>
    (p.echos 2).bind fun (echos2 : BMap I (Echo2 I G)) =>
    (p.prev 2 .normal).bind fun (nb2 : Normal2 q I G) =>
    (p.prev 2 .echo).bind fun (e2 : Echo2 I G) =>
    (p.prev 3 .normal).bind fun (nb3 : Normal3 q G) =>
    (p.cur .echo).bind fun (m : MsgErr I G) => (asRound5 named m).bind fun m =>
    evidenceDec E a guilty e1 nb2.hatCapDs (fun id => (Out.ofOption () (echos2.get? id)).bind fun e => Out.ofOption () (e.hatCapFs.get? guilty))
      (Out.ofOption () (a.shares.get? guilty)) nb3.capS (e2.capGamma + (echos2.values.map fun e => e.capGamma).sum) m.psiStar
  | .wrongIdsPsi true, p => (p.cur .normal).bind fun (m : MsgErr I G) => .ok (decide (m.psis.keySet ≠ a.others guilty))
  | .affGStarFailed true failedFor, p =>
    (p.echos 1).bind fun (echos1 : BMap I (Echo1 G)) =>
    (p.echos 2).bind fun (echos2 : BMap I (Echo2 I G)) =>
    (p.prev 2 .normal).bind fun (nb2 : Normal2 q I G) =>
    (p.cur .echo).bind fun (m : MsgErr I G) =>
    (a.auxOf failedFor).bind fun forAux =>
    (a.auxOf guilty).bind fun fromAux =>
    (publicModulusNew forAux.pk).bind fun forPk =>
    (publicModulusNew fromAux.pk).bind fun fromPk =>
    (Out.ofOption () (a.shares.get? failedFor)).bind fun capX =>
    (Out.ofOption () (nb2.hatCapDs.get? failedFor)).bind fun capD =>
    (Out.ofOption () (echos1.get? failedFor)).bind fun r1 =>
    (Out.ofOption () (echos2.get? failedFor)).bind fun r2 =>
    (Out.ofOption () (r2.hatCapFs.get? guilty)).bind fun capF =>
    (Out.ofOption () (m.psis.get? failedFor)).bind fun psi =>
    (starVerify E fromPk forPk psi (.ofWire forPk capD) (.ofWire forPk r1.capK) (.ofWire fromPk capF) capX (a.epid, guilty)).bind fun ok => .ok (!ok)

/-- The messages of a party in the rounds 1 to 6, src/protocols/interactive_signing.rs:1136-1205, 1509-1539, 1855-1869, 2021-2027, 2120-2210, 2338-2453; those of the
rounds 4, 5 and 6 if it gets there -/
def transcript (m1 : Msg1 q G) (m2 : Msg2 q I G) (m3 : Msg3 q G) (sigma : Option (ZMod q)) (m5 m6 : Option (MsgErr I G)) (echos1 : BMap I (Echo1 G))
    (echos2 : BMap I (Echo2 I G)) (echos3 : BMap I (ZMod q)) (echos5 echos6 : BMap I (MsgErr I G)) : Transcript I (Parts q I G) where
  msg
    | 1, .echo => some m1.echo
    | 1, .direct => some (m1.psi0, m1.psi1)
    | 2, .echo => some m2.echo
    | 2, .normal => some ⟨m2.capDs, m2.hatCapDs, m2.psiElog, m2.psis, m2.hatPsis⟩
    | 3, .echo => some m3.delta
    | 3, .normal => some ⟨m3.capDelta, m3.psiPrime, m3.capS⟩
    | 4, .normal => sigma
    | 5, .echo => m5
    | 6, .echo => m6
    | _, _ => none
  combined
    | 1 => echos1
    | 2 => echos2
    | 3 => echos3
    | 5 => echos5
    | 6 => echos6
    | _ => .empty

end Signing
end Synedrion
